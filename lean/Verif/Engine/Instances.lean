import Verif.Engine.Build
/-! # C16: engine instances are isolated except for shared cells and pools -/

namespace Verif.Engine
open Verif.Avro Verif.Path

/-- Is `n` declared as an unshared cell (pool)?  Every other name an instance has is shared. -/
def Private {α : Type} (l : List (Conf α)) (n : String) : Prop :=
  ∃ k ∈ l, k.name = n ∧ k.shared = false

/-- Is `n` declared rollback? -/
def declaredRollback {α : Type} (l : List (Conf α)) (n : String) : Bool :=
  l.any fun k => k.name == n && k.rollback

/-- A system built from `c`, after any history. -/
structure GInv (c : Config) (s : Sys) : Prop where
  ok : ∀ i, i < s.count → Ok (fun p => p < s.world.nextPool) (s.inst i)
    (declaredRollback c.cells) (declaredRollback c.pools) s.world
  /-- Private cells of different instances are different objects. -/
  cpriv : ∀ i j n m x, i < s.count → j < s.count → i ≠ j → Private c.cells n →
    PyDict.get? (s.inst i).cells n = some x → PyDict.get? (s.inst j).cells m ≠ some x
  ppriv : ∀ i j n m x, i < s.count → j < s.count → i ≠ j → Private c.pools n →
    PyDict.get? (s.inst i).pools n = some x → PyDict.get? (s.inst j).pools m ≠ some x
  /-- A shared name is the same object in every instance. -/
  cshared : ∀ i j n, i < s.count → j < s.count → ¬ Private c.cells n →
    PyDict.get? (s.inst i).cells n = PyDict.get? (s.inst j).cells n
  pshared : ∀ i j n, i < s.count → j < s.count → ¬ Private c.pools n →
    PyDict.get? (s.inst i).pools n = PyDict.get? (s.inst j).pools n
  out : ∀ i, i < s.count → (s.inst i).out = i

/-- The shared state handed to `fromAst` is usable: its objects exist, distinct names are distinct
objects, none is declared rollback.  An empty `SharedState` is (`Shared.ok_empty`). -/
structure Shared.Ok (sh : Shared) (w : World) : Prop where
  cmap : CMap sh.cells w
  pmap : PMap sh.pools w
  crb : ∀ n i, PyDict.get? sh.cells n = some i → (w.cell i).rollback = false
  prb : ∀ n i, PyDict.get? sh.pools n = some i → (w.pool i).rollback = false
  live : AllLive w

theorem Shared.ok_empty (w : World) (h : AllLive w) : Shared.Ok ⟨[], []⟩ w :=
  ⟨⟨by decide, by simp [PyDict.get?_nil], by simp [PyDict.get?_nil]⟩,
   ⟨by decide, by simp [PyDict.get?_nil], by simp [PyDict.get?_nil]⟩,
   by simp [PyDict.get?_nil], by simp [PyDict.get?_nil], h⟩

theorem CMap.ext {cs : PyDict String Nat} {w w' : World} (h : CMap cs w) (he : Ext w w') :
    CMap cs w' := ⟨h.wf, fun n i hi => Nat.lt_of_lt_of_le (h.lt n i hi) he.nextCell, h.inj⟩

theorem PMap.ext {ps : PyDict String Nat} {w w' : World} (h : PMap ps w) (he : Ext w w') :
    PMap ps w' := ⟨h.wf, fun n i hi => Nat.lt_of_lt_of_le (h.lt n i hi) he.nextPool, h.inj⟩

theorem Shared.Ok.ext {sh : Shared} {w w' : World} (h : Shared.Ok sh w) (he : Ext w w')
    (hl : AllLive w') : Shared.Ok sh w' :=
  ⟨h.cmap.ext he, h.pmap.ext he,
   fun n i hi => by rw [he.cell i (h.cmap.lt n i hi)]; exact h.crb n i hi,
   fun n i hi => by rw [he.pool i (h.pmap.lt n i hi)]; exact h.prb n i hi, hl⟩

theorem name_unique {α : Type} {l : List (Conf α)} (h : (l.map (·.name)).Nodup) {a b : Conf α}
    (ha : a ∈ l) (hb : b ∈ l) (hn : a.name = b.name) : a = b :=
  List.inj_on_of_nodup_map h ha hb hn

theorem buildShared_ok (c : Config) (hc : c.Valid) (sh : Shared) (w : World) (h : sh.Ok w) :
    (buildShared c sh w).1.Ok (buildShared c sh w).2 ∧ Ext w (buildShared c sh w).2 ∧
    (∀ k ∈ c.cells, k.shared = true → ∃ i, PyDict.get? (buildShared c sh w).1.cells k.name = some i) ∧
    (∀ k ∈ c.pools, k.shared = true → ∃ i, PyDict.get? (buildShared c sh w).1.pools k.name = some i) := by
  obtain ⟨a1, a2, a3, a4, a5, a6, a7, a8, a9⟩ :=
    cellLoop_spec false c.cells hc.cnodup sh.cells w h.cmap h.live
  simp only [buildShared]
  generalize c.cells.foldl (cellStep false) (sh.cells, w) = a at *
  have hpm : PMap sh.pools a.2 := h.pmap.ext a3
  obtain ⟨b1, b2, b3, b4, b5, b8, b9⟩ :=
    poolLoop_spec false c.pools hc.pnodup sh.pools a.2 hpm a2
  generalize c.pools.foldl (poolStep false) (sh.pools, a.2) = b at *
  refine ⟨⟨a1.ext b3, b1, ?_, ?_, b2⟩, a3.trans b3, ?_, ?_⟩
  · intro n i hi
    by_cases hn : ∃ k ∈ c.cells, k.name = n ∧ picks false sh.cells k = true
    · obtain ⟨k, hk, rfl, hp⟩ := hn
      obtain ⟨j, hj, hm⟩ := a9 k hk hp
      rw [hj] at hi; obtain rfl := Option.some.inj hi
      rw [b4, hm.2.2]
      refine hc.cexcl k hk ?_
      simp only [picks] at hp
      simp at hp; exact hp.1
    · rw [a8 n (fun k hk he => by
        by_contra hcon
        exact hn ⟨k, hk, he, by simpa using hcon⟩)] at hi
      rw [b4, a3.cell i (h.cmap.lt n i hi)]
      exact h.crb n i hi
  · intro n i hi
    by_cases hn : ∃ k ∈ c.pools, k.name = n ∧ picks false sh.pools k = true
    · obtain ⟨k, hk, rfl, hp⟩ := hn
      obtain ⟨j, hj, hm⟩ := b9 k hk hp
      rw [hj] at hi; obtain rfl := Option.some.inj hi
      rw [hm.2.2.2.1]
      refine hc.pexcl k hk ?_
      simp only [picks] at hp
      simp at hp; exact hp.1
    · rw [b8 n (fun k hk he => by
        by_contra hcon
        exact hn ⟨k, hk, he, by simpa using hcon⟩)] at hi
      rw [b3.pool i (hpm.lt n i hi), a4]
      exact h.prb n i hi
  · intro k hk hs
    by_cases hp : picks false sh.cells k = true
    · obtain ⟨i, hi, -⟩ := a9 k hk hp; exact ⟨i, hi⟩
    · have hg : PyDict.has sh.cells k.name = true := by
        simp only [picks, hs] at hp; simpa using hp
      have hsame := a8 k.name (fun k' hk' he => by
        have := name_unique hc.cnodup hk' hk he
        rw [this]; simpa using hp)
      obtain ⟨i, hi⟩ := Option.isSome_iff_exists.1 (show (PyDict.get? sh.cells k.name).isSome from hg)
      exact ⟨i, by rw [hsame, hi]⟩
  · intro k hk hs
    by_cases hp : picks false sh.pools k = true
    · obtain ⟨i, hi, -⟩ := b9 k hk hp; exact ⟨i, hi⟩
    · have hg : PyDict.has sh.pools k.name = true := by
        simp only [picks, hs] at hp; simpa using hp
      have hsame := b8 k.name (fun k' hk' he => by
        have := name_unique hc.pnodup hk' hk he
        rw [this]; simpa using hp)
      obtain ⟨i, hi⟩ := Option.isSome_iff_exists.1 (show (PyDict.get? sh.pools k.name).isSome from hg)
      exact ⟨i, by rw [hsame, hi]⟩

/-- What `buildOne` guarantees about the new instance. -/
structure NewInst (c : Config) (sh : Shared) (w : World) (s : Inst) (w' : World) : Prop where
  ext : Ext w w'
  live : AllLive w'
  cmap : CMap s.cells w'
  pmap : PMap s.pools w'
  cpriv : ∀ k ∈ c.cells, k.shared = false → ∃ i, PyDict.get? s.cells k.name = some i ∧ MadeC w w' k i
  ppriv : ∀ k ∈ c.pools, k.shared = false → ∃ i, PyDict.get? s.pools k.name = some i ∧ MadeP w w' k i
  cshared : ∀ n, ¬ Private c.cells n → PyDict.get? s.cells n = PyDict.get? sh.cells n
  pshared : ∀ n, ¬ Private c.pools n → PyDict.get? s.pools n = PyDict.get? sh.pools n

theorem buildOne_new (c : Config) (hc : c.Valid) (sh : Shared) (index : Nat) (w : World)
    (h : sh.Ok w) :
    NewInst c sh w (buildOne c sh index w).1 (buildOne c sh index w).2 := by
  obtain ⟨a1, a2, a3, a4, a5, a6, a7, a8, a9⟩ :=
    cellLoop_spec true c.cells hc.cnodup sh.cells w h.cmap h.live
  simp only [buildOne]
  generalize c.cells.foldl (cellStep true) (sh.cells, w) = a at *
  have hpm : PMap sh.pools a.2 := h.pmap.ext a3
  obtain ⟨b1, b2, b3, b4, b5, b8, b9⟩ :=
    poolLoop_spec true c.pools hc.pnodup sh.pools a.2 hpm a2
  generalize c.pools.foldl (poolStep true) (sh.pools, a.2) = b at *
  refine ⟨a3.trans b3, b2, a1.ext b3, b1, ?_, ?_, ?_, ?_⟩
  · intro k hk hs
    obtain ⟨i, hi, hm⟩ := a9 k hk (by simp [picks, hs])
    exact ⟨i, hi, hm.ext b3⟩
  · intro k hk hs
    obtain ⟨i, hi, h1, h2⟩ := b9 k hk (by simp [picks, hs])
    exact ⟨i, hi, by rw [a5] at h1; exact h1, by rw [a7] at h2; exact h2⟩
  · intro n hn
    apply a8
    intro k hk he
    cases hs : k.shared with
    | true => simp [picks, hs]
    | false => exact absurd ⟨k, hk, he, hs⟩ hn
  · intro n hn
    apply b8
    intro k hk he
    cases hs : k.shared with
    | true => simp [picks, hs]
    | false => exact absurd ⟨k, hk, he, hs⟩ hn

theorem declaredRollback_eq {α : Type} {l : List (Conf α)} (h : (l.map (·.name)).Nodup)
    {k : Conf α} (hk : k ∈ l) : declaredRollback l k.name = k.rollback := by
  unfold declaredRollback
  cases hr : k.rollback with
  | true => exact List.any_eq_true.2 ⟨k, hk, by simp [hr]⟩
  | false =>
    rw [List.any_eq_false]
    intro k' hk' hcon
    simp only [Bool.and_eq_true, beq_iff_eq] at hcon
    have := name_unique h hk' hk hcon.1
    rw [this, hr] at hcon
    simp at hcon

theorem declaredRollback_of_not_private {α : Type} {l : List (Conf α)}
    (hex : ∀ k ∈ l, k.shared = true → k.rollback = false) {n : String} (hn : ¬ Private l n) :
    declaredRollback l n = false := by
  unfold declaredRollback
  rw [List.any_eq_false]
  intro k hk hcon
  simp only [Bool.and_eq_true, beq_iff_eq] at hcon
  cases hs : k.shared with
  | true => rw [hex k hk hs] at hcon; simp at hcon
  | false => exact hn ⟨k, hk, hcon.1, hs⟩

theorem NewInst.own {c : Config} (hc : c.Valid) {sh : Shared} {w w' : World} {s : Inst}
    (h : sh.Ok w) (hn : NewInst c sh w s w') :
    Own (fun p => p < w'.nextPool) s.cells s.pools (declaredRollback c.cells)
      (declaredRollback c.pools) w' where
  cwf := hn.cmap.wf
  pwf := hn.pmap.wf
  cinj := hn.cmap.inj
  pinj := hn.pmap.inj
  live := hn.pmap.lt
  crb n i hi := by
    by_cases hp : Private c.cells n
    · obtain ⟨k, hk, rfl, hs⟩ := hp
      obtain ⟨j, hj, hm⟩ := hn.cpriv k hk hs
      rw [hj] at hi; obtain rfl := Option.some.inj hi
      rw [hm.2.2, declaredRollback_eq hc.cnodup hk]
    · rw [hn.cshared n hp] at hi
      rw [hn.ext.cell i (h.cmap.lt n i hi), h.crb n i hi,
        declaredRollback_of_not_private hc.cexcl hp]
  prb n i hi := by
    by_cases hp : Private c.pools n
    · obtain ⟨k, hk, rfl, hs⟩ := hp
      obtain ⟨j, hj, hm⟩ := hn.ppriv k hk hs
      rw [hj] at hi; obtain rfl := Option.some.inj hi
      rw [hm.2.2.2.1, declaredRollback_eq hc.pnodup hk]
    · rw [hn.pshared n hp] at hi
      rw [hn.ext.pool i (h.pmap.lt n i hi), h.prb n i hi,
        declaredRollback_of_not_private hc.pexcl hp]

/-- Objects an instance owns survive the creation of further instances. -/
theorem Own.ext {cs ps : PyDict String Nat} {rbc rbp : String → Bool} {w w' : World}
    (h : Own (fun p => p < w.nextPool) cs ps rbc rbp w) (hlt : ∀ n i, PyDict.get? cs n = some i →
      i < w.nextCell) (he : Ext w w') : Own (fun p => p < w'.nextPool) cs ps rbc rbp w' where
  cwf := h.cwf
  pwf := h.pwf
  cinj := h.cinj
  pinj := h.pinj
  live n i hi := Nat.lt_of_lt_of_le (h.live n i hi) he.nextPool
  crb n i hi := by rw [he.cell i (hlt n i hi)]; exact h.crb n i hi
  prb n i hi := by rw [he.pool i (h.live n i hi)]; exact h.prb n i hi

/-- Every instance of a built system starts with zeroed counters and tally, its private cells and
pools as declared, and the shared ones of the shared state. -/
structure Fresh (c : Config) (sh : Shared) (s : Sys) (i : Nat) : Prop where
  started : (s.inst i).started = 0
  finished : (s.inst i).finished = 0
  tally : (s.inst i).tally = c.zero
  cinit : ∀ k ∈ c.cells, k.shared = false → cellContents (s.inst i) s.world k.name = some k.init
  pinit : ∀ k ∈ c.pools, k.shared = false → poolContents (s.inst i) s.world k.name = some k.init

theorem buildMany_spec (c : Config) (hc : c.Valid) (sh : Shared) (n : Nat) (w : World)
    (h : sh.Ok w) :
    let s := buildMany c sh n w
    s.count = n ∧ GInv c s ∧ sh.Ok s.world ∧ Ext w s.world ∧
      (∀ i, i < n → ∀ m x, PyDict.get? (s.inst i).cells m = some x → x < s.world.nextCell) ∧
      (∀ i, i < n → ∀ m, ¬ Private c.cells m →
        PyDict.get? (s.inst i).cells m = PyDict.get? sh.cells m) ∧
      (∀ i, i < n → ∀ m, ¬ Private c.pools m →
        PyDict.get? (s.inst i).pools m = PyDict.get? sh.pools m) ∧
      (∀ i, i < n → Fresh c sh s i) := by
  induction n with
  | zero =>
    simp only [buildMany]
    refine ⟨trivial, ⟨fun i hi => absurd hi (Nat.not_lt_zero i),
      fun i _ _ _ _ hi => absurd hi (Nat.not_lt_zero i),
      fun i _ _ _ _ hi => absurd hi (Nat.not_lt_zero i),
      fun i _ _ hi => absurd hi (Nat.not_lt_zero i),
      fun i _ _ hi => absurd hi (Nat.not_lt_zero i),
      fun i hi => absurd hi (Nat.not_lt_zero i)⟩, h, Ext.refl w,
      fun i hi => absurd hi (Nat.not_lt_zero i), fun i hi => absurd hi (Nat.not_lt_zero i),
      fun i hi => absurd hi (Nat.not_lt_zero i), fun i hi => absurd hi (Nat.not_lt_zero i)⟩
  | succ n ih =>
    obtain ⟨h1, h2, h3, h4, h5, h6, h7, h8⟩ := ih
    simp only [buildMany]
    have hnew := buildOne_new c hc sh n (buildMany c sh n w).world h3
    have hown := hnew.own hc h3
    have hfields : (buildOne c sh n (buildMany c sh n w).world).1.started = 0 ∧
      (buildOne c sh n (buildMany c sh n w).world).1.finished = 0 ∧
      (buildOne c sh n (buildMany c sh n w).world).1.tally = c.zero ∧
      (buildOne c sh n (buildMany c sh n w).world).1.out = n := ⟨rfl, rfl, rfl, rfl⟩
    generalize hs : buildMany c sh n w = s at *
    generalize hone : buildOne c sh n s.world = o at *
    obtain ⟨t, w'⟩ := o
    simp only at hnew hown hfields
    have hold : ∀ i, i < n → upd s.inst n t i = s.inst i := fun i hi => upd_ne _ _ (by omega)
    have hlast : upd s.inst n t n = t := upd_same _ _ _
    -- private objects of the new instance are new
    have hcnew : ∀ m x, Private c.cells m → PyDict.get? t.cells m = some x → s.world.nextCell ≤ x := by
      rintro m x ⟨k, hk, rfl, hs'⟩ hx
      obtain ⟨j, hj, hm⟩ := hnew.cpriv k hk hs'
      rw [hj] at hx; obtain rfl := Option.some.inj hx
      exact hm.1
    have hpnew : ∀ m x, Private c.pools m → PyDict.get? t.pools m = some x → s.world.nextPool ≤ x := by
      rintro m x ⟨k, hk, rfl, hs'⟩ hx
      obtain ⟨j, hj, hm⟩ := hnew.ppriv k hk hs'
      rw [hj] at hx; obtain rfl := Option.some.inj hx
      exact hm.1
    have hplt : ∀ i, i < n → ∀ m x, PyDict.get? (s.inst i).pools m = some x → x < s.world.nextPool :=
      fun i hi m x hx => (h2.ok i (by omega)).own.live m x hx
    refine ⟨trivial, ⟨?_, ?_, ?_, ?_, ?_, ?_⟩, h3.ext hnew.ext hnew.live, h4.trans hnew.ext, ?_, ?_, ?_, ?_⟩
    · -- ok
      intro i hi
      by_cases hin : i = n
      · subst hin; simp only [upd_same]; exact ⟨hown, hnew.live⟩
      · have hlt : i < n := by simp only at hi; omega
        simp only [hold i hlt]
        exact ⟨(h2.ok i (by omega)).own.ext (h5 i hlt) hnew.ext, hnew.live⟩
    · -- cpriv
      intro i j m m' x hi hj hij hp hx
      by_cases hin : i = n
      · subst hin
        have hjn : j < i := by simp only at hj; omega
        simp only [upd_same] at hx
        simp only [hold j hjn]
        intro hx'
        have := hcnew m x hp hx
        have := h5 j hjn m' x hx'
        omega
      · have hlt : i < n := by simp only at hi; omega
        simp only [hold i hlt] at hx
        by_cases hjn : j = n
        · subst hjn
          simp only [upd_same]
          intro hx'
          by_cases hp' : Private c.cells m'
          · have := hcnew m' x hp' hx'
            have := h5 i hlt m x hx
            omega
          · -- the new instance sees a shared object, which is also that of instance i
            rw [hnew.cshared m' hp', ← h6 i hlt m' hp'] at hx'
            have := (h2.ok i (by omega)).own.cinj m m' x hx hx'
            exact hp' (this ▸ hp)
        · have hjlt : j < n := by simp only at hj; omega
          simp only [hold j hjlt]
          exact h2.cpriv i j m m' x (by omega) (by omega) hij hp hx
    · -- ppriv
      intro i j m m' x hi hj hij hp hx
      by_cases hin : i = n
      · subst hin
        have hjn : j < i := by simp only at hj; omega
        simp only [upd_same] at hx
        simp only [hold j hjn]
        intro hx'
        have := hpnew m x hp hx
        have := hplt j hjn m' x hx'
        omega
      · have hlt : i < n := by simp only at hi; omega
        simp only [hold i hlt] at hx
        by_cases hjn : j = n
        · subst hjn
          simp only [upd_same]
          intro hx'
          by_cases hp' : Private c.pools m'
          · have := hpnew m' x hp' hx'
            have := hplt i hlt m x hx
            omega
          · rw [hnew.pshared m' hp', ← h7 i hlt m' hp'] at hx'
            have := (h2.ok i (by omega)).own.pinj m m' x hx hx'
            exact hp' (this ▸ hp)
        · have hjlt : j < n := by simp only at hj; omega
          simp only [hold j hjlt]
          exact h2.ppriv i j m m' x (by omega) (by omega) hij hp hx
    · -- cshared
      intro i j m hi hj hp
      have : ∀ i, i < n + 1 → PyDict.get? (upd s.inst n t i).cells m = PyDict.get? sh.cells m := by
        intro i hi
        by_cases hin : i = n
        · subst hin; rw [upd_same]; exact hnew.cshared m hp
        · rw [hold i (by omega)]; exact h6 i (by omega) m hp
      simp only at hi hj ⊢
      rw [this i hi, this j hj]
    · -- pshared
      intro i j m hi hj hp
      have : ∀ i, i < n + 1 → PyDict.get? (upd s.inst n t i).pools m = PyDict.get? sh.pools m := by
        intro i hi
        by_cases hin : i = n
        · subst hin; rw [upd_same]; exact hnew.pshared m hp
        · rw [hold i (by omega)]; exact h7 i (by omega) m hp
      simp only at hi hj ⊢
      rw [this i hi, this j hj]
    · intro i hi
      by_cases hin : i = n
      · subst hin; simp only [upd_same]; exact hfields.2.2.2
      · simp only at hi
        simp only [hold i (show i < n by omega)]
        exact h2.out i (by omega)
    · intro i hi m x hx
      by_cases hin : i = n
      · subst hin; rw [upd_same] at hx; exact hnew.cmap.lt m x hx
      · rw [hold i (by omega)] at hx
        exact Nat.lt_of_lt_of_le (h5 i (by omega) m x hx) hnew.ext.nextCell
    · intro i hi m hp
      by_cases hin : i = n
      · subst hin; rw [upd_same]; exact hnew.cshared m hp
      · rw [hold i (by omega)]; exact h6 i (by omega) m hp
    · intro i hi m hp
      by_cases hin : i = n
      · subst hin; rw [upd_same]; exact hnew.pshared m hp
      · rw [hold i (by omega)]; exact h7 i (by omega) m hp
    · intro i hi
      by_cases hin : i = n
      · subst hin
        refine ⟨by simp only [upd_same]; exact hfields.1, by simp only [upd_same]; exact hfields.2.1,
          by simp only [upd_same]; exact hfields.2.2.1, ?_, ?_⟩
        · intro k hk hsh
          obtain ⟨j, hj, hm⟩ := hnew.cpriv k hk hsh
          simp only [cellContents, abs, view, upd_same, hj, Option.map_some, hm.2.2]
        · intro k hk hsh
          obtain ⟨j, hj, hm⟩ := hnew.ppriv k hk hsh
          simp only [poolContents, abs, view, upd_same, hj, Option.map_some, hm.2.2.2.2.1]
      · have hlt : i < n := by omega
        have hf := h8 i hlt
        refine ⟨by simp only [hold i hlt]; exact hf.1, by simp only [hold i hlt]; exact hf.2,
          by simp only [hold i hlt]; exact hf.3, ?_, ?_⟩
        · intro k hk hsh
          have := hf.cinit k hk hsh
          simp only [cellContents, abs, view, hold i hlt] at this ⊢
          cases hg : PyDict.get? (s.inst i).cells k.name with
          | none => rw [hg] at this; simp at this
          | some x =>
            rw [hg] at this
            simpa [hnew.ext.cell x (h5 i hlt _ x hg)] using this
        · intro k hk hsh
          have := hf.pinit k hk hsh
          simp only [poolContents, abs, view, hold i hlt] at this ⊢
          cases hg : PyDict.get? (s.inst i).pools k.name with
          | none => rw [hg] at this; simp at this
          | some x =>
            rw [hg] at this
            have hx := hplt i hlt _ x hg
            have hv := (h2.ok i (by omega)).live.lt x hx
            simpa [hnew.ext.pool x hx, hnew.ext.dict _ hv] using this

/-- `fromAst` gives a well formed system of `n` new instances. -/
theorem build_ok (c : Config) (hc : c.Valid) (sh : Shared) (n : Nat) (w : World) (h : sh.Ok w) :
    (build c sh n w).count = n ∧ GInv c (build c sh n w) ∧
      ∀ i, i < n → Fresh c (buildShared c sh w).1 (build c sh n w) i := by
  obtain ⟨h1, -⟩ := buildShared_ok c hc sh w h
  obtain ⟨g1, g2, -, -, -, -, -, g8⟩ := buildMany_spec c hc _ n _ h1
  exact ⟨g1, g2, g8⟩

/-! ## Calls on systems -/

/-- One call on instance `i`. -/
theorem Sys.call_spec {c : Config} (e : Def) {s s' : Sys} {i : Nat} {k : Call} {r : Res Val}
    (h : GInv c s) (hi : i < s.count) (hc : s.call e i k = (r, s')) :
    s'.count = s.count ∧ GInv c s' ∧
      scall (declaredRollback c.cells) (declaredRollback c.pools) e k (abs (s.inst i) s.world) =
        (r, abs (s'.inst i) s'.world) ∧
      (∀ j, j < s.count → j ≠ i →
        (s'.inst j) = s.inst j ∧
        (∀ n, Private c.cells n → cellContents (s'.inst j) s'.world n = cellContents (s.inst j) s.world n) ∧
        (∀ n, Private c.pools n → poolContents (s'.inst j) s'.world n = poolContents (s.inst j) s.world n) ∧
        (abs (s'.inst j) s'.world).store.emitted = (abs (s.inst j) s.world).store.emitted) := by
  unfold Sys.call at hc
  cases hk : Engine.call e k (s.inst i) s.world with
  | mk r1 p =>
    obtain ⟨t, w'⟩ := p
    rw [hk] at hc
    simp only [Prod.mk.injEq] at hc
    obtain ⟨rfl, rfl⟩ := hc
    obtain ⟨a1, a2, a3, a4, a5, a6⟩ := call_refines e k (h.ok i hi) hk
    have hnp : w'.nextPool = s.world.nextPool := a5.nextPool
    have hmap : ∀ j, (upd s.inst i t j).cells = (s.inst j).cells ∧
        (upd s.inst i t j).pools = (s.inst j).pools ∧ (upd s.inst i t j).out = (s.inst j).out := by
      intro j
      by_cases hj : j = i
      · subst hj; simp [a2, a3, a4]
      · simp [upd_ne _ _ hj]
    refine ⟨rfl, ⟨?_, ?_, ?_, ?_, ?_, ?_⟩, by simpa using a1, ?_⟩
    · intro j hj
      simp only [hnp]
      by_cases hji : j = i
      · subst hji; simpa using a6
      · simp only [upd_ne _ _ hji]
        exact ⟨(h.ok j hj).own.mono a5, a6.live⟩
    · intro j j' n m x hj hj' hne hp
      simp only [(hmap j).1, (hmap j').1]
      exact h.cpriv j j' n m x hj hj' hne hp
    · intro j j' n m x hj hj' hne hp
      simp only [(hmap j).2.1, (hmap j').2.1]
      exact h.ppriv j j' n m x hj hj' hne hp
    · intro j j' n hj hj' hp
      simp only [(hmap j).1, (hmap j').1]
      exact h.cshared j j' n hj hj' hp
    · intro j j' n hj hj' hp
      simp only [(hmap j).2.1, (hmap j').2.1]
      exact h.pshared j j' n hj hj' hp
    · intro j hj
      simp only [(hmap j).2.2]
      exact h.out j hj
    · intro j hj hji
      simp only [upd_ne _ _ hji]
      refine ⟨trivial, ?_, ?_, ?_⟩
      · intro n hp
        simp only [cellContents, abs, view]
        cases hg : PyDict.get? (s.inst j).cells n with
        | none => rfl
        | some x =>
          have hx : x ∉ ids (s.inst i).cells := by
            intro hmem
            obtain ⟨m, hm⟩ := ids_get? (h.ok i hi).own.cwf hmem
            exact h.cpriv j i n m x hj hi hji hp hg hm
          simp [a5.cell x hx]
      · intro n hp
        simp only [poolContents, abs, view]
        cases hg : PyDict.get? (s.inst j).pools n with
        | none => rfl
        | some x =>
          have hx : x ∉ ids (s.inst i).pools := by
            intro hmem
            obtain ⟨m, hm⟩ := ids_get? (h.ok i hi).own.pwf hmem
            exact h.ppriv j i n m x hj hi hji hp hg hm
          simp [a5.pool x hx, a5.dict x ((h.ok j hj).own.live n x hg) hx]
      · simp only [abs, view]
        apply a5.emitted
        rw [h.out j hj, h.out i hi]
        exact hji

/-- C16: after any interleaved history on a built system, the last call on instance `i` did not
change any private cell or pool, the counters, the tally or the emitted values of another
instance `j`; for any call and outcome. -/
theorem private_isolated {c : Config} (e : Def) {s : Sys} {i j : Nat} (k : Call) (h : GInv c s)
    (hi : i < s.count) (hj : j < s.count) (hij : j ≠ i) :
    let s' := (s.call e i k).2
    (∀ n, Private c.cells n → cellContents (s'.inst j) s'.world n = cellContents (s.inst j) s.world n) ∧
    (∀ n, Private c.pools n → poolContents (s'.inst j) s'.world n = poolContents (s.inst j) s.world n) ∧
    s'.inst j = s.inst j ∧
    (abs (s'.inst j) s'.world).store.emitted = (abs (s.inst j) s.world).store.emitted := by
  obtain ⟨-, -, -, h4⟩ := Sys.call_spec e h hi (r := (s.call e i k).1) (s' := (s.call e i k).2) rfl
  obtain ⟨g1, g2, g3, g4⟩ := h4 j hj hij
  exact ⟨g2, g3, g1, g4⟩

/-- C16: a shared cell or pool has the same contents for every instance, at any time; so whatever
one instance writes is what every other instance reads next. -/
theorem shared_common {c : Config} {s : Sys} (h : GInv c s) {i j : Nat} (hi : i < s.count)
    (hj : j < s.count) :
    (∀ n, ¬ Private c.cells n → cellContents (s.inst i) s.world n = cellContents (s.inst j) s.world n) ∧
    (∀ n, ¬ Private c.pools n → poolContents (s.inst i) s.world n = poolContents (s.inst j) s.world n) := by
  constructor
  · intro n hn
    simp only [cellContents, abs, view, h.cshared i j n hi hj hn]
  · intro n hn
    simp only [poolContents, abs, view, h.pshared i j n hi hj hn]

/-- The invariant (hence the two theorems above) holds after every interleaved history of calls. -/
theorem history_ginv {c : Config} (e : Def) (calls : List (Nat × Call)) {s : Sys} (h : GInv c s)
    (hc : ∀ p ∈ calls, p.1 < s.count) :
    GInv c (Sys.history e calls s).2 ∧ (Sys.history e calls s).2.count = s.count := by
  induction calls generalizing s with
  | nil => exact ⟨h, rfl⟩
  | cons p ps ih =>
    obtain ⟨i, k⟩ := p
    have hi : i < s.count := hc _ List.mem_cons_self
    obtain ⟨g1, g2, -, -⟩ := Sys.call_spec e h hi (r := (s.call e i k).1) (s' := (s.call e i k).2) rfl
    obtain ⟨i1, i2⟩ := ih g2 (fun p hp => by rw [g1]; exact hc p (List.mem_cons_of_mem _ hp))
    simp only [Sys.history]
    exact ⟨i1, by rw [i2, g1]⟩

/-- C16 over histories: in a document without shared cells or pools, built with a new shared state,
the outcomes and the final state of instance `i` after any interleaving of calls on all instances
are those of instance `i` given only its own calls. -/
theorem isolated_history {c : Config} (hcs : ∀ k ∈ c.cells, k.shared = false)
    (hps : ∀ k ∈ c.pools, k.shared = false) (e : Def) (i : Nat) (calls : List (Nat × Call))
    {s : Sys} (h : GInv c s)
    (hnoc : ∀ n, ¬ Private c.cells n → PyDict.get? (s.inst i).cells n = none)
    (hnop : ∀ n, ¬ Private c.pools n → PyDict.get? (s.inst i).pools n = none)
    (hi : i < s.count) (hc : ∀ p ∈ calls, p.1 < s.count) :
    let out := Sys.history e calls s
    let mine := (calls.zip out.1).filter fun pr => pr.1.1 == i
    shistory (declaredRollback c.cells) (declaredRollback c.pools) e
        (mine.map fun pr => pr.1.2) (abs (s.inst i) s.world) =
      (mine.map Prod.snd, abs (out.2.inst i) out.2.world) := by
  induction calls generalizing s with
  | nil => simp [Sys.history, shistory]
  | cons p ps ih =>
    obtain ⟨j, k⟩ := p
    have hj : j < s.count := hc _ List.mem_cons_self
    obtain ⟨g1, g2, g3, g4⟩ :=
      Sys.call_spec e h hj (r := (s.call e j k).1) (s' := (s.call e j k).2) rfl
    have hmaps : ((s.call e j k).2.inst i).cells = (s.inst i).cells ∧
        ((s.call e j k).2.inst i).pools = (s.inst i).pools := by
      by_cases hij : i = j
      · subst hij
        have := call_refines e k (h.ok i hi) (r := (call e k (s.inst i) s.world).1)
          (s' := (call e k (s.inst i) s.world).2.1) (w' := (call e k (s.inst i) s.world).2.2) rfl
        simp [Sys.call, this.2.1, this.2.2.1]
      · rw [(g4 i hi hij).1]; exact ⟨rfl, rfl⟩
    have ih := ih g2 (by rw [hmaps.1]; exact hnoc) (by rw [hmaps.2]; exact hnop) (by rw [g1]; exact hi)
      (fun p hp => by rw [g1]; exact hc p (List.mem_cons_of_mem _ hp))
    simp only [Sys.history, List.zip_cons_cons, List.filter_cons] at ih ⊢
    by_cases hij : j = i
    · subst hij
      simp only [beq_self_eq_true, if_true, List.map_cons, shistory, g3, ih]
    · have hne : (j == i) = false := by simpa using hij
      simp only [hne, Bool.false_eq_true, if_false]
      obtain ⟨k1, k2, k3, k4⟩ := g4 i hi (fun h => hij h.symm)
      have habs : abs ((s.call e j k).2.inst i) (s.call e j k).2.world = abs (s.inst i) s.world := by
        have hst : (abs ((s.call e j k).2.inst i) (s.call e j k).2.world).store
            = (abs (s.inst i) s.world).store := by
          have hcells : (abs ((s.call e j k).2.inst i) (s.call e j k).2.world).store.cells
              = (abs (s.inst i) s.world).store.cells := by
            funext n
            by_cases hp : Private c.cells n
            · exact k2 n hp
            · simp only [abs, view, k1, hnoc n hp, Option.map_none]
          have hpools : (abs ((s.call e j k).2.inst i) (s.call e j k).2.world).store.pools
              = (abs (s.inst i) s.world).store.pools := by
            funext n
            by_cases hp : Private c.pools n
            · exact k3 n hp
            · simp only [abs, view, k1, hnop n hp, Option.map_none]
          generalize (abs ((s.call e j k).2.inst i) (s.call e j k).2.world).store = st1 at *
          generalize (abs (s.inst i) s.world).store = st2 at *
          cases st1; cases st2; simp_all
        unfold abs at hst ⊢
        simp only at hst
        rw [hst, k1]
      rw [habs] at ih
      exact ih

end Verif.Engine
