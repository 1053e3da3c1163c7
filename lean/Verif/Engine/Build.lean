import Verif.Engine.Theorems
/-! # Building engine instances (PFAEngine.fromAst) and systems of several instances -/

namespace Verif.Engine
open Verif.Avro Verif.Path

/-- A cell or pool declaration (`titus.pfaast.Cell` 1109, `titus.pfaast.Pool` 1210).  Simplified:
`init` is the already decoded initial value; decoding errors stop `fromAst` before it returns. -/
structure Conf (α : Type) where
  name : String
  init : α
  shared : Bool
  rollback : Bool

/-- The parts of an `EngineConfig` used by `fromAst`; `cells` and `pools` are dicts. -/
structure Config where
  cells : List (Conf Val)
  pools : List (Conf (PyDict String Val))
  zero : Val

/-- What the parser guarantees (pfaast.py 1145, 1245: shared and rollback exclude each other;
the declarations are the items of a dict). -/
structure Config.Valid (c : Config) : Prop where
  cnodup : (c.cells.map (·.name)).Nodup
  pnodup : (c.pools.map (·.name)).Nodup
  cexcl : ∀ k ∈ c.cells, k.shared = true → k.rollback = false
  pexcl : ∀ k ∈ c.pools, k.shared = true → k.rollback = false

/-- `Cell(value, shared, rollback, source)`: a new object (genpy.py 525-530). -/
def allocCell (w : World) (k : Conf Val) : World :=
  { w with cell := upd w.cell w.nextCell ⟨k.init, none, k.shared, k.rollback⟩
           nextCell := w.nextCell + 1 }

/-- `Pool(value, shared, rollback, source)`: a new object holding a new dict (genpy.py 559-564). -/
def allocPool (w : World) (k : Conf (PyDict String Val)) : World :=
  { w with dict := upd w.dict w.nextDict k.init
           pool := upd w.pool w.nextPool ⟨w.nextDict, none, k.shared, k.rollback⟩
           nextPool := w.nextPool + 1
           nextDict := w.nextDict + 1 }

/-- One step of the loops over the cell declarations (genpy.py 1502-1505 with `own = false`,
1517-1520 with `own = true`). -/
def cellStep (own : Bool) (st : PyDict String Nat × World) (k : Conf Val) :
    PyDict String Nat × World :=
  if (if own then !k.shared else k.shared && !(PyDict.has st.1 k.name)) then
    (PyDict.set st.1 k.name st.2.nextCell, allocCell st.2 k)
  else st

/-- One step of the loops over the pool declarations (genpy.py 1507-1510, 1522-1525). -/
def poolStep (own : Bool) (st : PyDict String Nat × World) (k : Conf (PyDict String Val)) :
    PyDict String Nat × World :=
  if (if own then !k.shared else k.shared && !(PyDict.has st.1 k.name)) then
    (PyDict.set st.1 k.name st.2.nextPool, allocPool st.2 k)
  else st

/-- `SharedState` (genpy.py 505-513): dicts of shared cells and pools. -/
structure Shared where
  cells : PyDict String Nat
  pools : PyDict String Nat

/-- Fill the shared state (genpy.py 1502-1510). -/
def buildShared (c : Config) (sh : Shared) (w : World) : Shared × World :=
  let a := c.cells.foldl (cellStep false) (sh.cells, w)
  let b := c.pools.foldl (poolStep false) (sh.pools, a.2)
  (⟨a.1, b.1⟩, b.2)

/-- One instance (genpy.py 1513-1541); `index` is also used to name its emit callback. -/
def buildOne (c : Config) (sh : Shared) (index : Nat) (w : World) : Inst × World :=
  let a := c.cells.foldl (cellStep true) (sh.cells, w)
  let b := c.pools.foldl (poolStep true) (sh.pools, a.2)
  (⟨a.1, b.1, 0, 0, c.zero, index⟩, b.2)

/-- Several engine instances in one heap. -/
structure Sys where
  count : Nat
  inst : Nat → Inst
  world : World

/-- The loop `for index in range(multiplicity)` (genpy.py 1512-1558). -/
def buildMany (c : Config) (sh : Shared) : Nat → World → Sys
  | 0, w => ⟨0, fun _ => ⟨[], [], 0, 0, .null, 0⟩, w⟩
  | n + 1, w =>
    let s := buildMany c sh n w
    let o := buildOne c sh n s.world
    ⟨n + 1, upd s.inst n o.1, o.2⟩

/-- `PFAEngine.fromAst(config, sharedState=sh, multiplicity=n)` in a heap `w`. -/
def build (c : Config) (sh : Shared) (n : Nat) (w : World) : Sys :=
  let s := buildShared c sh w
  buildMany c s.1 n s.2

/-- A call on instance `i`. -/
def Sys.call (e : Def) (s : Sys) (i : Nat) (c : Call) : Res Val × Sys :=
  match Engine.call e c (s.inst i) s.world with
  | (r, t, w) => (r, { s with inst := upd s.inst i t, world := w })

/-- Interleaved calls on several instances. -/
def Sys.history (e : Def) : List (Nat × Call) → Sys → List (Res Val) × Sys
  | [], s => ([], s)
  | (i, c) :: cs, s =>
    match s.call e i c with
    | (r, s) => match Sys.history e cs s with
      | (rs, s) => (r :: rs, s)

/-! ## Loops -/

/-- What a map from names to objects must satisfy in heap `w` (cells). -/
structure CMap (cs : PyDict String Nat) (w : World) : Prop where
  wf : PyDict.WF cs
  lt : ∀ n i, PyDict.get? cs n = some i → i < w.nextCell
  inj : ∀ n m i, PyDict.get? cs n = some i → PyDict.get? cs m = some i → n = m

structure PMap (ps : PyDict String Nat) (w : World) : Prop where
  wf : PyDict.WF ps
  lt : ∀ n i, PyDict.get? ps n = some i → i < w.nextPool
  inj : ∀ n m i, PyDict.get? ps n = some i → PyDict.get? ps m = some i → n = m

/-- All allocated pools have distinct allocated dicts. -/
def AllLive (w : World) : Prop := Live (fun i => i < w.nextPool) w

/-- Nothing allocated before is changed. -/
structure Ext (w w' : World) : Prop where
  cell : ∀ i, i < w.nextCell → w'.cell i = w.cell i
  pool : ∀ i, i < w.nextPool → w'.pool i = w.pool i
  dict : ∀ i, i < w.nextDict → w'.dict i = w.dict i
  nextCell : w.nextCell ≤ w'.nextCell
  nextPool : w.nextPool ≤ w'.nextPool
  nextDict : w.nextDict ≤ w'.nextDict
  emitted : w'.emitted = w.emitted

theorem Ext.refl (w : World) : Ext w w :=
  ⟨fun _ _ => rfl, fun _ _ => rfl, fun _ _ => rfl, Nat.le_refl _, Nat.le_refl _, Nat.le_refl _, rfl⟩

theorem Ext.trans {a b c : World} (h1 : Ext a b) (h2 : Ext b c) : Ext a c :=
  ⟨fun i hi => by rw [h2.cell i (Nat.lt_of_lt_of_le hi h1.nextCell), h1.cell i hi],
   fun i hi => by rw [h2.pool i (Nat.lt_of_lt_of_le hi h1.nextPool), h1.pool i hi],
   fun i hi => by rw [h2.dict i (Nat.lt_of_lt_of_le hi h1.nextDict), h1.dict i hi],
   Nat.le_trans h1.nextCell h2.nextCell, Nat.le_trans h1.nextPool h2.nextPool,
   Nat.le_trans h1.nextDict h2.nextDict, by rw [h2.emitted, h1.emitted]⟩

theorem allocCell_ext (w : World) (k : Conf Val) : Ext w (allocCell w k) where
  cell i hi := by simp [allocCell, upd_ne _ _ (Nat.ne_of_lt hi)]
  pool _ _ := rfl
  dict _ _ := rfl
  nextCell := Nat.le_succ _
  nextPool := Nat.le_refl _
  nextDict := Nat.le_refl _
  emitted := rfl

theorem allocPool_ext (w : World) (k : Conf (PyDict String Val)) : Ext w (allocPool w k) where
  cell _ _ := rfl
  pool i hi := by simp [allocPool, upd_ne _ _ (Nat.ne_of_lt hi)]
  dict i hi := by simp [allocPool, upd_ne _ _ (Nat.ne_of_lt hi)]
  nextCell := Nat.le_refl _
  nextPool := Nat.le_succ _
  nextDict := Nat.le_succ _
  emitted := rfl

theorem AllLive.allocCell {w : World} (h : AllLive w) (k : Conf Val) : AllLive (allocCell w k) :=
  ⟨h.lt, h.inj⟩

theorem AllLive.allocPool {w : World} (h : AllLive w) (k : Conf (PyDict String Val)) :
    AllLive (allocPool w k) := by
  constructor
  · intro i hi
    simp only [Engine.allocPool] at hi ⊢
    by_cases he : i = w.nextPool
    · subst he; simp
    · rw [upd_ne _ _ he]
      have := h.lt i (by omega)
      omega
  · intro i j hi hj
    simp only [Engine.allocPool] at hi hj ⊢
    by_cases he : i = w.nextPool <;> by_cases he' : j = w.nextPool
    · intro _; omega
    · subst he
      have hlt := h.lt j (by omega)
      simp only [upd_same, upd_ne _ _ he']
      omega
    · subst he'
      have hlt := h.lt i (by omega)
      simp only [upd_same, upd_ne _ _ he]
      omega
    · rw [upd_ne _ _ he, upd_ne _ _ he']
      exact h.inj i j (by omega) (by omega)

/-- The object bound to `n` was made from declaration `k`, after heap `w0`. -/
def MadeC (w0 w : World) (k : Conf Val) (i : Nat) : Prop :=
  w0.nextCell ≤ i ∧ i < w.nextCell ∧ w.cell i = ⟨k.init, none, k.shared, k.rollback⟩

/-- The object bound to a pool name was made from declaration `k`, after heap `w0`. -/
def MadeP (w0 w : World) (k : Conf (PyDict String Val)) (i : Nat) : Prop :=
  w0.nextPool ≤ i ∧ i < w.nextPool ∧ (w.pool i).shared = k.shared ∧
    (w.pool i).rollback = k.rollback ∧ w.dict (w.pool i).value = k.init ∧
    w0.nextDict ≤ (w.pool i).value ∧ (w.pool i).value < w.nextDict

theorem MadeC.ext {w0 w w' : World} {k : Conf Val} {i : Nat} (h : MadeC w0 w k i)
    (he : Ext w w') : MadeC w0 w' k i :=
  ⟨h.1, Nat.lt_of_lt_of_le h.2.1 he.nextCell, by rw [he.cell i h.2.1]; exact h.2.2⟩

theorem MadeP.ext {w0 w w' : World} {k : Conf (PyDict String Val)} {i : Nat} (h : MadeP w0 w k i)
    (he : Ext w w') : MadeP w0 w' k i := by
  obtain ⟨h1, h2, h3, h4, h5, h6, h7⟩ := h
  have hp := he.pool i h2
  exact ⟨h1, Nat.lt_of_lt_of_le h2 he.nextPool, by rw [hp, h3], by rw [hp, h4],
    by rw [hp, he.dict _ h7, h5], by rw [hp]; exact h6,
    by rw [hp]; exact Nat.lt_of_lt_of_le h7 he.nextDict⟩

/-- Is declaration `k` allocated by the loop, given what is bound at its start? -/
def picks {α : Type} (own : Bool) (cs : PyDict String Nat) (k : Conf α) : Bool :=
  if own then !k.shared else k.shared && !(PyDict.has cs k.name)

theorem cellLoop_spec (own : Bool) (l : List (Conf Val)) (hl : (l.map (·.name)).Nodup)
    (cs : PyDict String Nat) (w : World) (hc : CMap cs w) (hv : AllLive w) :
    let st := l.foldl (cellStep own) (cs, w)
    CMap st.1 st.2 ∧ AllLive st.2 ∧ Ext w st.2 ∧ st.2.pool = w.pool ∧ st.2.nextPool = w.nextPool ∧
      st.2.dict = w.dict ∧ st.2.nextDict = w.nextDict ∧
      (∀ n, (∀ k ∈ l, k.name = n → picks own cs k = false) →
        PyDict.get? st.1 n = PyDict.get? cs n) ∧
      (∀ k ∈ l, picks own cs k = true → ∃ i, PyDict.get? st.1 k.name = some i ∧ MadeC w st.2 k i) := by
  induction l generalizing cs w with
  | nil => exact ⟨hc, hv, Ext.refl w, rfl, rfl, rfl, rfl, fun _ _ => rfl, by simp⟩
  | cons k l ih =>
    simp only [List.map_cons, List.nodup_cons] at hl
    simp only [List.foldl_cons]
    have hnot : ∀ k' ∈ l, k'.name ≠ k.name := fun k' hk' he => hl.1 (List.mem_map.2 ⟨k', hk', he⟩)
    by_cases hp : picks own cs k = true
    · have hstep : cellStep own (cs, w) k = (PyDict.set cs k.name w.nextCell, allocCell w k) := by
        unfold picks at hp; simp [cellStep, hp]
      rw [hstep]
      have hc' : CMap (PyDict.set cs k.name w.nextCell) (allocCell w k) := by
        refine ⟨PyDict.set_nodup hc.wf _ _, ?_, ?_⟩
        · intro n i hi
          rw [PyDict.get?_set] at hi
          simp only [allocCell]
          split at hi
          · simp only [Option.some.injEq] at hi; omega
          · have := hc.lt n i hi; omega
        · intro n m i hn hm
          rw [PyDict.get?_set] at hn hm
          split at hn <;> split at hm
          · next h1 h2 => rw [← h1, ← h2]
          · simp only [Option.some.injEq] at hn
            have := hc.lt m i hm; omega
          · simp only [Option.some.injEq] at hm
            have := hc.lt n i hn; omega
          · exact hc.inj n m i hn hm
      obtain ⟨g1, g2, g3, g4, g5, g6, g7, g8, g9⟩ := ih hl.2 _ _ hc' (hv.allocCell k)
      have he := allocCell_ext w k
      have hpk : ∀ k' ∈ l, picks own (PyDict.set cs k.name w.nextCell) k' = picks own cs k' := by
        intro k' hk'
        simp only [picks, PyDict.has, PyDict.get?_set_ne _ _ (hnot k' hk').symm]
      refine ⟨g1, g2, he.trans g3, by rw [g4]; rfl, by rw [g5]; rfl, by rw [g6]; rfl,
        by rw [g7]; rfl, ?_, ?_⟩
      · intro n hn
        have hne : n ≠ k.name := by
          rintro rfl
          have := hn k List.mem_cons_self rfl
          rw [hp] at this; cases this
        rw [g8 n (fun k' hk' he' => by rw [hpk k' hk']; exact hn k' (List.mem_cons_of_mem _ hk') he'),
          PyDict.get?_set_ne _ _ hne.symm]
      · intro k' hk' hpk'
        rcases List.mem_cons.1 hk' with rfl | hk'
        · have hg : PyDict.get? (List.foldl (cellStep own) (PyDict.set cs k'.name w.nextCell,
              allocCell w k') l).1 k'.name = some w.nextCell := by
            rw [g8 k'.name (fun k2 hk2 he2 => absurd he2 (hnot k2 hk2)), PyDict.get?_set_self]
          refine ⟨w.nextCell, hg, ?_⟩
          have : MadeC w (allocCell w k') k' w.nextCell :=
            ⟨Nat.le_refl _, Nat.lt_succ_self _, by simp [allocCell]⟩
          exact this.ext g3
        · obtain ⟨i, h1, h2, h3, h4⟩ := g9 k' hk' (by rw [hpk k' hk']; exact hpk')
          exact ⟨i, h1, Nat.le_trans (Nat.le_succ _) h2, h3, h4⟩
    · have hp' : picks own cs k = false := by simpa using hp
      have hstep : cellStep own (cs, w) k = (cs, w) := by
        unfold picks at hp'; simp [cellStep, hp']
      rw [hstep]
      obtain ⟨g1, g2, g3, g4, g5, g6, g7, g8, g9⟩ := ih hl.2 cs w hc hv
      refine ⟨g1, g2, g3, g4, g5, g6, g7, ?_, ?_⟩
      · intro n hn
        exact g8 n (fun k' hk' he' => hn k' (List.mem_cons_of_mem _ hk') he')
      · intro k' hk' hpk'
        rcases List.mem_cons.1 hk' with rfl | hk'
        · rw [hp'] at hpk'; cases hpk'
        · exact g9 k' hk' hpk'

theorem poolLoop_spec (own : Bool) (l : List (Conf (PyDict String Val)))
    (hl : (l.map (·.name)).Nodup)
    (ps : PyDict String Nat) (w : World) (hc : PMap ps w) (hv : AllLive w) :
    let st := l.foldl (poolStep own) (ps, w)
    PMap st.1 st.2 ∧ AllLive st.2 ∧ Ext w st.2 ∧ st.2.cell = w.cell ∧ st.2.nextCell = w.nextCell ∧
      (∀ n, (∀ k ∈ l, k.name = n → picks own ps k = false) →
        PyDict.get? st.1 n = PyDict.get? ps n) ∧
      (∀ k ∈ l, picks own ps k = true → ∃ i, PyDict.get? st.1 k.name = some i ∧ MadeP w st.2 k i) := by
  induction l generalizing ps w with
  | nil => exact ⟨hc, hv, Ext.refl w, rfl, rfl, fun _ _ => rfl, by simp⟩
  | cons k l ih =>
    simp only [List.map_cons, List.nodup_cons] at hl
    simp only [List.foldl_cons]
    have hnot : ∀ k' ∈ l, k'.name ≠ k.name := fun k' hk' he => hl.1 (List.mem_map.2 ⟨k', hk', he⟩)
    by_cases hp : picks own ps k = true
    · have hstep : poolStep own (ps, w) k = (PyDict.set ps k.name w.nextPool, allocPool w k) := by
        unfold picks at hp; simp [poolStep, hp]
      rw [hstep]
      have hc' : PMap (PyDict.set ps k.name w.nextPool) (allocPool w k) := by
        refine ⟨PyDict.set_nodup hc.wf _ _, ?_, ?_⟩
        · intro n i hi
          rw [PyDict.get?_set] at hi
          simp only [allocPool]
          split at hi
          · simp only [Option.some.injEq] at hi; omega
          · have := hc.lt n i hi; omega
        · intro n m i hn hm
          rw [PyDict.get?_set] at hn hm
          split at hn <;> split at hm
          · next h1 h2 => rw [← h1, ← h2]
          · simp only [Option.some.injEq] at hn
            have := hc.lt m i hm; omega
          · simp only [Option.some.injEq] at hm
            have := hc.lt n i hn; omega
          · exact hc.inj n m i hn hm
      obtain ⟨g1, g2, g3, g4, g5, g8, g9⟩ := ih hl.2 _ _ hc' (hv.allocPool k)
      have he := allocPool_ext w k
      have hpk : ∀ k' ∈ l, picks own (PyDict.set ps k.name w.nextPool) k' = picks own ps k' := by
        intro k' hk'
        simp only [picks, PyDict.has, PyDict.get?_set_ne _ _ (hnot k' hk').symm]
      refine ⟨g1, g2, he.trans g3, by rw [g4]; rfl, by rw [g5]; rfl, ?_, ?_⟩
      · intro n hn
        have hne : n ≠ k.name := by
          rintro rfl
          have := hn k List.mem_cons_self rfl
          rw [hp] at this; cases this
        rw [g8 n (fun k' hk' he' => by rw [hpk k' hk']; exact hn k' (List.mem_cons_of_mem _ hk') he'),
          PyDict.get?_set_ne _ _ hne.symm]
      · intro k' hk' hpk'
        rcases List.mem_cons.1 hk' with rfl | hk'
        · have hg : PyDict.get? (List.foldl (poolStep own) (PyDict.set ps k'.name w.nextPool,
              allocPool w k') l).1 k'.name = some w.nextPool := by
            rw [g8 k'.name (fun k2 hk2 he2 => absurd he2 (hnot k2 hk2)), PyDict.get?_set_self]
          refine ⟨w.nextPool, hg, ?_⟩
          have : MadeP w (allocPool w k') k' w.nextPool := by
            simp [MadeP, allocPool]
          exact this.ext g3
        · obtain ⟨i, h1, h2, h3, h4, h5, h6, h7, h8⟩ := g9 k' hk' (by rw [hpk k' hk']; exact hpk')
          exact ⟨i, h1, Nat.le_trans (Nat.le_succ _) h2, h3, h4, h5, h6,
            Nat.le_trans (Nat.le_succ _) h7, h8⟩
    · have hp' : picks own ps k = false := by simpa using hp
      have hstep : poolStep own (ps, w) k = (ps, w) := by
        unfold picks at hp'; simp [poolStep, hp']
      rw [hstep]
      obtain ⟨g1, g2, g3, g4, g5, g8, g9⟩ := ih hl.2 ps w hc hv
      refine ⟨g1, g2, g3, g4, g5, ?_, ?_⟩
      · intro n hn
        exact g8 n (fun k' hk' he' => hn k' (List.mem_cons_of_mem _ hk') he')
      · intro k' hk' hpk'
        rcases List.mem_cons.1 hk' with rfl | hk'
        · rw [hp'] at hpk'; cases hpk'
        · exact g9 k' hk' hpk'

end Verif.Engine
