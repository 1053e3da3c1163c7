import Verif.Lang.Check
import Verif.Lang.Control
import Verif.Scope.Theorems
import Verif.Sig.MatchThm
/-!
# Triples for generated code (C42, C43)

What it means that a piece of generated code does not go wrong, and that it leaves its surroundings alone.
`V t v` is the relation "the datum `v` may stand for the type `t`"; it is a parameter here.

* `Agree`: every symbol that the check knows has a value of its type at run time.
* `Keep`: the code has changed no variable but those the check lets it write to, and those it declared.
* `Ok Γ Γ' Q m`: started in a state that agrees with the table `Γ`, the code `m` ends with a value that
  satisfies `Q` in a state that agrees with `Γ'`, or with an allowed error; and it has kept the rest.
* `Pres I Q m`: the same for code that keeps the invariant `I`.
-/

namespace Verif.Lang
open Avro Scope Path Sig Ast

/-- Errors that a program may end with: declared run-time errors, user errors, timeouts; and, as artefacts
of fuel, a computation cut short. -/
def Allowed : Err → Prop
  | .rt _ => True
  | .user _ _ => True
  | .timeout => True
  | e => e = recErr ∨ e = unfinished

/-! ## Chains of scopes -/

/-- The value of `x` in the scope number `i` itself. -/
def look (c : Chain Val) (i : Nat) (x : String) : Option Val := (c[i]?).bind (fun f => PyDict.get? f x)

@[simp] theorem look_zero (f : Frame Val) (c : Chain Val) (x : String) : look (f :: c) 0 x = PyDict.get? f x := rfl
@[simp] theorem look_succ (f : Frame Val) (c : Chain Val) (i : Nat) (x : String) : look (f :: c) (i + 1) x = look c i x := by
  simp [look]
@[simp] theorem look_nil (i : Nat) (x : String) : look [] i x = none := by simp [look]

/-- Reading a variable depends on the scopes one by one. -/
theorem get_congr {c c' : Chain Val} {x : String} (hl : c'.length = c.length) (h : ∀ i, look c i x = look c' i x) :
    Scope.get c x = Scope.get c' x := by
  induction c generalizing c' with
  | nil => cases c' with
    | nil => rfl
    | cons _ _ => simp at hl
  | cons f c ih => cases c' with
    | nil => simp at hl
    | cons f' c' =>
      have h0 := h 0
      simp only [look_zero] at h0
      unfold Scope.get
      rw [h0]
      rw [ih (by simpa using hl) (fun i => by simpa using h (i + 1))]

/-- The same scopes, up to the order inside. -/
structure Same (c c' : Chain Val) : Prop where
  len : c'.length = c.length
  look : ∀ i x, look c i x = look c' i x

theorem Same.refl (c : Chain Val) : Same c c := ⟨rfl, fun _ _ => rfl⟩
theorem Same.trans {a b c : Chain Val} (h : Same a b) (h' : Same b c) : Same a c :=
  ⟨h'.len.trans h.len, fun i x => (h.look i x).trans (h'.look i x)⟩
theorem Same.symm {a b : Chain Val} (h : Same a b) : Same b a := ⟨h.len.symm, fun i x => (h.look i x).symm⟩
theorem Same.get {a b : Chain Val} (h : Same a b) (x : String) : Scope.get a x = Scope.get b x :=
  get_congr h.len (fun i => h.look i x)
theorem Same.cons {a b : Chain Val} (f : Frame Val) (h : Same a b) : Same (f :: a) (f :: b) :=
  ⟨by simp [h.len], fun i x => by cases i <;> simp [h.look]⟩
theorem Same.tail {a b : Chain Val} {f g : Frame Val} (h : Same (f :: a) (g :: b)) : Same a b :=
  ⟨by simpa using h.len, fun i x => by simpa using h.look (i + 1) x⟩

/-- A symbol that the check knows and lets the code write to. -/
def W (Γ : SymTab) (x : String) : Prop := Γ.find x ≠ none ∧ Γ.writable x = true

/-- The code between `c` and `c'` has changed only variables it may write to (in the scope where they are
visible), and declared in the innermost scope names that are not visible. -/
structure Keep (Γ : SymTab) (c c' : Chain Val) : Prop where
  len : c'.length = c.length
  mono : ∀ i x, look c i x ≠ none → look c' i x ≠ none
  diff : ∀ i x, look c i x ≠ look c' i x →
    (W Γ x ∧ look c i x ≠ none ∧ ∀ j, j < i → look c j x = none) ∨
    (i = 0 ∧ Γ.find x = none ∧ validSymbolName x = true)

/-- The second table knows more symbols and allows no more writing to the old ones. -/
structure Ext (Γ Γ' : SymTab) : Prop where
  find : ∀ x t, Γ.find x = some t → Γ'.find x = some t
  writable : ∀ x, Γ.find x ≠ none → Γ'.writable x = true → Γ.writable x = true
  valid : ∀ x, Γ.find x = none → Γ'.find x ≠ none → validSymbolName x = true

theorem Ext.refl (Γ : SymTab) : Ext Γ Γ := ⟨fun _ _ h => h, fun _ _ h => h, fun _ h h' => absurd h h'⟩

theorem Ext.of_none {Γ Γ' : SymTab} (h : Ext Γ Γ') {x : String} (hx : Γ'.find x = none) : Γ.find x = none := by
  cases hf : Γ.find x with
  | none => rfl
  | some t => rw [h.find x t hf] at hx; cases hx

theorem Ext.of_some {Γ Γ' : SymTab} (h : Ext Γ Γ') {x : String} (hx : Γ.find x ≠ none) : Γ'.find x ≠ none := by
  intro hn; exact hx (h.of_none hn)

theorem Ext.trans {Γ Γ1 Γ2 : SymTab} (h : Ext Γ Γ1) (h' : Ext Γ1 Γ2) : Ext Γ Γ2 where
  find x t hx := h'.find x t (h.find x t hx)
  writable x hx hw := h.writable x hx (h'.writable x (h.of_some hx) hw)
  valid x hx hx' := by
    by_cases h1 : Γ1.find x = none
    · exact h'.valid x h1 hx'
    · exact h.valid x hx h1

/-- The symbols of the second table that the first does not have stand in the innermost scope. -/
def New (Γ Γ' : SymTab) (c : Chain Val) : Prop := ∀ x, Γ.find x = none → Γ'.find x ≠ none → look c 0 x ≠ none

theorem New.refl (Γ : SymTab) (c : Chain Val) : New Γ Γ c := fun _ h h' => absurd h h'

theorem Keep.refl (Γ : SymTab) (c : Chain Val) : Keep Γ c c := ⟨rfl, fun _ _ h => h, fun _ _ h => absurd rfl h⟩

theorem Keep.of_same {Γ : SymTab} {c c' : Chain Val} (h : Same c c') : Keep Γ c c' :=
  ⟨h.len, fun i x hx => by rw [← h.look]; exact hx, fun i x hx => absurd (h.look i x) hx⟩

theorem Keep.trans {Γ Γ1 : SymTab} {c c1 c2 : Chain Val} (he : Ext Γ Γ1) (h : Keep Γ c c1) (hn : New Γ Γ1 c1)
    (h' : Keep Γ1 c1 c2) : Keep Γ c c2 where
  len := h'.len.trans h.len
  mono i x hx := h'.mono i x (h.mono i x hx)
  diff i x hx := by
    by_cases h1 : look c i x = look c1 i x
    · rw [h1] at hx
      rcases h'.diff i x hx with ⟨hw, h2, h3⟩ | ⟨h2, h3, h4⟩
      · by_cases hf : Γ.find x = none
        · right
          have h0 := hn x hf hw.1
          refine ⟨?_, hf, he.valid x hf hw.1⟩
          rcases Nat.eq_zero_or_pos i with hi | hi
          · exact hi
          · exact absurd (h3 0 hi) h0
        · left
          refine ⟨⟨hf, he.writable x hf hw.2⟩, by rw [h1]; exact h2, fun j hj => ?_⟩
          by_contra hc
          exact h.mono j x hc (h3 j hj)
      · exact .inr ⟨h2, he.of_none h3, h4⟩
    · exact h.diff i x h1

theorem Keep.trans' {Γ : SymTab} {c c1 c2 : Chain Val} (h : Keep Γ c c1) (h' : Keep Γ c1 c2) : Keep Γ c c2 :=
  h.trans (Ext.refl Γ) (New.refl Γ c1) h'

theorem New.trans {Γ Γ1 Γ2 : SymTab} {c1 c2 : Chain Val} (hn : New Γ Γ1 c1) (hk : Keep Γ1 c1 c2) (hn' : New Γ1 Γ2 c2) :
    New Γ Γ2 c2 := fun x hx hx' => by
  by_cases h1 : Γ1.find x = none
  · exact hn' x h1 hx'
  · exact hk.mono 0 x (hn x hx h1)

/-! ## States -/

section
variable (P : Prog) (V : AType → Val → Prop)

/-- Values of the type of an expression; an expression that always raises has none. -/
def VT : Ty → Val → Prop
  | some (.avro t), v => V t v
  | _, _ => False

/-- Cells and pools hold data of their types. -/
structure WorldOk (w : World) : Prop where
  cells : ∀ c t, P.cells.get? c = some t → ∃ v, w.cells.get? c = some v ∧ V t v
  pools : ∀ p t, P.pools.get? p = some t → ∃ d, w.pools.get? p = some d ∧ V (.map t) (.dict d)

/-- Every known symbol has a value of its type. -/
def Agree (Γ : SymTab) (c : Chain Val) : Prop := ∀ x t, Γ.find x = some t → ∃ v, Scope.get c x = .ok v ∧ VT V t v

structure Inv (Γ : SymTab) (s : St) : Prop where
  agree : Agree V Γ s.chain
  world : WorldOk P V s.world
  ne : s.chain ≠ []

variable {P V}

theorem Agree.ext {Γ Γ' : SymTab} {c : Chain Val} (h : Agree V Γ' c) (he : Ext Γ Γ') : Agree V Γ c :=
  fun x t hx => h x t (he.find x t hx)

theorem Agree.same {Γ : SymTab} {c c' : Chain Val} (h : Agree V Γ c) (hs : Same c c') : Agree V Γ c' := fun x t hx => by
  obtain ⟨v, h1, h2⟩ := h x t hx
  exact ⟨v, by rw [← hs.get]; exact h1, h2⟩

theorem Inv.ext {Γ Γ' : SymTab} {s : St} (h : Inv P V Γ' s) (he : Ext Γ Γ') : Inv P V Γ s := ⟨h.agree.ext he, h.world, h.ne⟩

theorem ne_of_len {c c' : Chain Val} (hl : c'.length = c.length) (h : c ≠ []) : c' ≠ [] := by
  intro h'; rw [h'] at hl; exact h (List.length_eq_zero_iff.1 hl.symm)

variable (P V)

/-- The triple of code in a block. -/
def Ok {α : Type} (Γ Γ' : SymTab) (Q : α → Prop) (m : M α) : Prop := ∀ s, Inv P V Γ s → match m s with
  | (.ok a, s') => Q a ∧ Inv P V Γ' s' ∧ Keep Γ s.chain s'.chain ∧ New Γ Γ' s'.chain
  | (.error e, s') => Allowed e ∧ Inv P V Γ s' ∧ Keep Γ s.chain s'.chain

/-- The triple of code that keeps an invariant. -/
def Pres {α : Type} (I : St → Prop) (Q : α → Prop) (m : M α) : Prop := ∀ s, I s → match m s with
  | (.ok a, s') => Q a ∧ I s'
  | (.error e, s') => Allowed e ∧ I s'

/-- The chain is still `c`, and cells and pools are in order. -/
def Base (c : Chain Val) (s : St) : Prop := WorldOk P V s.world ∧ Same c s.chain

variable {P V}

/-! ## Rules -/

theorem Ok.pure {α : Type} {Γ : SymTab} {Q : α → Prop} {a : α} (h : Q a) : Ok P V Γ Γ Q (Pure.pure a) :=
  fun s hs => ⟨h, hs, Keep.refl _ _, New.refl _ _⟩

theorem Ok.raise {α : Type} {Γ Γ' : SymTab} {Q : α → Prop} {e : Err} (h : Allowed e) : Ok P V Γ Γ' Q (raise e) :=
  fun s hs => ⟨h, hs, Keep.refl _ _⟩

theorem Ok.mono {α : Type} {Γ Γ' : SymTab} {Q R : α → Prop} {m : M α} (h : Ok P V Γ Γ' Q m) (hq : ∀ a, Q a → R a) :
    Ok P V Γ Γ' R m := by
  intro s hs
  have := h s hs
  revert this
  rcases m s with ⟨r | r, s'⟩
  · exact id
  · exact fun hh => ⟨hq _ hh.1, hh.2⟩

theorem Ok.bind {α β : Type} {Γ Γ1 Γ2 : SymTab} {Q : α → Prop} {R : β → Prop} {m : M α} {k : α → M β}
    (he : Ext Γ Γ1) (hm : Ok P V Γ Γ1 Q m) (hk : ∀ a, Q a → Ok P V Γ1 Γ2 R (k a)) : Ok P V Γ Γ2 R (m >>= k) := by
  intro s hs
  have h1 := hm s hs
  rw [run_bind]
  revert h1
  rcases m s with ⟨r | a, s1⟩
  · exact id
  · rintro ⟨ha, hi, hkp, hn⟩
    have h2 := hk a ha s1 hi
    dsimp only
    revert h2
    rcases k a s1 with ⟨r | b, s2⟩
    · rintro ⟨h3, h4, h5⟩
      exact ⟨h3, h4.ext he, hkp.trans he hn h5⟩
    · rintro ⟨h3, h4, h5, h6⟩
      exact ⟨h3, h4, hkp.trans he hn h5, hn.trans h5 h6⟩

/-- Sequence within one table. -/
theorem Ok.seq {α β : Type} {Γ Γ2 : SymTab} {Q : α → Prop} {R : β → Prop} {m : M α} {k : α → M β}
    (hm : Ok P V Γ Γ Q m) (hk : ∀ a, Q a → Ok P V Γ Γ2 R (k a)) : Ok P V Γ Γ2 R (m >>= k) :=
  Ok.bind (Ext.refl Γ) hm hk

/-- Code checked in a new scope that has no scope of its own at run time. -/
theorem Ok.child {α : Type} {Γ Δ Δ' : SymTab} {Q : α → Prop} {m : M α} (hf : ∀ x, Δ.find x = Γ.find x)
    (hw : ∀ x, Γ.find x ≠ none → Δ.writable x = true → Γ.writable x = true) (he : Ext Δ Δ') (h : Ok P V Δ Δ' Q m) :
    Ok P V Γ Γ Q m := by
  have hg : Ext Γ Δ' := ⟨fun x t hx => he.find x t (by rw [hf]; exact hx),
    fun x hx hx' => hw x hx (he.writable x (by rw [hf]; exact hx) hx'), fun x hx hx' => he.valid x (by rw [hf]; exact hx) hx'⟩
  have hg' : Ext Γ Δ := ⟨fun x t hx => by rw [hf]; exact hx, hw, fun x hx hx' => absurd ((hf x).trans hx) hx'⟩
  have hkp : ∀ c c', Keep Δ c c' → Keep Γ c c' := fun c c' hk => ⟨hk.len, hk.mono, fun i x hx => by
    rcases hk.diff i x hx with ⟨h1, h2, h3⟩ | ⟨h1, h2, h3⟩
    · have hx' : Γ.find x ≠ none := by rw [← hf]; exact h1.1
      exact .inl ⟨⟨hx', hw x hx' h1.2⟩, h2, h3⟩
    · exact .inr ⟨h1, by rw [← hf]; exact h2, h3⟩⟩
  intro s hs
  have h1 := h s ⟨fun x t hx => hs.agree x t (by rw [← hf]; exact hx), hs.world, hs.ne⟩
  revert h1
  rcases m s with ⟨r | a, s'⟩
  · exact fun ⟨h1, h2, h3⟩ => ⟨h1, h2.ext hg', hkp _ _ h3⟩
  · exact fun ⟨h1, h2, h3, _⟩ => ⟨h1, h2.ext hg, hkp _ _ h3, New.refl _ _⟩

theorem find_new (Γ : SymTab) (a b : Bool) (x : String) : (Γ.new a b).find x = Γ.find x := rfl

theorem writable_new {Γ : SymTab} {a b : Bool} {x : String} (h : (Γ.new a b).writable x = true) : Γ.writable x = true := by
  unfold SymTab.new SymTab.writable at h
  cases b
  · cases a
    · exact h
    · cases h
  · cases h

/-- Code in a new scope without run-time scope. -/
theorem Ok.new {α : Type} {Γ Γ' : SymTab} {a b : Bool} {Q : α → Prop} {m : M α} (he : Ext (Γ.new a b) Γ')
    (h : Ok P V (Γ.new a b) Γ' Q m) : Ok P V Γ Γ Q m :=
  Ok.child (find_new Γ a b) (fun _ _ hx => writable_new hx) he h

/-- New symbols are forgotten. -/
theorem Ok.drop {α : Type} {Γ Γ' : SymTab} {Q : α → Prop} {m : M α} (he : Ext Γ Γ') (h : Ok P V Γ Γ' Q m) : Ok P V Γ Γ Q m :=
  Ok.child (fun _ => rfl) (fun _ _ hx => hx) he h

/-! ## Frames -/

/-- `Δ` is a table inside `Γ` with the symbols `S` of its own. -/
structure Child (Γ : SymTab) (S : PyDict String Ty) (Δ : SymTab) : Prop where
  own : ∀ x t, S.get? x = some t → Δ.find x = some t
  outer : ∀ x, S.get? x = none → Δ.find x = Γ.find x
  writable : ∀ x, S.get? x = none → Γ.find x ≠ none → Δ.writable x = true → Γ.writable x = true

theorem Child.new {Γ Δ : SymTab} {S : PyDict String Ty} (h : Child Γ S Δ) (a b : Bool) : Child Γ S (Δ.new a b) :=
  ⟨fun x t hx => by rw [find_new]; exact h.own x t hx, fun x hx => by rw [find_new]; exact h.outer x hx,
    fun x hx hg hw => h.writable x hx hg (writable_new hw)⟩

theorem Child.mk' (Γ : SymTab) (S : PyDict String Ty) (a b : Bool) : Child Γ S (⟨S, a, b⟩ :: Γ) where
  own x t hx := by simp [SymTab.find, hx]
  outer x hx := by simp [SymTab.find, hx]
  writable x hx _ hw := by
    unfold SymTab.writable at hw
    cases b
    · simp only [hx] at hw
      cases a
      · exact hw
      · cases hw
    · cases hw

theorem Child.base (Γ : SymTab) (a b : Bool) : Child Γ [] (Γ.new a b) := Child.mk' Γ [] a b

variable (V)
/-- A run-time scope for the symbols `S` inside `Γ`: it has them with values of their types, and what else is
in it (left over) is not visible. -/
structure FrameOk (Γ : SymTab) (S : PyDict String Ty) (f : Frame Val) : Prop where
  own : ∀ x t, S.get? x = some t → ∃ v, PyDict.get? f x = some v ∧ VT V t v
  rest : ∀ x, S.get? x = none → PyDict.get? f x ≠ none → Γ.find x = none
variable {V}

theorem FrameOk.nil (Γ : SymTab) : FrameOk V Γ [] [] := ⟨fun _ _ h => by simp at h, fun _ _ h => by simp at h⟩

theorem Inv.push {Γ Δ : SymTab} {S : PyDict String Ty} {f : Frame Val} {s : St} (hc : Child Γ S Δ) (hf : FrameOk V Γ S f)
    (h : Inv P V Γ s) : Inv P V Δ { s with chain := f :: s.chain } := by
  refine ⟨fun x t hx => ?_, h.world, by simp⟩
  cases hS : S.get? x with
  | some u =>
    rw [hc.own x u hS] at hx
    obtain rfl := Option.some.inj hx
    obtain ⟨v, h1, h2⟩ := hf.own x _ hS
    exact ⟨v, by simp [Scope.get, h1], h2⟩
  | none =>
    rw [hc.outer x hS] at hx
    obtain ⟨v, h1, h2⟩ := h.agree x t hx
    have hn : PyDict.get? f x = none := by
      by_contra hne
      rw [hf.rest x hS hne] at hx; cases hx
    exact ⟨v, by simp [Scope.get, hn, h1], h2⟩

/-- What taking the frame off again gives. -/
theorem pop {Γ Δ : SymTab} {S : PyDict String Ty} {f : Frame Val} {c c' : Chain Val} {w : World} (hc : Child Γ S Δ)
    (hf : FrameOk V Γ S f) (h : Agree V Γ c) (hne : c ≠ []) (hi : Inv P V Δ ⟨c', w⟩) (hk : Keep Δ (f :: c) c') :
    Inv P V Γ ⟨c'.tail, w⟩ ∧ Keep Γ c c'.tail ∧ FrameOk V Γ S (c'.headD []) ∧
    ((∀ x, Δ.writable x = true → S.get? x ≠ none) → Same c c'.tail) := by
  cases c' with
  | nil => exact absurd rfl hi.ne
  | cons f' c' =>
    have hlen : c'.length = c.length := by simpa using hk.len
    have hfx : ∀ x, S.get? x ≠ none → PyDict.get? f x ≠ none := fun x hx => by
      cases hS : S.get? x with
      | none => exact absurd hS hx
      | some t => obtain ⟨v, h1, -⟩ := hf.own x t hS; simp [h1]
    have hdiff : ∀ i x, look c i x ≠ look c' i x → Δ.writable x = true ∧ S.get? x = none ∧ Γ.find x ≠ none ∧
        look c i x ≠ none ∧ ∀ j, j < i → look c j x = none := fun i x hx => by
      rcases hk.diff (i + 1) x (by simpa using hx) with ⟨h1, h2, h3⟩ | ⟨h1, -⟩
      · have hS : S.get? x = none := by
          by_contra hS
          exact hfx x hS (by simpa using h3 0 (by omega))
        exact ⟨h1.2, hS, by rw [← hc.outer x hS]; exact h1.1, by simpa using h2, fun j hj => by simpa using h3 (j + 1) (by omega)⟩
      · omega
    have hf' : FrameOk V Γ S f' := by
      refine ⟨fun x t hx => ?_, fun x hx hx' => ?_⟩
      · obtain ⟨v, h1, h2⟩ := hi.agree x t (hc.own x t hx)
        have hm : PyDict.get? f' x ≠ none := by simpa using hk.mono 0 x (by simpa using hfx x (by simp [hx]))
        cases hg : PyDict.get? f' x with
        | none => exact absurd hg hm
        | some u => simp [Scope.get, hg] at h1; rw [← h1] at h2; exact ⟨u, rfl, h2⟩
      · by_cases h0 : PyDict.get? f x = none
        · rcases hk.diff 0 x (by simp only [look_zero, h0]; exact fun hh => hx' hh.symm) with ⟨-, h2, -⟩ | ⟨-, h2, -⟩
          · exact absurd h0 (by simpa using h2)
          · rw [← hc.outer x hx]; exact h2
        · exact hf.rest x hx h0
    refine ⟨⟨fun x t hx => ?_, hi.world, ne_of_len hlen hne⟩, ⟨hlen, fun i x hx => by simpa using hk.mono (i + 1) x (by simpa using hx),
      fun i x hx => ?_⟩, hf', fun hs => ⟨hlen, fun i x => ?_⟩⟩
    · cases hS : S.get? x with
      | none =>
        obtain ⟨v, h1, h2⟩ := hi.agree x t (by rw [hc.outer x hS]; exact hx)
        have hn : PyDict.get? f' x = none := by
          by_contra hne
          rw [hf'.rest x hS hne] at hx; cases hx
        simp only [Scope.get, hn] at h1
        exact ⟨v, h1, h2⟩
      | some u =>
        obtain ⟨v, h1, h2⟩ := h x t hx
        refine ⟨v, ?_, h2⟩
        rw [← h1]; symm
        refine get_congr hlen (fun i => ?_)
        by_contra hne
        have := (hdiff i x hne).2.1
        rw [hS] at this; cases this
    · obtain ⟨h1, h2, h3, h4, h5⟩ := hdiff i x hx
      exact .inl ⟨⟨h3, hc.writable x h2 h3 h1⟩, h4, h5⟩
    · by_contra hx
      obtain ⟨h1, h2, -⟩ := hdiff i x hx
      exact hs x h1 h2

/-- Code in a scope that is kept. -/
theorem Ok.kept {α : Type} {Γ Δ Δ' : SymTab} {S : PyDict String Ty} {f : Frame Val} {Q : α → Prop} {m : M α}
    (hc : Child Γ S Δ) (he : Ext Δ Δ') (hf : FrameOk V Γ S f) (h : Ok P V Δ Δ' Q m) :
    Ok P V Γ Γ (fun p => Q p.1 ∧ FrameOk V Γ S p.2) (inKept f m) := by
  intro s hs
  have h1 := h _ (hs.push hc hf)
  unfold inKept
  revert h1
  rcases m { s with chain := f :: s.chain } with ⟨r | a, s'⟩
  · rintro ⟨h1, h2, h3⟩
    obtain ⟨h4, h5, -, -⟩ := pop (c' := s'.chain) (w := s'.world) hc hf hs.agree hs.ne h2 h3
    exact ⟨h1, h4, h5⟩
  · rintro ⟨h1, h2, h3, -⟩
    obtain ⟨h4, h5, h6, -⟩ := pop (c' := s'.chain) (w := s'.world) hc hf hs.agree hs.ne (h2.ext he) h3
    exact ⟨⟨h1, h6⟩, h4, h5, New.refl _ _⟩

/-- Code in a scope of its own. -/
theorem Ok.frame {α : Type} {Γ Δ Δ' : SymTab} {S : PyDict String Ty} {f : Frame Val} {Q : α → Prop} {m : M α}
    (hc : Child Γ S Δ) (he : Ext Δ Δ') (hf : FrameOk V Γ S f) (h : Ok P V Δ Δ' Q m) : Ok P V Γ Γ Q (inFrame f m) := by
  intro s hs
  have h1 := h _ (hs.push hc hf)
  unfold inFrame
  revert h1
  rcases m { s with chain := f :: s.chain } with ⟨r | a, s'⟩
  · rintro ⟨h1, h2, h3⟩
    obtain ⟨h4, h5, -, -⟩ := pop (c' := s'.chain) (w := s'.world) hc hf hs.agree hs.ne h2 h3
    exact ⟨h1, h4, h5⟩
  · rintro ⟨h1, h2, h3, -⟩
    obtain ⟨h4, h5, -, -⟩ := pop (c' := s'.chain) (w := s'.world) hc hf hs.agree hs.ne (h2.ext he) h3
    exact ⟨h1, h4, h5, New.refl _ _⟩

/-- Code in a scope from which the check lets nothing outside be written: the outer scopes stay as they are. -/
theorem Pres.frame {α : Type} {Γ Δ Δ' : SymTab} {S : PyDict String Ty} {f : Frame Val} {Q : α → Prop} {m : M α}
    {c0 : Chain Val} (hc : Child Γ S Δ) (hs : ∀ x, Δ.writable x = true → S.get? x ≠ none) (he : Ext Δ Δ')
    (hf : FrameOk V Γ S f) (h : Ok P V Δ Δ' Q m) (ha : Agree V Γ c0) (hne : c0 ≠ []) : Pres (Base P V c0) Q (inFrame f m) := by
  intro s hb
  have hi : Inv P V Γ s := ⟨ha.same hb.2, hb.1, ne_of_len hb.2.len hne⟩
  have h1 := h _ (hi.push hc hf)
  unfold inFrame
  revert h1
  rcases m { s with chain := f :: s.chain } with ⟨r | a, s'⟩
  · rintro ⟨h1, h2, h3⟩
    obtain ⟨-, -, -, h7⟩ := pop (c' := s'.chain) (w := s'.world) hc hf hi.agree hi.ne h2 h3
    exact ⟨h1, h2.world, hb.2.trans (h7 hs)⟩
  · rintro ⟨h1, h2, h3, -⟩
    obtain ⟨-, -, -, h7⟩ := pop (c' := s'.chain) (w := s'.world) hc hf hi.agree hi.ne (h2.ext he) h3
    exact ⟨h1, h2.world, hb.2.trans (h7 hs)⟩

/-! ## Code that keeps an invariant -/

theorem Pres.pure {α : Type} {I : St → Prop} {Q : α → Prop} {a : α} (h : Q a) : Pres I Q (Pure.pure a) := fun _ hs => ⟨h, hs⟩

theorem Pres.raise {α : Type} {I : St → Prop} {Q : α → Prop} {e : Err} (h : Allowed e) : Pres I Q (raise e) := fun _ hs => ⟨h, hs⟩

theorem Pres.bind {α β : Type} {I : St → Prop} {Q : α → Prop} {R : β → Prop} {m : M α} {k : α → M β}
    (hm : Pres I Q m) (hk : ∀ a, Q a → Pres I R (k a)) : Pres I R (m >>= k) := by
  intro s hs
  have h1 := hm s hs
  rw [run_bind]
  revert h1
  rcases m s with ⟨r | a, s1⟩
  · exact id
  · rintro ⟨ha, hi⟩
    exact hk a ha s1 hi

theorem Pres.mono {α : Type} {I : St → Prop} {Q R : α → Prop} {m : M α} (h : Pres I Q m) (hq : ∀ a, Q a → R a) : Pres I R m := by
  intro s hs
  have := h s hs
  revert this
  rcases m s with ⟨r | r, s'⟩
  · exact id
  · exact fun hh => ⟨hq _ hh.1, hh.2⟩

/-- Code that leaves the scopes as they are is fine in any block. -/
theorem Ok.of_pres {α : Type} {Γ : SymTab} {Q : α → Prop} {m : M α}
    (h : ∀ c0, Agree V Γ c0 → c0 ≠ [] → Pres (Base P V c0) Q m) : Ok P V Γ Γ Q m := by
  intro s hs
  have h1 := h s.chain hs.agree hs.ne s ⟨hs.world, Same.refl _⟩
  revert h1
  rcases m s with ⟨r | a, s'⟩
  · rintro ⟨h1, h2, h3⟩
    exact ⟨h1, ⟨hs.agree.same h3, h2, ne_of_len h3.len hs.ne⟩, Keep.of_same h3⟩
  · rintro ⟨h1, h2, h3⟩
    exact ⟨h1, ⟨hs.agree.same h3, h2, ne_of_len h3.len hs.ne⟩, Keep.of_same h3, New.refl _ _⟩

theorem Pres.lift {α : Type} {I : St → Prop} {Q : α → Prop} {r : Res α} (h : match r with | .ok a => Q a | .error e => Allowed e) :
    Pres I Q (lift r) := by
  intro s hs
  unfold Lang.lift
  cases r with
  | ok a => exact ⟨h, hs⟩
  | error e => exact ⟨h, hs⟩

theorem Ok.lift {α : Type} {Γ : SymTab} {Q : α → Prop} {r : Res α} (h : match r with | .ok a => Q a | .error e => Allowed e) :
    Ok P V Γ Γ Q (lift r) := Ok.of_pres (fun _ _ _ => Pres.lift h)

/-! ## Variables -/

theorem getVar_ok {Γ : SymTab} {x : String} {t : Ty} (h : Γ.find x = some t) : Ok P V Γ Γ (VT V t) (getVar x) := by
  intro s hs
  obtain ⟨v, h1, h2⟩ := hs.agree x t h
  unfold getVar
  simp only [h1]
  exact ⟨h2, hs, Keep.refl _ _, New.refl _ _⟩

/-- Declaring variables: the names are new. -/
theorem letM_ok {Γ Γ' : SymTab} {d : List (String × Val)}
    (hnew : ∀ x ∈ d.map Prod.fst, Γ.find x = none ∧ validSymbolName x = true)
    (hown : ∀ x t, Γ.find x = none → Γ'.find x = some t → ∃ v, PyDict.get? (PyDict.update [] d) x = some v ∧ VT V t v)
    (hold : ∀ x, Γ.find x ≠ none → Γ'.find x = Γ.find x) :
    Ok P V Γ Γ' (fun v => v = .null) (letM d) := by
  intro s hs
  unfold letM
  obtain ⟨f, c, hc⟩ := List.exists_cons_of_ne_nil hs.ne
  have hwf : PyDict.WF (PyDict.update ([] : PyDict String Val) d) := Sig.update_wf _ _ (by simp [PyDict.WF, PyDict.keys])
  have hkeys : ∀ x v, PyDict.get? (PyDict.update ([] : PyDict String Val) d) x = some v → x ∈ d.map Prod.fst := fun x v hx => by
    rw [Scope.get?_update] at hx
    cases hr : PyDict.get? d.reverse x with
    | none => rw [hr] at hx; simp at hx
    | some u =>
      have := PyDict.mem_keys_of_get? hr
      simp only [PyDict.keys, List.map_reverse, List.mem_reverse] at this
      exact this
  have hget : ∀ x, PyDict.get? (PyDict.update f (PyDict.update ([] : PyDict String Val) d)) x =
      match PyDict.get? (PyDict.update ([] : PyDict String Val) d) x with | some v => some v | none => PyDict.get? f x :=
    fun x => by
      rw [Sig.get?_update' f _ hwf x]
      cases PyDict.get? (PyDict.update ([] : PyDict String Val) d) x <;> rfl
  simp only [hc, letVars]
  have hkeep : Keep Γ (f :: c) (PyDict.update f (PyDict.update ([] : PyDict String Val) d) :: c) := by
    refine ⟨rfl, fun i x hx => ?_, fun i x hx => ?_⟩
    · cases i with
      | zero =>
        simp only [look_zero, hget] at hx ⊢
        cases PyDict.get? (PyDict.update ([] : PyDict String Val) d) x with
        | none => exact hx
        | some v => simp
      | succ i => simpa using hx
    · cases i with
      | succ i => simp at hx
      | zero =>
        simp only [look_zero, hget] at hx
        cases hg : PyDict.get? (PyDict.update ([] : PyDict String Val) d) x with
        | none => rw [hg] at hx; simp at hx
        | some v => exact .inr ⟨rfl, hnew x (hkeys x v hg)⟩
  refine ⟨by trivial, ⟨fun x t hx => ?_, hs.world, by simp⟩, hkeep, fun x hx hx' => ?_⟩
  · by_cases hn : Γ.find x = none
    · obtain ⟨v, h1, h2⟩ := hown x t hn hx
      exact ⟨v, by simp only [Scope.get, hget, h1], h2⟩
    · rw [hold x hn] at hx
      obtain ⟨v, h1, h2⟩ := hs.agree x t hx
      refine ⟨v, ?_, h2⟩
      rw [hc] at h1
      have hd : PyDict.get? (PyDict.update ([] : PyDict String Val) d) x = none := by
        cases hg : PyDict.get? (PyDict.update ([] : PyDict String Val) d) x with
        | none => rfl
        | some u => exact absurd (hnew x (hkeys x u hg)).1 hn
      simp only [Scope.get, hget, hd] at h1 ⊢
      exact h1
  · cases ht : Γ'.find x with
    | none => exact absurd ht hx'
    | some t =>
      obtain ⟨v, h1, -⟩ := hown x t hx ht
      simp only [look_zero, hget, h1]; simp

/-- Assigning one variable. -/
theorem set_one (x : String) (v u : Val) : ∀ c : Chain Val, Scope.get c x = .ok u →
    ∃ c', setN c.length [(x, v)] c = (c', false) ∧ c'.length = c.length ∧ Scope.get c' x = .ok v ∧
      (∀ i y, y ≠ x → look c' i y = look c i y) ∧ (∀ i, look c i x ≠ none → look c' i x ≠ none) ∧
      (∀ i, look c i x ≠ look c' i x → look c i x ≠ none ∧ ∀ j, j < i → look c j x = none)
  | [], h => by simp [Scope.get] at h
  | f :: c, h => by
    cases hf : PyDict.get? f x with
    | some w =>
      refine ⟨PyDict.set f x v :: c, ?_, rfl, by simp [Scope.get], ?_, ?_, ?_⟩
      · simp [setN, setLoop, PyDict.has, hf]
      · intro i y hy
        cases i with
        | zero => simp only [look_zero]; rw [PyDict.get?_set_ne _ _ (fun hh => hy hh.symm)]
        | succ i => simp
      · intro i hi
        cases i with
        | zero => simp
        | succ i => simpa using hi
      · intro i hi
        cases i with
        | zero => exact ⟨by simp [hf], fun j hj => by omega⟩
        | succ i => simp at hi
    | none =>
      simp only [Scope.get, hf] at h
      obtain ⟨c', h1, h2, h3, h4, h5, h6⟩ := set_one x v u c h
      cases c with
      | nil => simp [Scope.get] at h
      | cons g c =>
        refine ⟨f :: c', ?_, by simp [h2], by simp [Scope.get, hf, h3], ?_, ?_, ?_⟩
        · simp only [List.length_cons] at h1 ⊢
          rw [setN.eq_def]
          simp only [setLoop, PyDict.has, hf, h1]
          simp
        · intro i y hy
          cases i with
          | zero => simp
          | succ i => simpa using h4 i y hy
        · intro i hi
          cases i with
          | zero => simpa using hi
          | succ i => simpa using h5 i (by simpa using hi)
        · intro i hi
          cases i with
          | zero => simp at hi
          | succ i =>
            obtain ⟨h7, h8⟩ := h6 i (by simpa using hi)
            refine ⟨by simpa using h7, fun j hj => ?_⟩
            cases j with
            | zero => simpa using hf
            | succ j => simpa using h8 j (by omega)

theorem setM_ok {Γ : SymTab} {x : String} {t : AType} {v : Val} (h : Γ.find x = some (some (.avro t)))
    (hw : Γ.writable x = true) (hv : V t v) : Ok P V Γ Γ (fun v => v = .null) (setM [(x, v)]) := by
  intro s hs
  obtain ⟨u, h1, -⟩ := hs.agree x _ h
  obtain ⟨c', h2, h3, h4, h5, h6, h7⟩ := set_one x v u s.chain h1
  have hd : PyDict.update ([] : PyDict String Val) [(x, v)] = [(x, v)] := rfl
  unfold setM
  simp only [hd, h2]
  refine ⟨trivial, ⟨fun y r hy => ?_, hs.world, ne_of_len h3 hs.ne⟩, ⟨h3, fun i y hy => ?_, fun i y hy => ?_⟩, New.refl _ _⟩
  · by_cases hxy : y = x
    · subst hxy
      rw [h] at hy; cases hy
      exact ⟨v, h4, hv⟩
    · obtain ⟨u, h8, h9⟩ := hs.agree y r hy
      refine ⟨u, ?_, h9⟩
      rw [← h8]
      exact (get_congr h3 (fun i => (h5 i y hxy).symm)).symm
  · by_cases hxy : y = x
    · subst hxy; exact h6 i hy
    · rw [h5 i y hxy]; exact hy
  · by_cases hxy : y = x
    · subst hxy
      exact .inl ⟨⟨by rw [h]; simp, hw⟩, h7 i hy⟩
    · exact absurd (h5 i y hxy).symm hy

theorem setM_nil {Γ : SymTab} : Ok P V Γ Γ (fun v => v = .null) (setM []) := by
  intro s hs
  obtain ⟨f, c, hc⟩ := List.exists_cons_of_ne_nil hs.ne
  have hd : PyDict.update ([] : PyDict String Val) [] = [] := rfl
  unfold setM
  simp only [hd, hc, List.length_cons, setN, setLoop]
  refine ⟨trivial, ⟨?_, hs.world, by simp⟩, Keep.refl _ _, New.refl _ _⟩
  have := hs.agree; rw [hc] at this; exact this

end

end Verif.Lang
