import Verif.Avro.CheckThm
import Mathlib.Data.Prod.Lex
import Mathlib.Data.Int.Order.Basic
/-!
# `compare` (datatype.py 1030-1156) and the comparison operators of the library (C10, C28)
-/

namespace Verif.Avro

/-! ## Model -/

/-- `(x > y) - (x < y)` for Python objects with a total order. -/
def sgn {β : Type} [LT β] [DecidableLT β] (a b : β) : Int := if a < b then -1 else if b < a then 1 else 0

/-- Python `<` on floats: false when either side is NaN. -/
def fltLt : Flt → Flt → Bool
  | .nan, _ => false
  | _, .nan => false
  | .ninf, .ninf => false
  | .ninf, _ => true
  | _, .ninf => false
  | .pinf, _ => false
  | .fin _, .pinf => true
  | .fin a, .fin b => decide (a < b)

/-- `(x > y) - (x < y)` on floats. -/
def fltSgn (a b : Flt) : Int := (if fltLt b a then 1 else 0) - (if fltLt a b then 1 else 0)

/-- An int or float as a number: Python compares ints and floats exactly. -/
def numVal : Val → Option Flt
  | .int i => some (.fin i)
  | .flt f => some f
  | _ => none

/-- `math.isnan` (lines 1063, 1069): an int too large for a float raises OverflowError. -/
def isNan : Val → Res Bool
  | .int i => if i ≤ -dblLimit ∨ dblLimit ≤ i then .error (.py "OverflowError") else .ok false
  | .flt f => .ok (f = .nan)
  | _ => .error (.py "TypeError")

/-- Comparison of doubles (lines 1062-1071): NaN is equal to itself and greater than the rest. -/
def dblCmp (x y : Val) (a b : Flt) : Res Int :=
  match isNan x with
  | .error e => .error e
  | .ok p => match isNan y with
    | .error e => .error e
    | .ok q => .ok (if p then (if q then 0 else 1) else if q then -1 else fltSgn a b)

/-- The exception of line 1156. -/
def mismatch2 (x y : Val) : Err := if hasBytes x || hasBytes y then .py "TypeError" else .avro

/-- `for xi, yi in zip(x, y)` and the comparison of the lengths (lines 1096-1105). -/
def lexR {α : Type} (c : α → α → Res Int) : List α → List α → Res Int
  | [], [] => .ok 0
  | [], _ :: _ => .ok (-1)
  | _ :: _, [] => .ok 1
  | x :: xs, y :: ys => match c x y with
    | .error e => .error e
    | .ok r => if r = 0 then lexR c xs ys else .ok r

/-- Text compares by code points. -/
def strCmp (a b : String) : Res Int := lexR (fun x y : Char => .ok (sgn x.toNat y.toNat)) a.toList b.toList

/-- The record loop (lines 1109-1117). -/
def cmpFields (c : AType → Val → Val → Res Int) (x y : List (String × Val)) : List Field → Res Int
  | [] => .ok 0
  | fd :: fs => if fd.order = .ignore then cmpFields c x y fs
    else match PyDict.get? x fd.name with
      | none => .error (.py "KeyError")
      | some a => match PyDict.get? y fd.name with
        | none => .error (.py "KeyError")
        | some b => match c fd.type a b with
          | .error e => .error e
          | .ok r => if r = 0 then cmpFields c x y fs
            else .ok (if fd.order = .descending then -r else r)

/-- Position and type of the first member with the name of the tag (line 1121). -/
def findTag (tag : String) : Nat → List AType → Option (Nat × AType)
  | _, [] => none
  | i, t :: ts => if t.name = tag then some (i, t) else findTag tag (i + 1) ts

/-- The loop of lines 1124-1131: the *last* member that encodes the value. -/
def lastEnc (g : AType → Val → Res Val) (v : Val) : Nat → List AType → Option (Nat × AType) → Res (Option (Nat × AType))
  | _, [], acc => .ok acc
  | i, t :: ts, acc => match g t v with
    | .ok _ => lastEnc g v (i + 1) ts (some (i, t))
    | .error .avro => lastEnc g v (i + 1) ts acc
    | .error e => .error e

/-- The member a union datum belongs to, and the datum without tag (lines 1119-1133). -/
def resolve (g : AType → Val → Res Val) (ts : List AType) (v : Val) : Res (Nat × AType × Val) :=
  match v with
  | .dict [(tag, x)] => match findTag tag 0 ts with
    | some (i, t) => .ok (i, t, x)
    | none => .error (.py "IndexError")
  | _ => match lastEnc g v 0 ts none with
    | .error e => .error e
    | .ok none => .error .avro
    | .ok (some (i, t)) => .ok (i, t, v)

/-- One level of `compare`. -/
def cmpStep (env : Env) (c : AType → Val → Val → Res Int) (g : AType → Val → Res Val) (t : AType) (x y : Val) : Res Int :=
  match t with
  | .null => match x, y with
    | .null, .null => .ok 0
    | _, _ => .error (mismatch2 x y)
  | .boolean => match x, y with
    | .bool a, .bool b => .ok (sgn a.toNat b.toNat)
    | _, _ => .error (mismatch2 x y)
  | .int => match x, y with
    | .int a, .int b => .ok (sgn a b)
    | _, _ => .error (mismatch2 x y)
  | .long => match x, y with
    | .int a, .int b => .ok (sgn a b)
    | _, _ => .error (mismatch2 x y)
  | .float => match numVal x, numVal y with
    | some a, some b => .ok (fltSgn a b)
    | _, _ => .error (mismatch2 x y)
  | .double => match numVal x, numVal y with
    | some a, some b => dblCmp x y a b
    | _, _ => .error (mismatch2 x y)
  | .bytes => match x, y with
    | .str a, .str b => strCmp a b
    | _, _ => .error (mismatch2 x y)
  | .fixed _ _ => match x, y with
    | .str a, .str b => strCmp a b
    | _, _ => .error (mismatch2 x y)
  | .string => match x, y with
    | .str a, .str b => strCmp a b
    | _, _ => .error (mismatch2 x y)
  | .enum _ syms => match x, y with
    | .str a, .str b => if a ∈ syms ∧ b ∈ syms then .ok (sgn (syms.idxOf a) (syms.idxOf b)) else .error (mismatch2 x y)
    | _, _ => .error (mismatch2 x y)
  | .array t => match x, y with
    | .arr a, .arr b => lexR (c t) a b
    | _, _ => .error (mismatch2 x y)
  | .map _ => match x, y with
    | .dict _, .dict _ => .error (.py "NotImplementedError")
    | _, _ => .error (mismatch2 x y)
  | .record n => match x, y with
    | .dict a, .dict b => match env.fields? n with
      | some fs => cmpFields c a b fs
      | none => .error (.py "KeyError")
    | _, _ => .error (mismatch2 x y)
  | .union ts => match resolve g ts x with
    | .error e => .error e
    | .ok (i, t, x) => match resolve g ts y with
      | .error e => .error e
      | .ok (j, _, y) => if i = j then c t x y else .ok (sgn i j)

/-- `compare` (lines 1030-1156). -/
def cmp (env : Env) : Nat → AType → Val → Val → Res Int
  | 0 => fun _ _ _ => .error recErr
  | n + 1 => cmpStep env (cmp env n) (enc true env n)

/-! ## Specification: a total preorder given by a comparison function -/

/-- On the data in `P` the comparison always returns -1, 0 or 1, swapping the arguments negates it,
and "at most" is transitive. -/
structure TotalOrder {α : Type} (P : α → Prop) (c : α → α → Res Int) : Prop where
  total : ∀ x y, P x → P y → ∃ r, c x y = .ok r ∧ (r = -1 ∨ r = 0 ∨ r = 1) ∧ c y x = .ok (-r)
  trans : ∀ x y z a b, P x → P y → P z → c x y = .ok a → c y z = .ok b → a ≤ 0 → b ≤ 0 →
    ∃ r, c x z = .ok r ∧ r ≤ 0

namespace TotalOrder
variable {α : Type} {P : α → Prop} {c : α → α → Res Int}

/-- Equivalence is transitive. -/
theorem eqv (h : TotalOrder P c) {x y z : α} (hx : P x) (hy : P y) (hz : P z) (h1 : c x y = .ok 0)
    (h2 : c y z = .ok 0) : c x z = .ok 0 := by
  obtain ⟨r, h3, h4⟩ := h.trans x y z 0 0 hx hy hz h1 h2 (by omega) (by omega)
  obtain ⟨r1, g1, _, g2⟩ := h.total x y hx hy
  obtain ⟨r2, g3, _, g4⟩ := h.total y z hy hz
  rw [h1] at g1; cases g1
  rw [h2] at g3; cases g3
  obtain ⟨r', h5, h6⟩ := h.trans z y x _ _ hz hy hx g4 g2 (by omega) (by omega)
  obtain ⟨r3, g5, _, g6⟩ := h.total x z hx hz
  rw [h3] at g5; cases g5
  rw [h5] at g6
  have : r' = -r := by injection g6
  have : r = 0 := by omega
  rw [h3, this]

/-- A datum equals itself. -/
theorem refl (h : TotalOrder P c) {x : α} (hx : P x) : c x x = .ok 0 := by
  obtain ⟨r, h1, _, h2⟩ := h.total x x hx hx
  rw [h1] at h2
  have : r = -r := by injection h2
  rw [h1]; congr 1; omega

/-- If the composite is an equality both steps are. -/
theorem both_zero (h : TotalOrder P c) {x y z : α} {a b : Int} (hx : P x) (hy : P y) (hz : P z) (h1 : c x y = .ok a)
    (h2 : c y z = .ok b) (ha : a ≤ 0) (hb : b ≤ 0) (h3 : c x z = .ok 0) : a = 0 ∧ b = 0 := by
  obtain ⟨r, g1, _, g2⟩ := h.total x z hx hz
  rw [h3] at g1; cases g1
  -- z ≤ x
  obtain ⟨r1, k1, k2⟩ := h.trans z x y _ _ hz hx hy g2 h1 (by omega) ha
  obtain ⟨r2, k3, k4⟩ := h.trans y z x _ _ hy hz hx h2 g2 hb (by omega)
  obtain ⟨r3, m1, _, m2⟩ := h.total x y hx hy
  obtain ⟨r4, m3, _, m4⟩ := h.total y z hy hz
  rw [h1] at m1; cases m1
  rw [h2] at m3; cases m3
  rw [k3] at m2
  rw [k1] at m4
  have e1 : r2 = -a := by injection m2
  have e2 : r1 = -b := by injection m4
  omega

/-- Comparison of a key in a linear order. -/
theorem ofKey {β : Type} [LinearOrder β] (k : α → β) (h : ∀ x y, P x → P y → c x y = .ok (sgn (k x) (k y))) :
    TotalOrder P c := by
  constructor
  · intro x y hx hy
    refine ⟨_, h x y hx hy, ?_, ?_⟩
    · unfold sgn; split_ifs <;> simp
    · rw [h y x hy hx]
      congr 1
      unfold sgn
      rcases lt_trichotomy (k x) (k y) with h | h | h
      · rw [if_neg (not_lt.2 h.le), if_pos h, if_pos h]; rfl
      · rw [h]; simp
      · rw [if_pos h, if_neg (not_lt.2 h.le), if_pos h]
  · intro x y z a b hx hy hz h1 h2 ha hb
    rw [h x y hx hy] at h1; cases h1
    rw [h y z hy hz] at h2; cases h2
    refine ⟨_, h x z hx hz, ?_⟩
    have key : ∀ u v : β, sgn u v ≤ 0 ↔ u ≤ v := by
      intro u v
      unfold sgn
      split_ifs with h1 h2
      · simp [h1.le]
      · simp [h2]
      · simp [not_lt.1 h2]
    rw [key] at ha hb ⊢
    exact ha.trans hb

/-- Lexicographic order of lists. -/
theorem lex (h : TotalOrder P c) : TotalOrder (fun xs => ∀ x ∈ xs, P x) (lexR c) := by
  constructor
  · intro xs
    induction xs with
    | nil =>
      intro ys _ _
      cases ys with
      | nil => exact ⟨0, rfl, by simp, rfl⟩
      | cons => exact ⟨-1, rfl, by simp, rfl⟩
    | cons x xs ih =>
      intro ys hx hy
      cases ys with
      | nil => exact ⟨1, rfl, by simp, rfl⟩
      | cons y ys =>
        obtain ⟨r, h1, h2, h3⟩ := h.total x y (hx x (by simp)) (hy y (by simp))
        simp only [lexR, h1, h3]
        by_cases h0 : r = 0
        · rw [if_pos h0, if_pos (by omega)]
          exact ih ys (fun z hz => hx z (by simp [hz])) (fun z hz => hy z (by simp [hz]))
        · rw [if_neg h0, if_neg (by omega)]
          exact ⟨r, rfl, h2, rfl⟩
  · intro xs
    induction xs with
    | nil =>
      intro ys zs a b _ _ _ _ h2 _ hb
      cases zs with
      | nil => exact ⟨0, rfl, by omega⟩
      | cons => exact ⟨-1, rfl, by omega⟩
    | cons x xs ih =>
      intro ys zs a b hx hy hz h1 h2 ha hb
      cases ys with
      | nil => cases h1; omega
      | cons y ys =>
        cases zs with
        | nil => cases h2; omega
        | cons z zs =>
          have px := hx x (by simp)
          have py := hy y (by simp)
          have pz := hz z (by simp)
          obtain ⟨r, g1, g2, g3⟩ := h.total x y px py
          obtain ⟨s, k1, k2, k3⟩ := h.total y z py pz
          simp only [lexR, g1] at h1
          simp only [lexR, k1] at h2
          have hr : r ≤ 0 := by
            by_cases h0 : r = 0
            · omega
            · rw [if_neg h0] at h1; cases h1; exact ha
          have hs : s ≤ 0 := by
            by_cases h0 : s = 0
            · omega
            · rw [if_neg h0] at h2; cases h2; exact hb
          obtain ⟨q, m1, m2⟩ := h.trans x y z r s px py pz g1 k1 hr hs
          simp only [lexR, m1]
          by_cases hq : q = 0
          · subst hq
            obtain ⟨e1, e2⟩ := h.both_zero px py pz g1 k1 hr hs m1
            rw [if_pos e1] at h1
            rw [if_pos e2] at h2
            rw [if_pos rfl]
            exact ih ys zs a b (fun w hw => hx w (by simp [hw])) (fun w hw => hy w (by simp [hw]))
              (fun w hw => hz w (by simp [hw])) h1 h2 ha hb
          · rw [if_neg hq]
            exact ⟨q, rfl, m2⟩

end TotalOrder

/-- Order of records. -/
theorem fields_order {c : AType → Val → Val → Res Int} {Q : AType → Val → Prop} {fs : List Field}
    (h : ∀ fd ∈ fs, TotalOrder (Q fd.type) (c fd.type)) :
    TotalOrder (fun d => ∀ fd ∈ fs, ∃ x, PyDict.get? d fd.name = some x ∧ Q fd.type x)
      (fun x y => cmpFields c x y fs) := by
  induction fs with
  | nil => exact ⟨fun _ _ _ _ => ⟨0, rfl, by simp, rfl⟩, fun _ _ _ _ _ _ _ _ h1 _ _ _ => ⟨0, rfl, by omega⟩⟩
  | cons fd fs ih =>
    have ih := ih (fun f hf => h f (by simp [hf]))
    have hfd := h fd (by simp)
    by_cases hi : fd.order = .ignore
    · constructor
      · intro x y hx hy
        simp only [cmpFields, if_pos hi]
        exact ih.total x y (fun f hf => hx f (by simp [hf])) (fun f hf => hy f (by simp [hf]))
      · intro x y z a b hx hy hz
        simp only [cmpFields, if_pos hi]
        exact ih.trans x y z a b (fun f hf => hx f (by simp [hf])) (fun f hf => hy f (by simp [hf]))
          (fun f hf => hz f (by simp [hf]))
    · constructor
      · intro x y hx hy
        obtain ⟨a, ha, pa⟩ := hx fd (by simp)
        obtain ⟨b, hb, pb⟩ := hy fd (by simp)
        obtain ⟨r, h1, h2, h3⟩ := hfd.total a b pa pb
        simp only [cmpFields, if_neg hi, ha, hb, h1, h3]
        by_cases h0 : r = 0
        · rw [if_pos h0, if_pos (by omega)]
          exact ih.total x y (fun f hf => hx f (by simp [hf])) (fun f hf => hy f (by simp [hf]))
        · have h0' : ¬ (-r = 0) := by omega
          rw [if_neg h0, if_neg h0']
          by_cases hd : fd.order = .descending
          · simp only [if_pos hd]
            exact ⟨_, rfl, by omega, rfl⟩
          · simp only [if_neg hd]
            exact ⟨_, rfl, h2, rfl⟩
      · intro x y z a b hx hy hz h1 h2 ha hb
        obtain ⟨u, hu, pu⟩ := hx fd (by simp)
        obtain ⟨v, hv, pv⟩ := hy fd (by simp)
        obtain ⟨w, hw, pw⟩ := hz fd (by simp)
        obtain ⟨r, g1, g2, g3⟩ := hfd.total u v pu pv
        obtain ⟨s, k1, k2, k3⟩ := hfd.total v w pv pw
        simp only [cmpFields, if_neg hi, hu, hv, g1] at h1
        simp only [cmpFields, if_neg hi, hv, hw, k1] at h2
        simp only [cmpFields, if_neg hi, hu, hw]
        have rest := ih.trans x y z a b (fun f hf => hx f (by simp [hf])) (fun f hf => hy f (by simp [hf]))
          (fun f hf => hz f (by simp [hf]))
        by_cases hd : fd.order = .descending
        · simp only [if_pos hd] at h1 h2 ⊢
          have hr : 0 ≤ r := by
            by_cases h0 : r = 0
            · omega
            · rw [if_neg h0] at h1; cases h1; omega
          have hs : 0 ≤ s := by
            by_cases h0 : s = 0
            · omega
            · rw [if_neg h0] at h2; cases h2; omega
          obtain ⟨q, m1, m2⟩ := hfd.trans w v u (-s) (-r) pw pv pu k3 g3 (by omega) (by omega)
          obtain ⟨q', n1, n2, n3⟩ := hfd.total u w pu pw
          rw [m1] at n3
          have hq : q = -q' := by injection n3
          simp only [n1]
          by_cases h0 : q' = 0
          · rw [if_pos h0]
            have hz0 : q = 0 := by omega
            rw [hz0] at m1
            obtain ⟨e1, e2⟩ := hfd.both_zero pw pv pu k3 g3 (by omega) (by omega) m1
            rw [if_pos (by omega)] at h1
            rw [if_pos (by omega)] at h2
            exact rest h1 h2 ha hb
          · rw [if_neg h0]
            exact ⟨_, rfl, by omega⟩
        · simp only [if_neg hd] at h1 h2 ⊢
          have hr : r ≤ 0 := by
            by_cases h0 : r = 0
            · omega
            · rw [if_neg h0] at h1; cases h1; exact ha
          have hs : s ≤ 0 := by
            by_cases h0 : s = 0
            · omega
            · rw [if_neg h0] at h2; cases h2; exact hb
          obtain ⟨q, m1, m2⟩ := hfd.trans u v w r s pu pv pw g1 k1 hr hs
          simp only [m1]
          by_cases h0 : q = 0
          · subst h0
            obtain ⟨e1, e2⟩ := hfd.both_zero pu pv pw g1 k1 hr hs m1
            rw [if_pos e1] at h1
            rw [if_pos e2] at h2
            rw [if_pos rfl]
            exact rest h1 h2 ha hb
          · rw [if_neg h0]
            exact ⟨_, rfl, m2⟩

end Verif.Avro
