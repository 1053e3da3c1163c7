import Verif.Lib.Num
import Verif.Lib.Str
import Mathlib.Data.Prod.Lex
/-!
# Versions and lifespans (C40)

Models `PFAVersion` and `Lifespan` of `titus/signature.py` 52-169.
-/

namespace Verif.Sig

/-! ## Model -/

/-- A PFAVersion object (lines 52-76); the constructor admits non-negative integers only. -/
structure Ver where
  major : Nat
  minor : Nat
  release : Nat
deriving DecidableEq, Repr

/-- `PFAVersion(major, minor, release)` (62-76). -/
def Ver.new (major minor release : Int) : Res Ver :=
  if major < 0 ∨ minor < 0 ∨ release < 0 then .error (.py "ValueError")
  else .ok ⟨major.toNat, minor.toNat, release.toNat⟩

/-- `__lt__` (80-87) -/
def Ver.lt (a b : Ver) : Bool :=
  if a.major = b.major ∧ a.minor = b.minor then a.release < b.release
  else if a.major = b.major then a.minor < b.minor
  else a.major < b.major

/-- `__ge__` (88-95) -/
def Ver.ge (a b : Ver) : Bool :=
  if a.major = b.major ∧ a.minor = b.minor then a.release ≥ b.release
  else if a.major = b.major then a.minor ≥ b.minor
  else a.major ≥ b.major

/-- `__cmp__` (96-103); Python 3 never calls it. -/
def Ver.cmp (a b : Ver) : Int :=
  let c (x y : Nat) : Int := (if x > y then 1 else 0) - (if x < y then 1 else 0)
  if a.major = b.major ∧ a.minor = b.minor then c a.release b.release
  else if a.major = b.major then c a.minor b.minor
  else c a.major b.major

/-- `a <= b` and `a > b`: the class has no `__le__` and `__gt__`, so Python calls the reflected method
`b.__ge__(a)` and `b.__lt__(a)`. -/
def Ver.le (a b : Ver) : Bool := Ver.ge b a
@[inherit_doc Ver.le] def Ver.gt (a b : Ver) : Bool := Ver.lt b a

/-- A version object with its identity. -/
structure VerObj where
  id : Nat
  ver : Ver

/-- `a == b`: the class has no `__eq__`, so Python compares identities. -/
def VerObj.eq (a b : VerObj) : Bool := a.id = b.id

/-- `__repr__` (77-79) -/
def Ver.print (v : Ver) : List Char :=
  Lib.Str.join ['.'] [Lib.Num.fmt 10 v.major, Lib.Num.fmt 10 v.minor, Lib.Num.fmt 10 v.release]

/-- `fromString` (104-117): both a wrong number of parts and a part that is no integer are ValueErrors. -/
def Ver.fromString (x : List Char) : Res Ver :=
  match (Lib.Str.split x ['.']).mapM (Lib.Num.pyInt 10) with
  | some [a, b, c] => Ver.new a b c
  | _ => .error (.py "ValueError")

/-- A Lifespan (119-153). -/
structure Lifespan where
  birth : Option Ver
  deprecation : Option Ver
  death : Option Ver

/-- The constructor (127-153). -/
def Lifespan.new (birth deprecation death : Option Ver) : Res Lifespan :=
  match deprecation, death with
  | none, none => .ok ⟨birth, deprecation, death⟩
  | some d, some e =>
    if Ver.lt d e then
      match birth with
      | some b => if Ver.ge b d then .error (.py "ValueError") else .ok ⟨birth, deprecation, death⟩
      | none => .ok ⟨birth, deprecation, death⟩
    else .error (.py "ValueError")
  | _, _ => .error (.py "ValueError")

/-- `current` (155-161) -/
def Lifespan.current (l : Lifespan) (now : Ver) : Bool :=
  (match l.birth with | none => true | some b => Ver.ge now b) &&
  (match l.deprecation with | none => true | some d => Ver.lt now d)

/-- `deprecated` (163-169); `self.deprecation <= now < self.death`.  Comparison with a missing death is
a TypeError in Python; the constructor rules it out. -/
def Lifespan.deprecated (l : Lifespan) (now : Ver) : Bool :=
  match l.deprecation with
  | none => false
  | some d => Ver.le d now && (match l.death with | none => false | some e => Ver.lt now e)

/-! ## Versions -/

/-- The specification: versions are compared like triples, the first number first. -/
def Ver.key (v : Ver) : Nat ×ₗ (Nat ×ₗ Nat) := toLex (v.major, toLex (v.minor, v.release))

theorem Ver.key_inj {a b : Ver} (h : a.key = b.key) : a = b := by
  cases a; cases b
  simp only [Ver.key, toLex_inj, Prod.mk.injEq] at h
  simp [h]

/-- C40: the comparison operators are the lexicographic order of triples. -/
theorem version_order (a b : Ver) :
    (a.lt b = true ↔ a.key < b.key) ∧ (a.le b = true ↔ a.key ≤ b.key) ∧ (a.gt b = true ↔ b.key < a.key) ∧
    (a.ge b = true ↔ b.key ≤ a.key) := by
  have hlt : ∀ a b : Ver, a.lt b = true ↔ a.key < b.key := by
    intro a b
    simp only [Ver.lt, Ver.key, Prod.Lex.toLex_lt_toLex]
    split_ifs with h1 h2 <;> simp only [decide_eq_true_eq] <;> omega
  have hge : ∀ a b : Ver, a.ge b = true ↔ b.key ≤ a.key := by
    intro a b
    simp only [Ver.ge, Ver.key, Prod.Lex.toLex_le_toLex]
    split_ifs with h1 h2 <;> simp only [ge_iff_le, decide_eq_true_eq] <;> omega
  exact ⟨hlt a b, hge b a, hlt b a, hge a b⟩

/-- C40: total order. -/
theorem version_total (a b c : Ver) :
    (a.le b = true ∨ b.le a = true) ∧ (a.le b = true → b.le a = true → a = b) ∧
    (a.le b = true → b.le c = true → a.le c = true) ∧ (a.lt b = !(b.le a)) ∧ (a.ge b = b.le a) ∧ (a.gt b = b.lt a) := by
  have h1 := fun a b => (version_order a b).1
  have h2 := fun a b => (version_order a b).2.1
  refine ⟨?_, ?_, ?_, ?_, rfl, rfl⟩
  · rw [h2, h2]; exact le_total _ _
  · rw [h2, h2]; exact fun h h' => Ver.key_inj (le_antisymm h h')
  · rw [h2, h2, h2]; exact le_trans
  · rw [Bool.eq_iff_iff, h1, Bool.not_eq_true', ← Bool.not_eq_true, h2, not_le]

/-- C40: the constructor admits exactly the non-negative triples. -/
theorem version_new (a b c : Int) :
    (0 ≤ a → 0 ≤ b → 0 ≤ c → Ver.new a b c = .ok ⟨a.toNat, b.toNat, c.toNat⟩) ∧
    ((a < 0 ∨ b < 0 ∨ c < 0) → Ver.new a b c = .error (.py "ValueError")) := by
  constructor
  · intro h1 h2 h3; rw [Ver.new, if_neg (by omega)]
  · intro h; rw [Ver.new, if_pos h]

theorem dot_not_digit (n : Nat) : '.' ∉ Lib.Num.fmt 10 n := by
  have hd : ∀ d < 10, '.' ≠ Lib.Num.digitChar d := by decide
  have key : ∀ (fuel n : Nat), '.' ∉ Lib.Num.natStr 10 fuel n := by
    intro fuel
    induction fuel with
    | zero => intro n; simp [Lib.Num.natStr]
    | succ fuel ih =>
      intro n
      rw [Lib.Num.natStr]
      split
      · next h => simp only [List.mem_singleton]; exact hd n h
      · simp only [List.mem_append, List.mem_singleton, not_or]
        exact ⟨ih _, hd _ (Nat.mod_lt _ (by omega))⟩
  have : Lib.Num.fmt 10 n = Lib.Num.natStr 10 (n + 1) n := by
    simp [Lib.Num.fmt, Lib.Num.signStr, Lib.Num.digitsStr]
  rw [this]
  exact key _ _

/-- C40: parsing what was printed gives an equal version. -/
theorem version_parse_print (v : Ver) : Ver.fromString v.print = .ok v := by
  have h : Lib.Str.split v.print ['.'] = [Lib.Num.fmt 10 v.major, Lib.Num.fmt 10 v.minor, Lib.Num.fmt 10 v.release] := by
    apply Lib.Str.split_join '.' [] _ (by simp)
    intro p hp
    simp only [List.mem_cons, List.not_mem_nil, or_false] at hp
    rcases hp with rfl | rfl | rfl <;> exact dot_not_digit _
  have hp : ∀ n : Nat, Lib.Num.pyInt 10 (Lib.Num.fmt 10 n) = some (n : Int) := fun n =>
    (Lib.Num.pyInt_iff 10 _ _).2 (Lib.Num.fmt_numeral 10 (by omega) (by omega) n)
  simp only [Ver.fromString, h, List.mapM_cons, List.mapM_nil, hp]
  simp [Ver.new]

/-- C40: what parses is three integer numerals, non-negative, joined by dots; everything else is a
ValueError. -/
theorem version_parse (x : List Char) :
    (∃ v, Ver.fromString x = .ok v ∧ ∃ a b c, x = a ++ '.' :: (b ++ '.' :: c) ∧ Lib.Num.Numeral 10 a v.major ∧
      Lib.Num.Numeral 10 b v.minor ∧ Lib.Num.Numeral 10 c v.release) ∨
    (Ver.fromString x = .error (.py "ValueError")) := by
  have hj := (Lib.Str.join_split x ['.'] (by simp)).1
  unfold Ver.fromString
  generalize hs : Lib.Str.split x ['.'] = ps at hj
  cases hm : ps.mapM (Lib.Num.pyInt 10) with
  | none => exact .inr rfl
  | some ns =>
    match ns, hm with
    | [], _ => exact .inr rfl
    | [_], _ => exact .inr rfl
    | [_, _], _ => exact .inr rfl
    | _ :: _ :: _ :: _ :: _, _ => exact .inr rfl
    | [a, b, c], hm =>
      rcases ps with _ | ⟨p, _ | ⟨q, _ | ⟨r, _ | ⟨t, ps⟩⟩⟩⟩ <;>
        simp [List.mapM_cons, Option.bind_eq_bind, Option.bind_eq_some_iff] at hm
      obtain ⟨hp, hq, hr⟩ := hm
      simp only [Ver.new]
      split
      · exact .inr rfl
      · next h =>
        refine .inl ⟨_, rfl, p, q, r, ?_, ?_, ?_, ?_⟩
        · rw [← hj]; simp [Lib.Str.join, List.intersperse]
        · simpa [Int.toNat_of_nonneg (show 0 ≤ a by omega)] using (Lib.Num.pyInt_iff 10 _ _).1 hp
        · simpa [Int.toNat_of_nonneg (show 0 ≤ b by omega)] using (Lib.Num.pyInt_iff 10 _ _).1 hq
        · simpa [Int.toNat_of_nonneg (show 0 ≤ c by omega)] using (Lib.Num.pyInt_iff 10 _ _).1 hr

/-- Versions that are neither smaller nor greater are not `==`: printing and parsing gives another
object. -/
theorem version_eq_violation (v : Ver) : ∃ a b : VerObj, a.ver = v ∧ b.ver = v ∧
    a.ver.le b.ver = true ∧ b.ver.le a.ver = true ∧ VerObj.eq a b = false :=
  ⟨⟨0, v⟩, ⟨1, v⟩, rfl, rfl, by rw [(version_order _ _).2.1], by rw [(version_order _ _).2.1], rfl⟩

/-! ## Lifespans -/

/-- Where a version stands. -/
inductive Phase where
  | unborn | current | deprecated | dead
deriving DecidableEq

/-- C40: the constructor admits exactly birth < deprecation < death, with deprecation and death given
together. -/
theorem lifespan_new (b d e : Option Ver) :
    (∃ l, Lifespan.new b d e = .ok l) ↔
      (d = none ∧ e = none) ∨ ∃ d' e', d = some d' ∧ e = some e' ∧ d'.key < e'.key ∧ ∀ b', b = some b' → b'.key < d'.key := by
  rcases d with _ | d <;> rcases e with _ | e <;> rcases b with _ | b <;>
    simp only [Lifespan.new, ← (version_order _ _).1] <;> try simp
  · by_cases h : d.lt e = true <;> simp [h]
  · have hb := (version_total b d d).2.2.2.1
    by_cases h : d.lt e = true <;> by_cases h' : b.ge d = true <;> simp [h, h', hb, Ver.le] <;>
      simp [Ver.le] at h' ⊢ <;> simp_all [Ver.le]

/-- C40: for every lifespan and version: current means born and not yet deprecated, deprecated means
deprecated and not yet dead, the two exclude each other, and neither holds exactly before the birth and
from the death on. -/
theorem lifespan_status {b d e : Option Ver} {l : Lifespan} (h : Lifespan.new b d e = .ok l) (now : Ver) :
    (l.current now = true ↔ (∀ b', b = some b' → b'.key ≤ now.key) ∧ ∀ d', d = some d' → now.key < d'.key) ∧
    (l.deprecated now = true ↔ ∃ d' e', d = some d' ∧ e = some e' ∧ d'.key ≤ now.key ∧ now.key < e'.key) ∧
    ¬ (l.current now = true ∧ l.deprecated now = true) ∧
    (¬ (l.current now = true ∨ l.deprecated now = true) ↔
      (∃ b', b = some b' ∧ now.key < b'.key) ∨ ∃ e', e = some e' ∧ e'.key ≤ now.key) := by
  have hn := (lifespan_new b d e).1 ⟨l, h⟩
  have hl : l = ⟨b, d, e⟩ := by
    rcases d with _ | d <;> rcases e with _ | e <;> rcases b with _ | b <;> simp only [Lifespan.new] at h <;>
      (try split at h) <;> (try split at h) <;> cases h <;> rfl
  subst hl
  have hlt := fun a b : Ver => (version_order a b).1
  have hle := fun a b : Ver => (version_order a b).2.1
  have hge := fun a b : Ver => (version_order a b).2.2.2
  rcases hn with ⟨rfl, rfl⟩ | ⟨d, e, rfl, rfl, hde, hb⟩
  · rcases b with _ | b
    · simp [Lifespan.current, Lifespan.deprecated]
    · simp [Lifespan.current, Lifespan.deprecated, hge]
  · rcases b with _ | b
    · simp only [Lifespan.current, Lifespan.deprecated, hlt, hle, Bool.and_eq_true, true_and, Option.some.injEq,
        reduceCtorEq, false_and, exists_false, false_or, forall_eq', exists_eq_left', not_and, not_or,
        false_implies, implies_true, exists_and_left]
      refine ⟨?_, ?_⟩
      · intro h1 h2; exact absurd h1 (not_lt.2 h2)
      · constructor
        · rintro ⟨h1, h2⟩; exact not_lt.1 (h2 (not_lt.1 h1))
        · intro h1; exact ⟨not_lt.2 (hde.le.trans h1), fun _ => not_lt.2 h1⟩
    · have hbd := hb b rfl
      simp only [Lifespan.current, Lifespan.deprecated, hlt, hle, hge, Bool.and_eq_true, Option.some.injEq,
        forall_eq', exists_eq_left', not_and, not_or, exists_and_left]
      refine ⟨trivial, trivial, ?_, ?_⟩
      · rintro ⟨_, h1⟩ h2; exact absurd h1 (not_lt.2 h2)
      · constructor
        · rintro ⟨h1, h2⟩
          by_cases hb' : b.key ≤ now.key
          · exact .inr (not_lt.1 (h2 (not_lt.1 (h1 hb'))))
          · exact .inl (not_le.1 hb')
        · rintro (h1 | h1)
          · exact ⟨fun h2 => absurd h1 (not_lt.2 h2), fun h2 => absurd (h1.trans (hbd.trans_le h2)) (lt_irrefl _)⟩
          · exact ⟨fun _ => not_lt.2 (hde.le.trans h1), fun _ => not_lt.2 h1⟩

example : ∃ l, Lifespan.new none (some ⟨0, 7, 2⟩) (some ⟨0, 9, 0⟩) = .ok l ∧ l.deprecated ⟨0, 8, 1⟩ = true ∧
    l.current ⟨0, 7, 1⟩ = true ∧ l.current ⟨0, 10, 0⟩ = false := ⟨_, rfl, by decide, by decide, by decide⟩
example : Ver.fromString "0.8.1".toList = .ok ⟨0, 8, 1⟩ := by decide +kernel

end Verif.Sig
