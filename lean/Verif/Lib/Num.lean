import Verif.Arith.Model
import Mathlib.Data.List.Basic
import Mathlib.Tactic.Ring
/-!
# Printing and parsing integers (C51), bit-width casts and fanout (C50)

Models `titus/lib/pfastring.py` 150-211 (`s.hex`, `s.int`), `titus/lib/parse.py` 46-78 and
`titus/lib/cast.py` 57-88 and 168-203.

Python's `int(str, base)` is modelled on ASCII strings, following CPython's scanner: white space,
sign, base prefix, digits with single underscores between them, white space.
-/

namespace Verif.Lib.Num
open Verif.Arith (IType minVal maxVal)

/-! ## Model: parsing -/

/-- C's `isspace`. -/
def isSpace (c : Char) : Bool := c.toNat == 32 || (9 ≤ c.toNat && c.toNat ≤ 13)

/-- Digit value of a character. -/
def digitVal (c : Char) : Option Nat :=
  if 48 ≤ c.toNat ∧ c.toNat ≤ 57 then some (c.toNat - 48)
  else if 97 ≤ c.toNat ∧ c.toNat ≤ 122 then some (c.toNat - 87)
  else if 65 ≤ c.toNat ∧ c.toNat ≤ 90 then some (c.toNat - 55)
  else none

/-- The scanner for the digits; `due` says that a digit must come next. -/
def scan (base : Nat) (acc : Nat) (due : Bool) : List Char → Option Nat
  | [] => if due then none else some acc
  | c :: cs =>
    if c = '_' then (if due then none else scan base acc true cs)
    else match digitVal c with
      | some d =>
        if d < base then scan base (acc * base + d) false cs
        else if due then none else if (c :: cs).all isSpace then some acc else none
      | none => if due then none else if (c :: cs).all isSpace then some acc else none

/-- The letters of the prefix of a base. -/
def prefixChars (base : Nat) : List Char :=
  if base = 16 then ['x', 'X'] else if base = 8 then ['o', 'O'] else if base = 2 then ['b', 'B'] else []

/-- Skip `0x`, `0o`, `0b` of the right base, and an underscore behind it. -/
def skipPrefix (base : Nat) : List Char → List Char
  | '0' :: c :: cs =>
    if c ∈ prefixChars base then (match cs with
      | '_' :: cs' => cs'
      | cs' => cs')
    else '0' :: c :: cs
  | cs => cs

/-- `int(str, base)`; `none` is ValueError. -/
def pyInt (base : Nat) (s : List Char) : Option Int :=
  match s.dropWhile isSpace with
  | '-' :: cs => (scan base 0 true (skipPrefix base cs)).map (fun n : Nat => -(n : Int))
  | '+' :: cs => (scan base 0 true (skipPrefix base cs)).map (fun n : Nat => (n : Int))
  | cs => (scan base 0 true (skipPrefix base cs)).map (fun n : Nat => (n : Int))

/-- `parse.int` (46-61) and `parse.long` (63-78); `code` is 33000 or 33010. -/
def parse (code : Int) (t : IType) (str : List Char) (base : Int) : Res Int :=
  if base < 2 ∨ base > 36 then .error (.rt (code + 1))
  else match pyInt base.toNat str with
    | none => .error (.rt code)
    | some out => if out < minVal t ∨ out > maxVal t then .error (.rt code) else .ok out

/-- `parse.int`. -/
def parseInt := parse 33000 .int
/-- `parse.long`. -/
def parseLong := parse 33010 .long

/-! ## Model: printing -/

/-- Digit character of a value below 16. -/
def digitChar (d : Nat) : Char := Char.ofNat (if d < 10 then 48 + d else 87 + d)

/-- The digits of `n` in the base, most significant first. -/
def natStr (base : Nat) : Nat → Nat → List Char
  | 0, _ => []
  | fuel + 1, n =>
    if n < base then [digitChar n] else natStr base fuel (n / base) ++ [digitChar (n % base)]

/-- Sign and digits of an integer, as in the format codes `d` and `x`. -/
def signStr (x : Int) : List Char := if x < 0 then ['-'] else []
def digitsStr (base : Nat) (x : Int) : List Char := natStr base (x.natAbs + 1) x.natAbs

/-- `"{0:d}".format(x)` and `"{0:x}".format(x)`. -/
def fmt (base : Nat) (x : Int) : List Char := signStr x ++ digitsStr base x

/-- Format with a width: `<w` pads right, `w` pads left, `0w` pads with zeros behind the sign
(pfastring.py 150-211); width zero leaves the format string empty. -/
def fmtWidth (base : Nat) (x width : Int) (zeroPad : Bool) : Res (List Char) :=
  if !zeroPad then
    if width < 0 then
      .ok (fmt base x ++ List.replicate ((-width).toNat - (fmt base x).length) ' ')
    else if width = 0 then .ok []
    else .ok (List.replicate (width.toNat - (fmt base x).length) ' ' ++ fmt base x)
  else
    if width < 0 then .error (.rt 0)
    else if width = 0 then .ok []
    else .ok (signStr x ++ List.replicate (width.toNat - (fmt base x).length) '0' ++ digitsStr base x)

/-- The error code of the surrounding function put in place. -/
def withCode (code : Int) : Res (List Char) → Res (List Char)
  | .error (.rt 0) => .error (.rt code)
  | r => r

/-- `s.int` (184-211). -/
def sInt (x : Int) : List Char := fmt 10 x
def sIntWidth (x width : Int) (zeroPad : Bool) : Res (List Char) := withCode 39240 (fmtWidth 10 x width zeroPad)
/-- `s.hex` (150-182). -/
def sHex (x : Int) : Res (List Char) := if x < 0 then .error (.rt 39111) else .ok (fmt 16 x)
def sHexWidth (x width : Int) (zeroPad : Bool) : Res (List Char) :=
  if x < 0 then .error (.rt 39111) else withCode 39110 (fmtWidth 16 x width zeroPad)

/-! ## Specification: numerals -/

/-- Digits of the base with single underscores between them, and their value. -/
inductive Body (base : Nat) : List Char → Nat → Prop
  | one {c d} : digitVal c = some d → d < base → Body base [c] d
  | snoc {s v c d} : Body base s v → digitVal c = some d → d < base → Body base (s ++ [c]) (v * base + d)
  | under {s v c d} : Body base s v → digitVal c = some d → d < base →
      Body base (s ++ ['_', c]) (v * base + d)

/-- The prefix: nothing, or `0x` (with an optional underscore). -/
inductive Pfx (base : Nat) : List Char → Prop
  | none : Pfx base []
  | some {c} : c ∈ prefixChars base → Pfx base ['0', c]
  | someU {c} : c ∈ prefixChars base → Pfx base ['0', c, '_']

/-- The sign. -/
inductive Sign : List Char → Int → Prop
  | none : Sign [] 1
  | plus : Sign ['+'] 1
  | minus : Sign ['-'] (-1)

/-- A numeral of the base. -/
def Numeral (base : Nat) (s : List Char) (v : Int) : Prop :=
  ∃ ws sg pf body ws' sgn n, s = ws ++ (sg ++ (pf ++ (body ++ ws'))) ∧ (∀ c ∈ ws, isSpace c = true) ∧
    (∀ c ∈ ws', isSpace c = true) ∧ Sign sg sgn ∧ Pfx base pf ∧ Body base body n ∧ v = sgn * n

/-! ## Parsing is exact -/

theorem digitVal_lt (c : Char) (d : Nat) (h : digitVal c = some d) :
    isSpace c = false ∧ c ≠ '_' ∧ c ≠ '-' ∧ c ≠ '+' := by
  have : 48 ≤ c.toNat ∧ c.toNat ≠ 95 := by
    unfold digitVal at h
    split at h
    · omega
    · split at h
      · omega
      · split at h
        · omega
        · cases h
  refine ⟨?_, ?_, ?_, ?_⟩
  · simp only [isSpace, Bool.or_eq_false_iff, beq_eq_false_iff_ne, Bool.and_eq_false_iff, decide_eq_false_iff_not]
    omega
  · rintro rfl; exact this.2 rfl
  · rintro rfl; exact absurd this.1 (by decide)
  · rintro rfl; exact absurd this.1 (by decide)

theorem scan_digit (base acc : Nat) (due : Bool) (c : Char) (d : Nat) (cs : List Char)
    (h : digitVal c = some d) (hd : d < base) :
    scan base acc due (c :: cs) = scan base (acc * base + d) false cs := by
  have := (digitVal_lt c d h).2.1
  simp [scan, this, h, hd]

theorem scan_body (base : Nat) (s : List Char) (v : Nat) (h : Body base s v) (rest : List Char) :
    scan base 0 true (s ++ rest) = scan base v false rest := by
  induction h generalizing rest with
  | one h hd => rw [List.cons_append, List.nil_append, scan_digit _ _ _ _ _ _ h hd]; simp
  | snoc _ h hd ih => rw [List.append_assoc, ih, List.cons_append, List.nil_append, scan_digit _ _ _ _ _ _ h hd]
  | under _ h hd ih =>
    rw [List.append_assoc, ih, List.cons_append, List.cons_append, List.nil_append]
    rw [scan, if_pos rfl, if_neg (by simp), scan_digit _ _ _ _ _ _ h hd]

theorem scan_spaces (base v : Nat) (ws : List Char) (h : ∀ c ∈ ws, isSpace c = true) :
    scan base v false ws = some v := by
  cases ws with
  | nil => rfl
  | cons c ws =>
    have hc := h c (by simp)
    have hu : c ≠ '_' := by rintro rfl; exact absurd hc (by decide)
    have hall : (c :: ws).all isSpace = true := List.all_eq_true.2 h
    have hd : digitVal c = none := by
      cases hd : digitVal c with
      | none => rfl
      | some d => rw [(digitVal_lt c d hd).1] at hc; cases hc
    rw [scan, if_neg hu, hd]
    simp only [Bool.false_eq_true, if_false]
    rw [if_pos hall]

theorem scan_sound (base acc : Nat) (str : List Char) (due : Bool) (v : Nat)
    (h : scan base acc due str = some v) :
    ∀ s, (due = false → Body base s acc →
        ∃ body ws, s ++ str = body ++ ws ∧ Body base body v ∧ ∀ c ∈ ws, isSpace c = true) ∧
      (due = true → Body base s acc →
        ∃ body ws, s ++ ('_' :: str) = body ++ ws ∧ Body base body v ∧ ∀ c ∈ ws, isSpace c = true) ∧
      (due = true → acc = 0 → s = [] →
        ∃ body ws, str = body ++ ws ∧ Body base body v ∧ ∀ c ∈ ws, isSpace c = true) := by
  induction str generalizing acc due with
  | nil =>
    intro s
    cases due with
    | true => simp [scan] at h
    | false =>
      simp only [scan] at h
      cases h
      exact ⟨fun _ hb => ⟨s, [], by simp, hb, by simp⟩, by simp, by simp⟩
  | cons c cs ih =>
    intro s
    by_cases hu : c = '_'
    · subst hu
      cases due with
      | true => simp [scan] at h
      | false =>
        have h' : scan base acc true cs = some v := by simpa [scan] using h
        refine ⟨fun _ hb => ?_, by simp, by simp⟩
        exact (ih acc true h' s).2.1 rfl hb
    · have done : scan base acc due (c :: cs) = (if due then none else if (c :: cs).all isSpace then some acc else none) ∨
          ∃ d, digitVal c = some d ∧ d < base := by
        cases hd : digitVal c with
        | none => left; simp [scan, hu, hd]
        | some d =>
          by_cases hlt : d < base
          · exact .inr ⟨d, rfl, hlt⟩
          · left; simp [scan, hu, hd, hlt]
      rcases done with hdone | ⟨d, hd, hlt⟩
      · rw [hdone] at h
        cases due with
        | true => simp at h
        | false =>
          simp only [Bool.false_eq_true, if_false] at h
          split at h
          · next hall =>
            cases h
            exact ⟨fun _ hb => ⟨s, c :: cs, rfl, hb, List.all_eq_true.1 hall⟩, by simp, by simp⟩
          · cases h
      · rw [scan_digit _ _ _ _ _ _ hd hlt] at h
        refine ⟨fun _ hb => ?_, fun _ hb => ?_, fun _ h0 hs => ?_⟩
        · obtain ⟨b, ws, h1, h2, h3⟩ := (ih _ _ h (s ++ [c])).1 rfl (.snoc hb hd hlt)
          exact ⟨b, ws, by rw [← h1]; simp, h2, h3⟩
        · obtain ⟨b, ws, h1, h2, h3⟩ := (ih _ _ h (s ++ ['_', c])).1 rfl (.under hb hd hlt)
          exact ⟨b, ws, by rw [← h1]; simp, h2, h3⟩
        · subst h0; subst hs
          obtain ⟨b, ws, h1, h2, h3⟩ := (ih _ _ h [c]).1 rfl (by simpa using Body.one hd hlt)
          exact ⟨b, ws, by rw [← h1]; simp, h2, h3⟩

theorem Body.head {base : Nat} {s : List Char} {v : Nat} (h : Body base s v) :
    ∃ c d t, s = c :: t ∧ digitVal c = some d ∧ d < base := by
  induction h with
  | one h hd => exact ⟨_, _, _, rfl, h, hd⟩
  | snoc _ _ _ ih => obtain ⟨c, d, t, rfl, h1, h2⟩ := ih; exact ⟨c, d, _, rfl, h1, h2⟩
  | under _ _ _ ih => obtain ⟨c, d, t, rfl, h1, h2⟩ := ih; exact ⟨c, d, _, rfl, h1, h2⟩

theorem prefixChars_not_digit (base : Nat) (c : Char) (h : c ∈ prefixChars base) :
    isSpace c = false ∧ c ≠ '_' ∧ ∀ d, digitVal c = some d → ¬ d < base := by
  unfold prefixChars at h
  split at h
  · next hb =>
    subst hb
    rcases List.mem_cons.1 h with rfl | h
    · exact ⟨by decide, by decide, by intro d hd; cases hd; decide⟩
    · rw [List.mem_singleton.1 h]; exact ⟨by decide, by decide, by intro d hd; cases hd; decide⟩
  · split at h
    · next hb =>
      subst hb
      rcases List.mem_cons.1 h with rfl | h
      · exact ⟨by decide, by decide, by intro d hd; cases hd; decide⟩
      · rw [List.mem_singleton.1 h]; exact ⟨by decide, by decide, by intro d hd; cases hd; decide⟩
    · split at h
      · next hb =>
        subst hb
        rcases List.mem_cons.1 h with rfl | h
        · exact ⟨by decide, by decide, by intro d hd; cases hd; decide⟩
        · rw [List.mem_singleton.1 h]; exact ⟨by decide, by decide, by intro d hd; cases hd; decide⟩
      · cases h

/-- The second character of a string of digits, if any, is a digit of the base or an underscore. -/
theorem Body.second {base : Nat} {s : List Char} {v : Nat} (h : Body base s v) :
    ∀ a c t, s = a :: c :: t → c = '_' ∨ ∃ d, digitVal c = some d ∧ d < base := by
  induction h with
  | one h hd => intro a c t he; cases he
  | @snoc s v c' d hb h hd ih =>
    intro a c t he
    match s, hb with
    | [], hb => obtain ⟨_, _, _, he, _⟩ := hb.head; cases he
    | [x], _ => cases he; exact .inr ⟨_, h, hd⟩
    | x :: y :: z, _ => cases he; exact ih _ _ _ rfl
  | @under s v c' d hb h hd ih =>
    intro a c t he
    match s, hb with
    | [], hb => obtain ⟨_, _, _, he, _⟩ := hb.head; cases he
    | [x], _ => cases he; exact .inl rfl
    | x :: y :: z, _ => cases he; exact ih _ _ _ rfl

theorem skipPrefix_body (base : Nat) (pf body ws : List Char) (v : Nat) (hp : Pfx base pf)
    (hb : Body base body v) (hw : ∀ c ∈ ws, isSpace c = true) :
    skipPrefix base (pf ++ (body ++ ws)) = body ++ ws := by
  obtain ⟨c, d, t, rfl, h1, h2⟩ := hb.head
  have hu : c ≠ '_' := (digitVal_lt c d h1).2.1
  cases hp with
  | some h =>
    simp only [List.cons_append, List.nil_append, skipPrefix, if_pos h]
    split
    · next he => exact absurd (List.cons.inj he).1 hu
    · rfl
  | someU h => simp only [List.cons_append, List.nil_append, skipPrefix, if_pos h]
  | none =>
    simp only [List.nil_append]
    unfold skipPrefix
    split
    · next c2 cs he =>
      have hnot : c2 ∉ prefixChars base := by
        intro hm
        obtain ⟨h3, h4, h5⟩ := prefixChars_not_digit base c2 hm
        cases t with
        | nil =>
          simp only [List.cons_append, List.nil_append, List.cons.injEq] at he
          have : c2 ∈ ws := by rw [he.2]; simp
          rw [hw c2 this] at h3; cases h3
        | cons x t =>
          simp only [List.cons_append, List.cons.injEq] at he
          obtain ⟨_, rfl, _⟩ := he
          rcases hb.second _ _ _ rfl with h6 | ⟨d', h6, h7⟩
          · exact h4 h6
          · exact h5 d' h6 h7
      rw [if_neg hnot]; exact he.symm
    · rfl

theorem skipPrefix_split (base : Nat) (s : List Char) : ∃ pf, Pfx base pf ∧ s = pf ++ skipPrefix base s := by
  unfold skipPrefix
  split
  · split
    · next h =>
      split
      · exact ⟨_, .someU h, rfl⟩
      · exact ⟨_, .some h, rfl⟩
    · exact ⟨[], .none, rfl⟩
  · exact ⟨[], .none, rfl⟩

theorem dropWhile_spaces (ws s : List Char) (hw : ∀ c ∈ ws, isSpace c = true)
    (hs : ∀ c t, s = c :: t → isSpace c = false) : (ws ++ s).dropWhile isSpace = s := by
  induction ws with
  | nil =>
    cases s with
    | nil => rfl
    | cons c t => simp [hs c t rfl]
  | cons c ws ih =>
    rw [List.cons_append, List.dropWhile_cons, if_pos (hw c (by simp))]
    exact ih (fun c hc => hw c (by simp [hc]))

/-- The start of a prefix followed by digits is a digit of some base. -/
theorem start_digit (base : Nat) (pf body ws : List Char) (v : Nat) (hp : Pfx base pf)
    (hb : Body base body v) : ∃ c d t, pf ++ (body ++ ws) = c :: t ∧ digitVal c = some d := by
  obtain ⟨c, d, t, rfl, h1, _⟩ := hb.head
  cases hp with
  | none => exact ⟨c, d, t ++ ws, rfl, h1⟩
  | some _ => exact ⟨'0', 0, _, rfl, rfl⟩
  | someU _ => exact ⟨'0', 0, _, rfl, rfl⟩

/-- `int(str, base)` succeeds exactly on numerals, with their value. -/
theorem pyInt_iff (base : Nat) (s : List Char) (v : Int) : pyInt base s = some v ↔ Numeral base s v := by
  constructor
  · intro h
    have hsplit : s = s.takeWhile isSpace ++ s.dropWhile isSpace := List.takeWhile_append_dropWhile.symm
    have hws : ∀ c ∈ s.takeWhile isSpace, isSpace c = true :=
      fun c hc => List.all_eq_true.1 (List.all_takeWhile (p := isSpace) (l := s)) c hc
    have fin : ∀ (sg : List Char) (sgn : Int) (cs : List Char), Sign sg sgn → s.dropWhile isSpace = sg ++ cs →
        (scan base 0 true (skipPrefix base cs)).map (fun n : Nat => sgn * (n : Int)) = some v → Numeral base s v := by
      intro sg sgn cs hsg hd hm
      obtain ⟨n, hn, rfl⟩ := Option.map_eq_some_iff.1 hm
      obtain ⟨pf, hpf, hcs⟩ := skipPrefix_split base cs
      obtain ⟨body, ws', h1, h2, h3⟩ := (scan_sound base 0 _ true n hn []).2.2 rfl rfl rfl
      refine ⟨_, sg, pf, body, ws', sgn, n, ?_, hws, h3, hsg, hpf, h2, rfl⟩
      rw [← h1, ← hcs, ← hd]; exact hsplit
    unfold pyInt at h
    split at h
    · next cs hd => exact fin ['-'] (-1) cs .minus hd (by simpa using h)
    · next cs hd => exact fin ['+'] 1 cs .plus hd (by simpa using h)
    · exact fin [] 1 _ .none rfl (by simpa using h)
  · rintro ⟨ws, sg, pf, body, ws', sgn, n, rfl, hw, hw', hsg, hpf, hb, rfl⟩
    obtain ⟨c, d, t, hst, hd⟩ := start_digit base pf body ws' n hpf hb
    have hc := digitVal_lt c d hd
    have hscan : scan base 0 true (skipPrefix base (pf ++ (body ++ ws'))) = some n := by
      rw [skipPrefix_body base pf body ws' n hpf hb hw', scan_body base body n hb, scan_spaces base n ws' hw']
    unfold pyInt
    rw [dropWhile_spaces ws _ hw]
    · cases hsg with
      | minus => simp [hscan]
      | plus => simp [hscan]
      | none =>
        rw [List.nil_append]
        split
        · next he => rw [hst] at he; exact absurd (List.cons.inj he).1 hc.2.2.1
        · next he => rw [hst] at he; exact absurd (List.cons.inj he).1 hc.2.2.2
        · simp [hscan]
    · intro c' t' he
      cases hsg with
      | minus => cases he; decide
      | plus => cases he; decide
      | none => rw [List.nil_append, hst] at he; cases he; exact hc.1

/-- `parse.int` and `parse.long`: the value of the numeral when it is one and in range, the
documented error otherwise. -/
theorem parse_spec (code : Int) (t : IType) (s : List Char) (base : Int) :
    ((base < 2 ∨ base > 36) → parse code t s base = .error (.rt (code + 1))) ∧
    (2 ≤ base → base ≤ 36 →
      (∀ v, parse code t s base = .ok v ↔ Numeral base.toNat s v ∧ minVal t ≤ v ∧ v ≤ maxVal t) ∧
      ((¬ ∃ v, Numeral base.toNat s v ∧ minVal t ≤ v ∧ v ≤ maxVal t) →
        parse code t s base = .error (.rt code))) := by
  constructor
  · intro h; rw [parse, if_pos h]
  · intro h1 h2
    rw [parse, if_neg (by omega)]
    cases hp : pyInt base.toNat s with
    | none =>
      simp only [reduceCtorEq, false_iff, implies_true, and_true]
      rintro v ⟨hn, _⟩
      rw [(pyInt_iff _ _ _).2 hn] at hp; cases hp
    | some w =>
      have hw := (pyInt_iff _ _ _).1 hp
      have uniq : ∀ v, Numeral base.toNat s v → v = w := by
        intro v hv; have := (pyInt_iff _ _ _).2 hv; rw [hp] at this; exact (Option.some.inj this).symm
      by_cases hr : w < minVal t ∨ w > maxVal t
      · simp only [if_pos hr, reduceCtorEq, false_iff, implies_true, and_true]
        rintro v ⟨hn, hv⟩
        rw [uniq v hn] at hv; omega
      · simp only [if_neg hr, reduceCtorEq, imp_false, not_not]
        refine ⟨fun v => ?_, ⟨w, hw, by omega⟩⟩
        constructor
        · intro h; cases h; exact ⟨hw, by omega⟩
        · rintro ⟨hn, _⟩; rw [uniq v hn]

/-! ## Printing gives a numeral of the value -/

theorem digitChar_val (d : Nat) (h : d < 16) : digitVal (digitChar d) = some d := by
  have : d = 0 ∨ d = 1 ∨ d = 2 ∨ d = 3 ∨ d = 4 ∨ d = 5 ∨ d = 6 ∨ d = 7 ∨ d = 8 ∨ d = 9 ∨ d = 10 ∨
      d = 11 ∨ d = 12 ∨ d = 13 ∨ d = 14 ∨ d = 15 := by omega
  rcases this with h | h | h | h | h | h | h | h | h | h | h | h | h | h | h | h <;> subst h <;> rfl

theorem natStr_body (base : Nat) (h2 : 2 ≤ base) (h16 : base ≤ 16) (fuel n : Nat) (hf : n < fuel) :
    Body base (natStr base fuel n) n := by
  induction fuel generalizing n with
  | zero => omega
  | succ fuel ih =>
    rw [natStr]
    split
    · next h => exact .one (digitChar_val n (by omega)) h
    · next h =>
      have hlt : n / base < n := Nat.div_lt_self (by omega) (by omega)
      have hm : n % base < base := Nat.mod_lt _ (by omega)
      have := Body.snoc (ih (n / base) (by omega)) (digitChar_val (n % base) (by omega)) hm
      rwa [Nat.mul_comm, Nat.div_add_mod] at this

theorem Body.zeros {base : Nat} {s : List Char} {v : Nat} (hb : 1 ≤ base) (h : Body base s v) (k : Nat) :
    Body base (List.replicate k '0' ++ s) v := by
  induction k with
  | zero => exact h
  | succ k ih =>
    have key : ∀ {u : List Char} {v : Nat}, Body base u v → Body base ('0' :: u) v := by
      intro u v hu
      induction hu with
      | one h hd =>
        have := Body.snoc (Body.one (base := base) (c := '0') (d := 0) rfl (by omega)) h hd
        simpa using this
      | snoc _ h hd ih => exact .snoc (s := '0' :: _) ih h hd
      | under _ h hd ih => exact .under (s := '0' :: _) ih h hd
    rw [List.replicate_succ, List.cons_append]
    exact key ih

theorem signStr_sign (x : Int) : ∃ sgn, Sign (signStr x) sgn ∧ x = sgn * (x.natAbs : Int) := by
  unfold signStr
  by_cases h : x < 0
  · rw [if_pos h]; exact ⟨-1, .minus, by omega⟩
  · rw [if_neg h]; exact ⟨1, .none, by omega⟩

/-- What `fmtWidth` prints is a numeral of the value (unless the width is zero), and is padded to
at least the width. -/
theorem fmtWidth_numeral (base : Nat) (h2 : 2 ≤ base) (h16 : base ≤ 16) (x width : Int) (zeroPad : Bool)
    (s : List Char) (h : fmtWidth base x width zeroPad = .ok s) (hw : width ≠ 0) :
    Numeral base s x ∧ (s.length : Int) = max |width| (fmt base x).length := by
  obtain ⟨sgn, hs, hx⟩ := signStr_sign x
  have hb := natStr_body base h2 h16 (x.natAbs + 1) x.natAbs (by omega)
  have hsp : ∀ k : Nat, ∀ c ∈ List.replicate k ' ', isSpace c = true := by
    intro k c hc; rw [(List.mem_replicate.1 hc).2]; decide
  unfold fmtWidth at h
  cases zeroPad with
  | false =>
    simp only [Bool.not_false, if_true] at h
    by_cases hneg : width < 0
    · rw [if_pos hneg] at h; cases h
      refine ⟨⟨[], signStr x, [], digitsStr base x,
        List.replicate ((-width).toNat - (fmt base x).length) ' ', sgn, x.natAbs, ?_, by simp, hsp _, hs, .none, hb, hx⟩, ?_⟩
      · simp [fmt]
      · rw [List.length_append, List.length_replicate, abs_of_neg hneg]
        rcases max_cases (-width) ((fmt base x).length : Int) with h | h <;> omega
    · rw [if_neg hneg, if_neg hw] at h; cases h
      refine ⟨⟨List.replicate (width.toNat - (fmt base x).length) ' ', signStr x, [], digitsStr base x, [], sgn,
        x.natAbs, ?_, hsp _, by simp, hs, .none, hb, hx⟩, ?_⟩
      · simp [fmt]
      · rw [List.length_append, List.length_replicate, abs_of_nonneg (by omega)]
        rcases max_cases width ((fmt base x).length : Int) with h | h <;> omega
  | true =>
    simp only [Bool.not_true, Bool.false_eq_true, if_false] at h
    by_cases hneg : width < 0
    · rw [if_pos hneg] at h; cases h
    · rw [if_neg hneg, if_neg hw] at h; cases h
      refine ⟨⟨[], signStr x, [], List.replicate (width.toNat - (fmt base x).length) '0' ++ digitsStr base x, [],
        sgn, x.natAbs, ?_, by simp, by simp, hs, .none, hb.zeros (by omega) _, hx⟩, ?_⟩
      · simp
      · simp only [List.length_append, List.length_replicate, abs_of_nonneg (by omega : 0 ≤ width), fmt]
        rcases max_cases width (((signStr x ++ digitsStr base x).length : Nat) : Int) with h | h <;>
          simp only [List.length_append] at h ⊢ <;> omega

theorem fmt_numeral (base : Nat) (h2 : 2 ≤ base) (h16 : base ≤ 16) (x : Int) : Numeral base (fmt base x) x := by
  obtain ⟨sgn, hs, hx⟩ := signStr_sign x
  exact ⟨[], signStr x, [], digitsStr base x, [], sgn, x.natAbs, by simp [fmt], by simp, by simp, hs, .none,
    natStr_body base h2 h16 (x.natAbs + 1) x.natAbs (by omega), hx⟩

/-- Parsing what was printed gives the number back, with or without padding. -/
theorem parse_print (t : IType) (code : Int) (x : Int) (hx : minVal t ≤ x ∧ x ≤ maxVal t) :
    parse code t (sInt x) 10 = .ok x ∧
    (∀ width zeroPad s, width ≠ 0 → sIntWidth x width zeroPad = .ok s →
      parse code t s 10 = .ok x ∧ (s.length : Int) = max |width| (sInt x).length) ∧
    (0 ≤ x → ∃ s, sHex x = .ok s ∧ parse code t s 16 = .ok x) ∧
    (∀ width zeroPad s, width ≠ 0 → sHexWidth x width zeroPad = .ok s → parse code t s 16 = .ok x) := by
  have ok10 : ∀ s, Numeral 10 s x → parse code t s 10 = .ok x := fun s hs =>
    (((parse_spec code t s 10).2 (by omega) (by omega)).1 x).2 ⟨hs, hx⟩
  have ok16 : ∀ s, Numeral 16 s x → parse code t s 16 = .ok x := fun s hs =>
    (((parse_spec code t s 16).2 (by omega) (by omega)).1 x).2 ⟨hs, hx⟩
  have wc : ∀ {c r s}, withCode c r = .ok s → r = .ok s := by
    intro c r s h
    cases r with
    | ok _ => simpa [withCode] using h
    | error e => unfold withCode at h; split at h <;> simp_all
  refine ⟨ok10 _ (fmt_numeral 10 (by omega) (by omega) x), ?_, ?_, ?_⟩
  · intro width zeroPad s hw hs
    obtain ⟨h1, h2⟩ := fmtWidth_numeral 10 (by omega) (by omega) x width zeroPad s (wc hs) hw
    exact ⟨ok10 s h1, h2⟩
  · intro h
    exact ⟨_, by rw [sHex, if_neg (by omega)], ok16 _ (fmt_numeral 16 (by omega) (by omega) x)⟩
  · intro width zeroPad s hw hs
    unfold sHexWidth at hs
    split at hs
    · cases hs
    · exact ok16 s (fmtWidth_numeral 16 (by omega) (by omega) x width zeroPad s (wc hs) hw).1

/-- The errors of printing. -/
theorem print_errors (x width : Int) :
    (x < 0 → sHex x = .error (.rt 39111) ∧ ∀ z, sHexWidth x width z = .error (.rt 39111)) ∧
    (width < 0 → sIntWidth x width true = .error (.rt 39240)) ∧
    (width < 0 → 0 ≤ x → sHexWidth x width true = .error (.rt 39110)) := by
  refine ⟨fun h => ⟨by rw [sHex, if_pos h], fun z => by rw [sHexWidth, if_pos h]⟩, fun h => ?_, fun h hx => ?_⟩
  · simp [sIntWidth, fmtWidth, h, withCode]
  · rw [sHexWidth, if_neg (by omega)]; simp [fmtWidth, h, withCode]

/-- With width 0 the number is not printed at all. -/
theorem width_zero_violation (x : Int) (z : Bool) : sIntWidth x 0 z = .ok [] := by
  cases z <;> simp [sIntWidth, fmtWidth, withCode]

/-! ## Bit-width casts -/

/-- `doUnsigned` (cast.py 57-63).  `mult` is the integer `int(math.ceil(-float(x) / maximum))`
computed in doubles; its exact value does not matter. -/
def doUnsigned (mult : Int → Int → Int) (x : Int) (bits : Nat) : Int :=
  let maximum : Int := 2 ^ bits
  let y := if x < 0 then x + maximum * mult x maximum else x
  Int.fmod y maximum

/-- `cast.signed` (65-77). -/
def toSigned (mult : Int → Int → Int) (x bits : Int) : Res Int :=
  if bits < 2 ∨ bits > 64 then .error (.rt 17000)
  else
    let y := doUnsigned mult x bits.toNat
    let maximum : Int := 2 ^ (bits.toNat - 1)
    if y > maximum - 1 then .ok (y - 2 * maximum) else .ok y

/-- `cast.unsigned` (80-87). -/
def toUnsigned (mult : Int → Int → Int) (x bits : Int) : Res Int :=
  if bits < 1 ∨ bits > 63 then .error (.rt 17010) else .ok (doUnsigned mult x bits.toNat)

theorem doUnsigned_spec (mult : Int → Int → Int) (x : Int) (bits : Nat) :
    0 ≤ doUnsigned mult x bits ∧ doUnsigned mult x bits < 2 ^ bits ∧
      ∃ q, x = doUnsigned mult x bits + q * 2 ^ bits := by
  have hpos : (0 : Int) < 2 ^ bits := Int.pow_pos (by decide)
  unfold doUnsigned
  simp only
  refine ⟨Int.fmod_nonneg_of_pos _ hpos, Int.fmod_lt_of_pos _ hpos, ?_⟩
  split
  · refine ⟨Int.fdiv (x + 2 ^ bits * mult x (2 ^ bits)) (2 ^ bits) - mult x (2 ^ bits), ?_⟩
    have := Int.mul_fdiv_add_fmod (x + 2 ^ bits * mult x (2 ^ bits)) (2 ^ bits)
    linarith
  · refine ⟨Int.fdiv x (2 ^ bits), ?_⟩
    have := Int.mul_fdiv_add_fmod x (2 ^ bits)
    linarith

/-- `cast.unsigned`: the representative in `[0, 2^n)`. -/
theorem toUnsigned_spec (mult : Int → Int → Int) (x bits : Int) :
    ((bits < 1 ∨ bits > 63) → toUnsigned mult x bits = .error (.rt 17010)) ∧
    (1 ≤ bits → bits ≤ 63 → ∃ y, toUnsigned mult x bits = .ok y ∧ 0 ≤ y ∧ y < 2 ^ bits.toNat ∧
      ∃ q, x = y + q * 2 ^ bits.toNat) := by
  constructor
  · intro h; rw [toUnsigned, if_pos h]
  · intro h1 h2
    rw [toUnsigned, if_neg (by omega)]
    exact ⟨_, rfl, doUnsigned_spec mult x bits.toNat⟩

/-- `cast.signed`: the representative in `[-2^(n-1), 2^(n-1))`. -/
theorem toSigned_spec (mult : Int → Int → Int) (x bits : Int) :
    ((bits < 2 ∨ bits > 64) → toSigned mult x bits = .error (.rt 17000)) ∧
    (2 ≤ bits → bits ≤ 64 → ∃ y, toSigned mult x bits = .ok y ∧
      -(2 ^ (bits.toNat - 1)) ≤ y ∧ y < 2 ^ (bits.toNat - 1) ∧ ∃ q, x = y + q * 2 ^ bits.toNat) := by
  constructor
  · intro h; rw [toSigned, if_pos h]
  · intro h1 h2
    rw [toSigned, if_neg (by omega)]
    obtain ⟨h3, h4, q, h5⟩ := doUnsigned_spec mult x bits.toNat
    have hp : (2 : Int) ^ bits.toNat = 2 * 2 ^ (bits.toNat - 1) := by
      obtain ⟨k, hk⟩ : ∃ k, bits.toNat = k + 1 := ⟨bits.toNat - 1, by omega⟩
      rw [hk, Nat.add_sub_cancel, Int.pow_succ, Int.mul_comm]
    simp only
    rw [hp] at h4 h5 ⊢
    have hpos : (0 : Int) < 2 ^ (bits.toNat - 1) := Int.pow_pos (by decide)
    generalize (2 : Int) ^ (bits.toNat - 1) = M at *
    generalize doUnsigned mult x bits.toNat = y at *
    by_cases hy : y > M - 1
    · rw [if_pos hy]
      exact ⟨_, rfl, by omega, by omega, q + 1, by rw [h5]; ring⟩
    · rw [if_neg hy]
      exact ⟨_, rfl, by omega, by omega, q, h5⟩

/-! ## Fanout -/

variable {α : Type _} [DecidableEq α]

/-- `fanoutEnum` (cast.py 168-169). -/
def fanoutEnum (x : α) (symbols : List α) : List Bool := symbols.map (fun s => decide (x = s))

/-- `fanoutString` (171-176). -/
def fanoutString (x : α) (dictionary : List α) (outOfRange : Bool) : List Bool :=
  let out := dictionary.map (fun s => decide (x = s))
  if outOfRange then out ++ [decide (x ∉ dictionary)] else out

/-- `range(minimum, maximum)`. -/
def intRange (minimum maximum : Int) : List Int :=
  (List.range (maximum - minimum).toNat).map (fun i : Nat => minimum + (i : Int))

/-- `fanoutInt` (178-183). -/
def fanoutInt (x minimum maximum : Int) (outOfRange : Bool) : List Bool :=
  let out := (intRange minimum maximum).map (fun i => decide (x = i))
  if outOfRange then out ++ [decide (x < minimum ∨ x ≥ maximum)] else out

/-- `cast.fanoutBoolean` with a dictionary (185-203). -/
def fanoutDict (x : α) (dictionary : List α) (outOfRange : Bool) : Res (List Bool) :=
  if ¬ dictionary.Nodup then .error (.rt 17060) else .ok (fanoutString x dictionary outOfRange)

/-- One-hot: exactly position `i` is true. -/
def OneHot (l : List Bool) (i : Nat) : Prop := l[i]? = some true ∧ ∀ j, l[j]? = some true → j = i

theorem oneHot_map (x : α) (l : List α) (h : l.Nodup) (i : Nat) (hi : l[i]? = some x) :
    OneHot (l.map (fun s => decide (x = s))) i := by
  refine ⟨by simp [hi], fun j hj => ?_⟩
  rw [List.getElem?_map, Option.map_eq_some_iff] at hj
  obtain ⟨y, hy, he⟩ := hj
  have he : x = y := by simpa using he
  subst he
  obtain ⟨hi1, hi2⟩ := List.getElem?_eq_some_iff.1 hi
  obtain ⟨hj1, hj2⟩ := List.getElem?_eq_some_iff.1 hy
  exact (List.Nodup.getElem_inj_iff h).1 (hj2.trans hi2.symm)

/-- Fanout of an enum or a dictionary entry: one true, at the position of the value. -/
theorem fanout_listed (x : α) (l : List α) (h : l.Nodup) (i : Nat) (hi : l[i]? = some x) (o : Bool) :
    OneHot (fanoutEnum x l) i ∧ (fanoutEnum x l).length = l.length ∧
    ∃ out, fanoutDict x l o = .ok out ∧ OneHot out i ∧ out.length = l.length + (if o then 1 else 0) := by
  have hmem : x ∈ l := List.mem_of_getElem? hi
  refine ⟨oneHot_map x l h i hi, by simp [fanoutEnum], fanoutString x l o, by simp [fanoutDict, h], ?_, ?_⟩
  · cases o with
    | false => exact oneHot_map x l h i hi
    | true =>
      obtain ⟨h1, h2⟩ := oneHot_map x l h i hi
      simp only [fanoutString, if_true]
      refine ⟨by rw [List.getElem?_append_left (List.getElem?_eq_some_iff.1 h1).1]; exact h1, fun j hj => ?_⟩
      rcases Nat.lt_or_ge j (l.map (fun s => decide (x = s))).length with hlt | hge
      · rw [List.getElem?_append_left hlt] at hj; exact h2 j hj
      · rw [List.getElem?_append_right hge] at hj
        have := List.mem_of_getElem? hj
        simp [hmem] at this
  · cases o <;> simp [fanoutString]

/-- A value not in the dictionary: only the out-of-range entry is true, if there is one. -/
theorem fanout_unlisted (x : α) (l : List α) (hx : x ∉ l) :
    OneHot (fanoutString x l true) l.length ∧ (∀ b ∈ fanoutString x l false, b = false) ∧
      (l.Nodup → ∀ o, fanoutDict x l o = .ok (fanoutString x l o)) ∧
      (¬ l.Nodup → ∀ o, fanoutDict x l o = .error (.rt 17060)) := by
  have hf : ∀ b ∈ l.map (fun s => decide (x = s)), b = false := by
    intro b hb
    obtain ⟨s, hs, rfl⟩ := List.mem_map.1 hb
    simp only [decide_eq_false_iff_not]
    rintro rfl; exact hx hs
  refine ⟨⟨?_, ?_⟩, ?_, ?_, ?_⟩
  · simp [fanoutString, hx]
  · intro j hj
    simp only [fanoutString, if_true] at hj
    rcases Nat.lt_or_ge j (l.map (fun s => decide (x = s))).length with hlt | hge
    · rw [List.getElem?_append_left hlt] at hj
      exact absurd (hf true (List.mem_of_getElem? hj)) (by simp)
    · have := (List.getElem?_eq_some_iff.1 hj).1
      simp at this hge; omega
  · simpa [fanoutString] using hf
  · intro h o; simp [fanoutDict, h]
  · intro h o; simp [fanoutDict, h]

theorem intRange_get (a b : Int) (i : Nat) :
    (intRange a b)[i]? = if a + i < b then some (a + i) else none := by
  unfold intRange
  rw [List.getElem?_map]
  by_cases h : a + i < b
  · rw [List.getElem?_range (by omega)]; simp [h]
  · rw [List.getElem?_eq_none (by simp; omega)]; simp [h]

theorem intRange_nodup (a b : Int) : (intRange a b).Nodup := by
  unfold intRange
  refine List.Nodup.map (fun x y h => ?_) List.nodup_range
  have h : a + (x : Int) = a + (y : Int) := h
  omega

/-- Fanout of an int in a range. -/
theorem fanoutInt_spec (x a b : Int) (o : Bool) :
    (a ≤ x → x < b → OneHot (fanoutInt x a b o) (x - a).toNat) ∧
    (a ≤ b → (x < a ∨ b ≤ x) → OneHot (fanoutInt x a b true) (b - a).toNat ∧
      ∀ t ∈ fanoutInt x a b false, t = false) := by
  have e : ∀ o, fanoutInt x a b o = fanoutString x (intRange a b) o := by
    intro o
    have : (x < a ∨ x ≥ b) ↔ x ∉ intRange a b := by
      constructor
      · intro h hm
        obtain ⟨i, hi⟩ := List.mem_iff_getElem?.1 hm
        rw [intRange_get] at hi
        split at hi
        · cases hi; omega
        · cases hi
      · intro h
        by_contra hc
        apply h
        rw [List.mem_iff_getElem?]
        refine ⟨(x - a).toNat, ?_⟩
        rw [intRange_get, if_pos (by omega)]
        congr 1; omega
    simp only [fanoutInt, fanoutString, this]
  constructor
  · intro h1 h2
    have hi : (intRange a b)[(x - a).toNat]? = some x := by
      rw [intRange_get, if_pos (by omega)]; congr 1; omega
    obtain ⟨_, _, out, h3, h4, _⟩ := fanout_listed x (intRange a b) (intRange_nodup a b) _ hi o
    rw [e]
    have : fanoutDict x (intRange a b) o = .ok (fanoutString x (intRange a b) o) := by
      simp [fanoutDict, intRange_nodup a b]
    rw [this] at h3; cases h3; exact h4
  · intro hab h
    have hx : x ∉ intRange a b := by
      intro hm
      obtain ⟨i, hi⟩ := List.mem_iff_getElem?.1 hm
      rw [intRange_get] at hi
      split at hi
      · cases hi; omega
      · cases hi
    obtain ⟨h1, h2, _⟩ := fanout_unlisted x (intRange a b) hx
    have hl : (intRange a b).length = (b - a).toNat := by simp [intRange]
    rw [e, e, ← hl]; exact ⟨h1, h2⟩

/-! ### Non-vacuity -/

example : pyInt 16 " -0x_fF ".toList = some (-255) := by decide
example : pyInt 10 "1__0".toList = none := by decide
example : parseInt "2147483648".toList 10 = .error (.rt 33000) := by decide
example : parseInt "11".toList 1 = .error (.rt 33001) := by decide
example : sInt (-120) = "-120".toList := by decide
example : sIntWidth (-12) 6 true = .ok "-00012".toList := by decide
example : sIntWidth 12 (-4) false = .ok "12  ".toList := by decide
example : sHex 255 = .ok "ff".toList := by decide
example : toSigned (fun _ _ => 3) (-129) 8 = .ok 127 := by decide
example : toUnsigned (fun _ _ => 0) 257 8 = .ok 1 := by decide
example : fanoutInt 3 2 5 true = [false, true, false, false] := by decide
example : fanoutDict "z" ["a", "b"] true = .ok [false, false, true] := by decide

end Verif.Lib.Num
