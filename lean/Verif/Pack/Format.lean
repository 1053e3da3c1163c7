import Verif.Pack.Model
/-!
# Names of binary formats (C23)

Models `BinaryFormatter.formatToDeclare` and its regular expressions (`titus/pfaast.py` 5492-5507,
5659-5692).  `re.match` is modelled by a backtracking matcher in continuation style: a pattern tries its
possibilities in the order of Python's engine and hands the remaining text to the continuation; the
match may end before the end of the text.
-/

namespace Verif.Pack.Format
open Verif.Pack

/-! ## Model -/

/-- Characters matched by `\s` in a Python str pattern (str.isspace). -/
def isWs (c : Char) : Bool :=
  let n := c.toNat
  (9 ≤ n && n ≤ 13) || (28 ≤ n && n ≤ 32) || n == 0x85 || n == 0xa0 || n == 0x1680 || (0x2000 ≤ n && n ≤ 0x200a) ||
    n == 0x2028 || n == 0x2029 || n == 0x202f || n == 0x205f || n == 0x3000

/-- A pattern with continuation. -/
abbrev Pat (α : Type) := List Char → (List Char → Option α) → Option α

variable {α : Type}

/-- A literal word. -/
def lit (w : List Char) : Pat α := fun s k => if w.isPrefixOf s then k (s.drop w.length) else none

/-- `\s*`, longest first. -/
def ws : Pat α
  | [], k => k []
  | c :: s, k => if isWs c then (ws s k).or (k (c :: s)) else k (c :: s)

/-- `\s+` -/
def ws1 : Pat α
  | [], _ => none
  | c :: s, k => if isWs c then ws s k else none

/-- One pattern after another. -/
def seq (p q : Pat α) : Pat α := fun s k => p s (fun t => q t k)

/-- Alternatives, in order. -/
def alts : List (Pat α) → Pat α
  | [], _, _ => none
  | p :: ps, s, k => (p s k).or (alts ps s k)

/-- `(...)?` -/
def opt (p : Pat α) : Pat α := fun s k => (p s k).or (k s)

infixr:65 " ⬝ " => seq

/-- `re.match(p, s)` succeeds. -/
def hit (p : Pat Unit) (s : List Char) : Bool := (p s (fun _ => some ())).isSome

def w (s : String) : Pat α := lit s.toList

/-- `(<|>|!|little|big|network)` -/
def marks : Pat α := alts [w "<", w ">", w "!", w "little", w "big", w "network"]

/-- A pattern between white space, and one with an optional byte-order mark. -/
def plain (p : Pat α) : Pat α := ws ⬝ p ⬝ ws
@[inherit_doc plain] def marked (p : Pat α) : Pat α := ws ⬝ opt marks ⬝ ws ⬝ p ⬝ ws

/-- The patterns (pfaast.py 5492-5507), without the surrounding white space and byte-order mark. -/
def pPad : Pat α := w "pad"
@[inherit_doc pPad] def pBoolean : Pat α := w "boolean"
@[inherit_doc pPad] def pByte : Pat α := alts [w "byte", w "int8"]
@[inherit_doc pPad] def pUByte : Pat α := w "unsigned" ⬝ ws ⬝ alts [w "byte", w "int8"]
@[inherit_doc pPad] def pShort : Pat α := alts [w "short", w "int16"]
@[inherit_doc pPad] def pUShort : Pat α := alts [w "unsigned" ⬝ ws ⬝ w "short", w "unsigned" ⬝ ws ⬝ w "int16"]
@[inherit_doc pPad] def pInt : Pat α := alts [w "int", w "int32"]
@[inherit_doc pPad] def pUInt : Pat α := alts [w "unsigned" ⬝ ws ⬝ w "int", w "unsigned" ⬝ ws ⬝ w "int32"]
@[inherit_doc pPad] def pLong : Pat α := alts [w "long", w "long" ⬝ ws1 ⬝ w "long", w "int64"]
@[inherit_doc pPad] def pULong : Pat α :=
  alts [w "unsigned" ⬝ ws ⬝ w "long", w "unsigned" ⬝ ws ⬝ w "long" ⬝ ws1 ⬝ w "long", w "unsigned" ⬝ ws ⬝ w "int64"]
@[inherit_doc pPad] def pFloat : Pat α := alts [w "float", w "float32"]
@[inherit_doc pPad] def pDouble : Pat α := alts [w "double", w "float64"]
@[inherit_doc pPad] def pRaw : Pat α := w "raw"
@[inherit_doc pPad] def pToNull : Pat α := opt (w "null" ⬝ ws) ⬝ w "terminated"
@[inherit_doc pPad] def pPrefixed : Pat α := opt (w "length" ⬝ ws) ⬝ w "prefixed"

def isDigit (c : Char) : Bool := 48 ≤ c.toNat && c.toNat ≤ 57

/-- The number written by decimal digits. -/
def natOf (ds : List Char) : Nat := ds.foldl (fun n c => n * 10 + (c.toNat - 48)) 0

/-- `\s*raw\s*([0-9]+)\s*` with its group: the digits are taken as far as they go. -/
def rawSize? (s : List Char) : Option Nat :=
  (ws ⬝ w "raw" ⬝ ws) s (fun t => match t.takeWhile isDigit with
    | [] => none
    | ds => some (natOf ds))

/-- `word in text` -/
def hasSub (word : List Char) : List Char → Bool
  | [] => word.isPrefixOf []
  | c :: s => word.isPrefixOf (c :: s) || hasSub word s

/-- `"<" in f or "little" in f` -/
def isLittle (f : List Char) : Bool := hasSub "<".toList f || hasSub "little".toList f

/-- `formatToDeclare` (pfaast.py 5659-5692).  It is a static method, so the `self.pos` in its error
messages raises NameError. -/
def formatToDeclare (output : Bool) (f : List Char) : Res Decl :=
  if hit (plain pPad) f then .ok .pad
  else if hit (plain pBoolean) f then .ok .boolean
  else if hit (plain pByte) f then .ok (.byte false)
  else if hit (plain pUByte) f then .ok (.byte true)
  else if hit (marked pShort) f then .ok (.short (isLittle f) false)
  else if hit (marked pUShort) f then .ok (.short (isLittle f) true)
  else if hit (marked pInt) f then .ok (.int (isLittle f) false)
  else if hit (marked pUInt) f then .ok (.int (isLittle f) true)
  else if hit (marked pLong) f then .ok (.long (isLittle f) false)
  else if hit (marked pULong) f then .ok (.long (isLittle f) true)
  else if hit (marked pFloat) f then .ok (.float (isLittle f))
  else if hit (marked pDouble) f then .ok (.double (isLittle f))
  else match rawSize? f with
    | some n => .ok (.rawSize n)
    | none =>
      if hit (plain pToNull) f then .ok .toNull
      else if hit (plain pPrefixed) f then .ok .prefixed
      else if hit (plain pRaw) f then (if output then .ok .raw else .error (.py "NameError"))
      else .error (.py "NameError")

/-! ## Specification: the documented names -/

/-- White space. -/
def Gap (g : List Char) : Prop := ∀ c ∈ g, isWs c = true

/-- Byte-order marks; `true` for least significant byte first. -/
inductive Mark : List Char → Bool → Prop
  | none : Mark [] false
  | lt : Mark "<".toList true
  | gt : Mark ">".toList false
  | bang : Mark "!".toList false
  | little : Mark "little".toList true
  | big : Mark "big".toList false
  | network : Mark "network".toList false

/-- Numbers with a byte order. -/
inductive Num where
  | short | int | long | float | double

/-- Names of signed integers and floats, and of unsigned integers. -/
inductive Named : List Char → Num → Bool → Prop
  | short : Named "short".toList .short false
  | int16 : Named "int16".toList .short false
  | int : Named "int".toList .int false
  | int32 : Named "int32".toList .int false
  | long : Named "long".toList .long false
  | longlong {g : List Char} : Gap g → g ≠ [] → Named ("long".toList ++ (g ++ "long".toList)) .long false
  | float : Named "float".toList .float false
  | float32 : Named "float32".toList .float false
  | double : Named "double".toList .double false
  | ushort {g : List Char} : Gap g → Named ("unsigned".toList ++ (g ++ "short".toList)) .short true
  | uint16 {g : List Char} : Gap g → Named ("unsigned".toList ++ (g ++ "int16".toList)) .short true
  | uint {g : List Char} : Gap g → Named ("unsigned".toList ++ (g ++ "int".toList)) .int true
  | uint32 {g : List Char} : Gap g → Named ("unsigned".toList ++ (g ++ "int32".toList)) .int true
  | ulong {g : List Char} : Gap g → Named ("unsigned".toList ++ (g ++ "long".toList)) .long true
  | ulonglong {g g' : List Char} : Gap g → Gap g' → g' ≠ [] →
      Named ("unsigned".toList ++ (g ++ ("long".toList ++ (g' ++ "long".toList)))) .long true

/-- The documented names for which the code selects another layout. -/
inductive Named64 : List Char → Num → Bool → Prop
  | int64 : Named64 "int64".toList .long false
  | float64 : Named64 "float64".toList .double false
  | uint64 {g : List Char} : Gap g → Named64 ("unsigned".toList ++ (g ++ "int64".toList)) .long true

def Num.decl : Num → Bool → Bool → Decl
  | .short, l, u => .short l u
  | .int, l, u => .int l u
  | .long, l, u => .long l u
  | .float, l, _ => .float l
  | .double, l, _ => .double l

/-- Names without byte order. -/
inductive PlainName : List Char → Decl → Prop
  | pad : PlainName "pad".toList .pad
  | boolean : PlainName "boolean".toList .boolean
  | byte : PlainName "byte".toList (.byte false)
  | int8 : PlainName "int8".toList (.byte false)
  | ubyte {g : List Char} : Gap g → PlainName ("unsigned".toList ++ (g ++ "byte".toList)) (.byte true)
  | uint8 {g : List Char} : Gap g → PlainName ("unsigned".toList ++ (g ++ "int8".toList)) (.byte true)
  | rawSize {g ds : List Char} : Gap g → ds ≠ [] → (∀ c ∈ ds, isDigit c = true) →
      PlainName ("raw".toList ++ (g ++ ds)) (.rawSize (natOf ds))
  | terminated : PlainName "terminated".toList .toNull
  | nullTerminated {g : List Char} : Gap g → PlainName ("null".toList ++ (g ++ "terminated".toList)) .toNull
  | prefixed : PlainName "prefixed".toList .prefixed
  | lengthPrefixed {g : List Char} : Gap g → PlainName ("length".toList ++ (g ++ "prefixed".toList)) .prefixed

/-! ## Matching -/

/-- The text behind leading white space. -/
def sk (s : List Char) : List Char := s.dropWhile isWs

theorem sk_gap {g : List Char} (hg : Gap g) (s : List Char) : sk (g ++ s) = sk s := by
  induction g with
  | nil => rfl
  | cons c g ih =>
    have h := hg c (by simp)
    have := ih (fun c hc => hg c (by simp [hc]))
    simp only [sk, List.cons_append, List.dropWhile_cons, h, if_true] at this ⊢
    exact this

theorem sk_cons {c : Char} (h : isWs c = false) (s : List Char) : sk (c :: s) = c :: s := by
  simp [sk, h]

theorem sk_sk (s : List Char) : sk (sk s) = sk s := by
  induction s with
  | nil => rfl
  | cons c s ih =>
    by_cases h : isWs c = true
    · have e : sk (c :: s) = sk s := by simp [sk, h]
      rw [e, ih]
    · rw [sk_cons (by simpa using h), sk_cons (by simpa using h)]

theorem ws_ok (t : List Char) : (ws t (fun _ => some ()) : Option Unit) = some () := by
  induction t with
  | nil => rfl
  | cons c t ih => simp only [ws, ih]; split <;> rfl

/-- White space is skipped when what follows does not care for it. -/
theorem ws_skip {k : List Char → Option α}
    (h : ∀ c s, isWs c = true → k (c :: s) = none ∨ k (c :: s) = k s) (s : List Char) : ws s k = k (sk s) := by
  have aux : ∀ s, k s = none ∨ k s = k (sk s) := by
    intro s
    induction s with
    | nil => exact .inr rfl
    | cons c s ih =>
      by_cases hc : isWs c = true
      · have e : sk (c :: s) = sk s := by simp [sk, hc]
        rw [e]
        rcases h c s hc with h1 | h1
        · exact .inl h1
        · rw [h1]; exact ih
      · rw [sk_cons (by simpa using hc)]; exact .inr rfl
  induction s with
  | nil => rfl
  | cons c s ih =>
    by_cases hc : isWs c = true
    · have e : sk (c :: s) = sk s := by simp [sk, hc]
      simp only [ws, if_pos hc, ih, e]
      rcases aux (c :: s) with h1 | h1
      · rw [h1, Option.or_none]
      · rw [h1, e, Option.or_self]
    · simp only [ws, if_neg hc]
      rw [sk_cons (by simpa using hc)]

/-- A pattern that does not begin with white space. -/
def NoWs (p : Pat α) : Prop := ∀ c s k, isWs c = true → p (c :: s) k = none

theorem lit_noWs {x : Char} {xs : List Char} (h : isWs x = false) : NoWs (lit (x :: xs) : Pat α) := by
  intro c s k hc
  have : (x == c) = false := by
    rw [beq_eq_false_iff_ne]; rintro rfl; rw [h] at hc; cases hc
  simp only [lit, List.isPrefixOf, this, Bool.false_and]
  rfl

theorem seq_noWs {p q : Pat α} (h : NoWs p) : NoWs (p ⬝ q) := fun c s _ hc => h c s _ hc

theorem alts_noWs {ps : List (Pat α)} (h : ∀ p ∈ ps, NoWs p) : NoWs (alts ps) := by
  intro c s k hc
  induction ps with
  | nil => rfl
  | cons p ps ih =>
    simp only [alts, h p (by simp) c s k hc, ih (fun q hq => h q (by simp [hq])), Option.or_none]

theorem ws_then {p : Pat α} (h : NoWs p) (s : List Char) (k : List Char → Option α) :
    (ws ⬝ p) s k = p (sk s) k := by
  rw [seq, ws_skip]
  intro c s hc
  exact .inl (h c s k hc)

theorem hit_plain {p : Pat Unit} (h : NoWs p) (s : List Char) : hit (plain p) s = hit p (sk s) := by
  have e : (fun t => ws t fun _ => some ()) = (fun _ => some () : List Char → Option Unit) := funext ws_ok
  unfold hit plain
  have := ws_then (seq_noWs (q := ws) h) s (fun _ => some ())
  rw [this]
  simp only [seq, e]

theorem marks_noWs : NoWs (marks : Pat α) := by
  apply alts_noWs
  intro p hp
  simp only [List.mem_cons, List.not_mem_nil, or_false] at hp
  rcases hp with rfl | rfl | rfl | rfl | rfl | rfl <;> exact lit_noWs (by decide)

/-- A pattern that does not begin with a byte-order mark. -/
def NoMark (p : Pat α) : Prop := ∀ m l t k, Mark m l → m ≠ [] → p (m ++ t) k = none

theorem lit_prefix {x t : List Char} {k : List Char → Option α} : lit x (x ++ t) k = k t := by
  have : x.isPrefixOf (x ++ t) = true := by simp
  simp only [lit, if_pos this, List.drop_left]

theorem isPrefixOf_iff {x s : List Char} : x.isPrefixOf s = true ↔ ∃ t, s = x ++ t := by
  rw [List.isPrefixOf_iff_prefix]
  exact ⟨fun ⟨t, h⟩ => ⟨t, h.symm⟩, fun ⟨t, h⟩ => ⟨t, h.symm⟩⟩

/-- Text that begins with a mark, or does not. -/
theorem marks_cases (s : List Char) (k : List Char → Option α) :
    marks s k = none ∨ ∃ m l t, Mark m l ∧ m ≠ [] ∧ s = m ++ t := by
  by_cases h : ∃ m l t, Mark m l ∧ m ≠ [] ∧ s = m ++ t
  · exact .inr h
  · left
    have no : ∀ m l, Mark m l → m ≠ [] → lit m s k = none := by
      intro m l hm hne
      simp only [lit]
      rw [if_neg]
      intro hp
      obtain ⟨t, rfl⟩ := isPrefixOf_iff.1 hp
      exact h ⟨m, l, t, hm, hne, rfl⟩
    simp only [marks, alts, w, no _ _ .lt (by decide), no _ _ .gt (by decide), no _ _ .bang (by decide),
      no _ _ .little (by decide), no _ _ .big (by decide), no _ _ .network (by decide), Option.or_none]

theorem marks_hit {m : List Char} {l : Bool} (hm : Mark m l) (hne : m ≠ []) (t : List Char) (k : List Char → Option α) :
    marks (m ++ t) k = k t := by
  cases hm
  · exact absurd rfl hne
  all_goals simp [marks, alts, w, lit]

theorem mark_head {m : List Char} {l : Bool} (hm : Mark m l) (hne : m ≠ []) (t : List Char) : sk (m ++ t) = m ++ t := by
  cases hm
  · exact absurd rfl hne
  all_goals exact sk_cons (by decide) _

theorem hit_marked {p : Pat Unit} (h : NoWs p) (hm : NoMark p) (s : List Char) :
    hit (marked p) s = ((marks (sk s) (fun t => p (sk t) (fun _ => some ()))).or (p (sk s) (fun _ => some ()))).isSome := by
  have e : (fun t => ws t fun _ => some ()) = (fun _ => some () : List Char → Option Unit) := funext ws_ok
  have e1 : ∀ t, (ws ⬝ p ⬝ ws) t (fun _ => some ()) = p (sk t) (fun _ => some ()) := by
    intro t
    rw [ws_then (seq_noWs (q := ws) h) t]
    simp only [seq, e]
  have hsk : ∀ c t, isWs c = true → sk (c :: t) = sk t := fun c t hc => by simp [sk, hc]
  unfold hit marked
  have : (ws ⬝ opt marks ⬝ ws ⬝ p ⬝ ws) s (fun _ => some ()) =
      (fun t => (marks t (fun t => p (sk t) (fun _ => some ()))).or (p (sk t) (fun _ => some ()))) (sk s) := by
    have e2 : (ws ⬝ opt marks ⬝ ws ⬝ p ⬝ ws) s (fun _ => some ()) =
        ws s (fun t => (marks t (fun t => p (sk t) (fun _ => some ()))).or (p (sk t) (fun _ => some ()))) := by
      change ws s (fun t => (marks t (fun t => (ws ⬝ p ⬝ ws) t (fun _ => some ()))).or ((ws ⬝ p ⬝ ws) t (fun _ => some ()))) = _
      simp only [e1]
    rw [e2, ws_skip]
    intro c t hc
    simp only [marks_noWs c t _ hc, Option.none_or, hsk c t hc]
    rcases marks_cases t (fun t => p (sk t) (fun _ => some ())) with h1 | ⟨m, l, t', h1, h2, rfl⟩
    · right; rw [h1, Option.none_or]
    · left; rw [mark_head h1 h2]; exact hm m l t' _ h1 h2
  rw [this]
  simp only [sk_sk]

/-- A name beginning with a letter that is neither white space nor the first letter of a mark. -/
def Start (n : List Char) : Prop := sk n = n ∧ ∀ m l t, Mark m l → m ≠ [] → n ≠ m ++ t

theorem marked_name {p : Pat Unit} (h : NoWs p) (hp : NoMark p) {g g' m n : List Char} {l : Bool} (hg : Gap g) (hg' : Gap g')
    (hm : Mark m l) (hn : Start n) : hit (marked p) (g ++ (m ++ (g' ++ n))) = hit p n := by
  rw [hit_marked h hp, sk_gap hg]
  by_cases hne : m = []
  · subst hne
    rw [List.nil_append, sk_gap hg', hn.1]
    rcases marks_cases n (fun t => p (sk t) (fun _ => some ())) with h1 | ⟨m, l, t', h1, h2, rfl⟩
    · rw [h1, Option.none_or]; rfl
    · exact absurd rfl (hn.2 m l t' h1 h2)
  · rw [mark_head hm hne, marks_hit hm hne, sk_gap hg', hn.1, hp m l _ _ hm hne, Option.or_none]
    rfl

theorem plain_name {p : Pat Unit} (h : NoWs p) (hp : NoMark p) {g g' m n : List Char} {l : Bool} (hg : Gap g) (hg' : Gap g')
    (hm : Mark m l) (hn : Start n) : hit (plain p) (g ++ (m ++ (g' ++ n))) = (decide (m = []) && hit p n) := by
  rw [hit_plain h, sk_gap hg]
  by_cases hne : m = []
  · subst hne
    rw [List.nil_append, sk_gap hg', hn.1]; simp
  · rw [mark_head hm hne]
    simp only [hit, hp m l _ _ hm hne, decide_eq_false hne]
    rfl

/-! ## Evaluation on the documented names -/

theorem s_lt : "<".toList = ['<'] := by decide
theorem s_gt : ">".toList = ['>'] := by decide
theorem s_bang : "!".toList = ['!'] := by decide
theorem s_little : "little".toList = ['l', 'i', 't', 't', 'l', 'e'] := by decide
theorem s_big : "big".toList = ['b', 'i', 'g'] := by decide
theorem s_network : "network".toList = ['n', 'e', 't', 'w', 'o', 'r', 'k'] := by decide
theorem s_pad : "pad".toList = ['p', 'a', 'd'] := by decide
theorem s_boolean : "boolean".toList = ['b', 'o', 'o', 'l', 'e', 'a', 'n'] := by decide
theorem s_byte : "byte".toList = ['b', 'y', 't', 'e'] := by decide
theorem s_int8 : "int8".toList = ['i', 'n', 't', '8'] := by decide
theorem s_unsigned : "unsigned".toList = ['u', 'n', 's', 'i', 'g', 'n', 'e', 'd'] := by decide
theorem s_short : "short".toList = ['s', 'h', 'o', 'r', 't'] := by decide
theorem s_int16 : "int16".toList = ['i', 'n', 't', '1', '6'] := by decide
theorem s_int : "int".toList = ['i', 'n', 't'] := by decide
theorem s_int32 : "int32".toList = ['i', 'n', 't', '3', '2'] := by decide
theorem s_long : "long".toList = ['l', 'o', 'n', 'g'] := by decide
theorem s_int64 : "int64".toList = ['i', 'n', 't', '6', '4'] := by decide
theorem s_float : "float".toList = ['f', 'l', 'o', 'a', 't'] := by decide
theorem s_float32 : "float32".toList = ['f', 'l', 'o', 'a', 't', '3', '2'] := by decide
theorem s_double : "double".toList = ['d', 'o', 'u', 'b', 'l', 'e'] := by decide
theorem s_float64 : "float64".toList = ['f', 'l', 'o', 'a', 't', '6', '4'] := by decide
theorem s_raw : "raw".toList = ['r', 'a', 'w'] := by decide
theorem s_null : "null".toList = ['n', 'u', 'l', 'l'] := by decide
theorem s_terminated : "terminated".toList = ['t', 'e', 'r', 'm', 'i', 'n', 'a', 't', 'e', 'd'] := by decide
theorem s_length : "length".toList = ['l', 'e', 'n', 'g', 't', 'h'] := by decide
theorem s_prefixed : "prefixed".toList = ['p', 'r', 'e', 'f', 'i', 'x', 'e', 'd'] := by decide
theorem ws_bang : isWs '!' = false := by decide
theorem ws_1 : isWs '1' = false := by decide
theorem ws_2 : isWs '2' = false := by decide
theorem ws_3 : isWs '3' = false := by decide
theorem ws_4 : isWs '4' = false := by decide
theorem ws_6 : isWs '6' = false := by decide
theorem ws_8 : isWs '8' = false := by decide
theorem ws_lt : isWs '<' = false := by decide
theorem ws_gt : isWs '>' = false := by decide
theorem ws_a : isWs 'a' = false := by decide
theorem ws_b : isWs 'b' = false := by decide
theorem ws_d : isWs 'd' = false := by decide
theorem ws_e : isWs 'e' = false := by decide
theorem ws_f : isWs 'f' = false := by decide
theorem ws_g : isWs 'g' = false := by decide
theorem ws_h : isWs 'h' = false := by decide
theorem ws_i : isWs 'i' = false := by decide
theorem ws_k : isWs 'k' = false := by decide
theorem ws_l : isWs 'l' = false := by decide
theorem ws_m : isWs 'm' = false := by decide
theorem ws_n : isWs 'n' = false := by decide
theorem ws_o : isWs 'o' = false := by decide
theorem ws_p : isWs 'p' = false := by decide
theorem ws_r : isWs 'r' = false := by decide
theorem ws_s : isWs 's' = false := by decide
theorem ws_t : isWs 't' = false := by decide
theorem ws_u : isWs 'u' = false := by decide
theorem ws_w : isWs 'w' = false := by decide
theorem ws_x : isWs 'x' = false := by decide
theorem ws_y : isWs 'y' = false := by decide

theorem lit_nil {s : List Char} {k : List Char → Option α} : lit [] s k = k s := rfl

theorem lit_cons {x y : Char} {xs s : List Char} {k : List Char → Option α} :
    lit (x :: xs) (y :: s) k = if x = y then lit xs s k else none := by
  simp only [lit, List.isPrefixOf, Bool.and_eq_true, beq_iff_eq]
  by_cases h : x = y <;> simp [h]

theorem lit_gap {x : Char} {xs g : List Char} {k : List Char → Option α} (hg : Gap g) (hx : isWs x = false) :
    lit (x :: xs) g k = none := by
  cases g with
  | nil => rfl
  | cons c g =>
    have h := hg c (by simp)
    exact lit_noWs hx c g k h

theorem lit_seq {x : List Char} {q : Pat α} {s : List Char} {k : List Char → Option α} :
    (lit x ⬝ q) s k = lit x s (fun t => q t k) := rfl

theorem ws_lit {x : Char} {xs s : List Char} {k : List Char → Option α} (hx : isWs x = false) :
    (ws ⬝ lit (x :: xs)) s k = lit (x :: xs) (sk s) k := ws_then (lit_noWs hx) s k

theorem ws_lit_seq {x : Char} {xs s : List Char} {q : Pat α} {k : List Char → Option α} (hx : isWs x = false) :
    (ws ⬝ lit (x :: xs) ⬝ q) s k = lit (x :: xs) (sk s) (fun t => q t k) := ws_then (seq_noWs (lit_noWs hx)) s k

theorem ws_alts {x y : Char} {xs ys s : List Char} {k : List Char → Option α} (hx : isWs x = false) (hy : isWs y = false) :
    (ws ⬝ alts [lit (x :: xs), lit (y :: ys)]) s k = (lit (x :: xs) (sk s) k).or (lit (y :: ys) (sk s) k) := by
  rw [ws_then]
  · simp [alts]
  · apply alts_noWs
    intro p hp
    simp only [List.mem_cons, List.not_mem_nil, or_false] at hp
    rcases hp with rfl | rfl
    · exact lit_noWs hx
    · exact lit_noWs hy

theorem opt_lit {p q : Pat α} {s : List Char} {k : List Char → Option α} :
    (opt p ⬝ q) s k = (p s (fun t => q t k)).or (q s k) := rfl

theorem hasSub_gap {x : Char} {xs g s : List Char} (hx : isWs x = false) (hg : Gap g) :
    hasSub (x :: xs) (g ++ s) = hasSub (x :: xs) s := by
  induction g with
  | nil => rfl
  | cons c g ih =>
    have h : (x == c) = false := by
      rw [beq_eq_false_iff_ne]; rintro rfl
      have := hg x (by simp)
      rw [hx] at this; cases this
    rw [List.cons_append, hasSub, ih (fun c hc => hg c (by simp [hc]))]
    simp only [List.isPrefixOf, h, Bool.false_and, Bool.false_or]

theorem hasSub_onlyGap {x : Char} {xs g : List Char} (hx : isWs x = false) (hg : Gap g) : hasSub (x :: xs) g = false := by
  have := hasSub_gap (s := []) (xs := xs) hx hg
  rw [List.append_nil] at this
  rw [this]; rfl

theorem noMark_of {p : Pat α} (h : ∀ m ∈ ["<".toList, ">".toList, "!".toList, "little".toList, "big".toList, "network".toList],
    ∀ t k, p (m ++ t) k = none) : NoMark p := by
  intro m l t k hm hne
  cases hm
  · exact absurd rfl hne
  all_goals exact h _ (by simp) t k

theorem start_of {n : List Char} (h : sk n = n) (h' : marks n (fun _ => some ()) = none) : Start n := by
  refine ⟨h, ?_⟩
  rintro m l t hm hne rfl
  rw [marks_hit hm hne] at h'
  cases h'

/-- Patterns used. -/
def pats : List (Pat Unit) := [pPad, pBoolean, pByte, pUByte, pShort, pUShort, pInt, pUInt, pLong, pULong, pFloat, pDouble,
  pRaw, pToNull, pPrefixed]

theorem pats_noMark : ∀ p ∈ pats, NoMark p := by
  intro p hp
  apply noMark_of
  intro m hm t k
  simp only [pats, List.mem_cons, List.not_mem_nil, or_false] at hp hm
  rcases hp with rfl | rfl | rfl | rfl | rfl | rfl | rfl | rfl | rfl | rfl | rfl | rfl | rfl | rfl | rfl <;>
  rcases hm with rfl | rfl | rfl | rfl | rfl | rfl <;>
  simp [pPad, pBoolean, pByte, pUByte, pShort, pUShort, pInt, pUInt, pLong, pULong, pFloat, pDouble, pRaw, pToNull, pPrefixed,
    alts, w, lit_seq, opt_lit, lit_cons, s_lt, s_gt, s_bang, s_little, s_big, s_network, s_pad, s_boolean, s_byte, s_int8, s_unsigned, s_short, s_int16, s_int, s_int32, s_long, s_int64, s_float, s_float32, s_double, s_float64, s_raw, s_null, s_terminated, s_length, s_prefixed]

theorem pats_noWs : ∀ p ∈ pats, NoWs p := by
  intro p hp
  have L : ∀ {x : Char} {xs : List Char} {q : Pat Unit}, isWs x = false → NoWs (lit (x :: xs) ⬝ q) :=
    fun h => seq_noWs (lit_noWs h)
  have O : ∀ {x y : Char} {xs ys : List Char}, isWs x = false → isWs y = false →
      NoWs (opt (lit (x :: xs) ⬝ ws) ⬝ lit (y :: ys) : Pat Unit) := by
    intro x y xs ys hx hy c s k hc
    simp only [opt_lit, L hx c s _ hc, lit_noWs hy c s _ hc, Option.or_none]
  simp only [pats, List.mem_cons, List.not_mem_nil, or_false] at hp
  rcases hp with rfl | rfl | rfl | rfl | rfl | rfl | rfl | rfl | rfl | rfl | rfl | rfl | rfl | rfl | rfl
  · exact lit_noWs (by decide)
  · exact lit_noWs (by decide)
  · apply alts_noWs; intro p hp; simp only [List.mem_cons, List.not_mem_nil, or_false] at hp
    rcases hp with rfl | rfl <;> exact lit_noWs (by decide)
  · exact L (by decide)
  · apply alts_noWs; intro p hp; simp only [List.mem_cons, List.not_mem_nil, or_false] at hp
    rcases hp with rfl | rfl <;> exact lit_noWs (by decide)
  · apply alts_noWs; intro p hp; simp only [List.mem_cons, List.not_mem_nil, or_false] at hp
    rcases hp with rfl | rfl <;> exact L (by decide)
  · apply alts_noWs; intro p hp; simp only [List.mem_cons, List.not_mem_nil, or_false] at hp
    rcases hp with rfl | rfl <;> exact lit_noWs (by decide)
  · apply alts_noWs; intro p hp; simp only [List.mem_cons, List.not_mem_nil, or_false] at hp
    rcases hp with rfl | rfl <;> exact L (by decide)
  · apply alts_noWs; intro p hp; simp only [List.mem_cons, List.not_mem_nil, or_false] at hp
    rcases hp with rfl | rfl | rfl
    · exact lit_noWs (by decide)
    · exact L (by decide)
    · exact lit_noWs (by decide)
  · apply alts_noWs; intro p hp; simp only [List.mem_cons, List.not_mem_nil, or_false] at hp
    rcases hp with rfl | rfl | rfl <;> exact L (by decide)
  · apply alts_noWs; intro p hp; simp only [List.mem_cons, List.not_mem_nil, or_false] at hp
    rcases hp with rfl | rfl <;> exact lit_noWs (by decide)
  · apply alts_noWs; intro p hp; simp only [List.mem_cons, List.not_mem_nil, or_false] at hp
    rcases hp with rfl | rfl <;> exact lit_noWs (by decide)
  · exact lit_noWs (by decide)
  · exact O (by decide) (by decide)
  · exact O (by decide) (by decide)

/-- The tests of `formatToDeclare` on a name. -/
def select (nomark : Bool) (l : Bool) (n : List Char) (size : Option Nat) (output : Bool) : Res Decl :=
  if nomark && hit pPad n then .ok .pad
  else if nomark && hit pBoolean n then .ok .boolean
  else if nomark && hit pByte n then .ok (.byte false)
  else if nomark && hit pUByte n then .ok (.byte true)
  else if hit pShort n then .ok (.short l false)
  else if hit pUShort n then .ok (.short l true)
  else if hit pInt n then .ok (.int l false)
  else if hit pUInt n then .ok (.int l true)
  else if hit pLong n then .ok (.long l false)
  else if hit pULong n then .ok (.long l true)
  else if hit pFloat n then .ok (.float l)
  else if hit pDouble n then .ok (.double l)
  else match size with
    | some n => .ok (.rawSize n)
    | none =>
      if nomark && hit pToNull n then .ok .toNull
      else if nomark && hit pPrefixed n then .ok .prefixed
      else if nomark && hit pRaw n then (if output then .ok .raw else .error (.py "NameError"))
      else .error (.py "NameError")

theorem select_eq {g g' m n : List Char} {l : Bool} (hg : Gap g) (hg' : Gap g') (hm : Mark m l) (hn : Start n) (output : Bool) :
    formatToDeclare output (g ++ (m ++ (g' ++ n))) =
      select (decide (m = [])) (isLittle (g ++ (m ++ (g' ++ n)))) n (rawSize? (g ++ (m ++ (g' ++ n)))) output := by
  have P : ∀ p ∈ pats, hit (plain p) (g ++ (m ++ (g' ++ n))) = (decide (m = []) && hit p n) := fun p hp =>
    plain_name (pats_noWs p hp) (pats_noMark p hp) hg hg' hm hn
  have M : ∀ p ∈ pats, hit (marked p) (g ++ (m ++ (g' ++ n))) = hit p n := fun p hp =>
    marked_name (pats_noWs p hp) (pats_noMark p hp) hg hg' hm hn
  unfold formatToDeclare
  rw [P pPad (by simp [pats]), P pBoolean (by simp [pats]), P pByte (by simp [pats]), P pUByte (by simp [pats]),
    M pShort (by simp [pats]), M pUShort (by simp [pats]), M pInt (by simp [pats]), M pUInt (by simp [pats]),
    M pLong (by simp [pats]), M pULong (by simp [pats]), M pFloat (by simp [pats]), M pDouble (by simp [pats]),
    P pToNull (by simp [pats]), P pPrefixed (by simp [pats]), P pRaw (by simp [pats])]
  rfl

theorem pUByte_eq {s : List Char} {k : List Char → Option α} : pUByte s k = lit "unsigned".toList s (fun t =>
    (lit "byte".toList (sk t) k).or (lit "int8".toList (sk t) k)) := by
  simp only [pUByte, w, lit_seq, s_byte, s_int8, ws_alts ws_b ws_i]

theorem ws_lit' {x : Char} {xs s : List Char} {k : List Char → Option α} (hx : isWs x = false) :
    ws s (fun t => lit (x :: xs) t k) = lit (x :: xs) (sk s) k := ws_lit hx

theorem gap_append {g g' : List Char} (h : Gap g) (h' : Gap g') : Gap (g ++ g') := by
  intro c hc
  rcases List.mem_append.1 hc with hc | hc
  · exact h c hc
  · exact h' c hc

theorem hasSub_cons {x y : Char} {xs s : List Char} :
    hasSub (x :: xs) (y :: s) = ((x == y && xs.isPrefixOf s) || hasSub (x :: xs) s) := rfl

/-- The test for the mark looks at the whole text; no name contains a mark. -/
theorem isLittle_named {g g' m n g'' : List Char} {l : Bool} (hg : Gap g) (hg' : Gap g') (hg'' : Gap g'') (hm : Mark m l)
    (hn : (∃ k u, Named n k u) ∨ ∃ k u, Named64 n k u) : isLittle (g ++ (m ++ (g' ++ (n ++ g'')))) = l := by
  have hname : hasSub ['<'] (n ++ g'') = false ∧ hasSub ['l', 'i', 't', 't', 'l', 'e'] (n ++ g'') = false := by
    rcases hn with ⟨k, u, hn⟩ | ⟨k, u, hn⟩ <;> cases hn
    all_goals
      simp only [s_lt, s_gt, s_bang, s_little, s_big, s_network, s_pad, s_boolean, s_byte, s_int8, s_unsigned, s_short, s_int16, s_int, s_int32, s_long, s_int64, s_float, s_float32, s_double, s_float64, s_raw, s_null, s_terminated, s_length, s_prefixed, List.append_assoc, List.cons_append, List.nil_append, hasSub_cons, List.isPrefixOf_cons₂]
      simp [hasSub_gap ws_lt, hasSub_gap ws_l, hasSub_onlyGap ws_lt hg'', hasSub_onlyGap ws_l hg'', hasSub_cons, List.isPrefixOf_cons₂, *]
  simp only [isLittle, s_lt, s_little, hasSub_gap ws_lt hg, hasSub_gap ws_l hg]
  cases hm <;> simp [s_lt, s_gt, s_bang, s_little, s_big, s_network, s_pad, s_boolean, s_byte, s_int8, s_unsigned, s_short, s_int16, s_int, s_int32, s_long, s_int64, s_float, s_float32, s_double, s_float64, s_raw, s_null, s_terminated, s_length, s_prefixed, hasSub_cons, hasSub_gap ws_lt hg', hasSub_gap ws_l hg', hname]

/-- C23: every documented name of a number except the 64-bit ones, with every byte-order mark and every
spacing, selects the layout it says.  The 64-bit names are documented too: see `int64_violation`. -/
theorem format_names_partial {g g' m n g'' : List Char} {l u : Bool} {k : Num} (hg : Gap g) (hg' : Gap g') (hg'' : Gap g'')
    (hm : Mark m l) (hn : Named n k u) (output : Bool) :
    formatToDeclare output (g ++ (m ++ (g' ++ (n ++ g'')))) = .ok (k.decl l u) := by
  have hl := isLittle_named hg hg' hg'' hm (.inl ⟨k, u, hn⟩)
  have hs : Start (n ++ g'') := by
    apply start_of
    · cases hn <;> exact sk_cons (by decide) _
    · cases hn <;> simp [marks, alts, w, lit_cons, s_lt, s_gt, s_bang, s_little, s_big, s_network, s_pad, s_boolean, s_byte, s_int8, s_unsigned, s_short, s_int16, s_int, s_int32, s_long, s_int64, s_float, s_float32, s_double, s_float64, s_raw, s_null, s_terminated, s_length, s_prefixed]
  rw [select_eq hg hg' hm hs, hl]
  cases hn
  all_goals
    simp [select, hit, pPad, pBoolean, pByte, pUByte_eq, pShort, pUShort, pInt, pUInt, pLong, pULong, pFloat, pDouble,
      alts, w, lit_seq, lit_cons, lit_nil, s_lt, s_gt, s_bang, s_little, s_big, s_network, s_pad, s_boolean, s_byte, s_int8, s_unsigned, s_short, s_int16, s_int, s_int32, s_long, s_int64, s_float, s_float32, s_double, s_float64, s_raw, s_null, s_terminated, s_length, s_prefixed, ws_lit, ws_lit_seq, ws_alts, ws_bang, ws_1, ws_2, ws_3, ws_4, ws_6, ws_8, ws_lt, ws_gt, ws_a, ws_b, ws_d, ws_e, ws_f, ws_g, ws_h, ws_i, ws_k, ws_l, ws_m, ws_n, ws_o, ws_p, ws_r, ws_s, ws_t, ws_u, ws_w, ws_x, ws_y,
      lit_gap hg'', sk_gap, sk_cons, Num.decl, *]

/-- The layout selected for the documented 64-bit names. -/
def Num.half : Num → Num
  | .long => .int
  | .double => .float
  | k => k

/-- int64, unsigned int64 and float64 always select the 32-bit layouts: the pattern for `int` matches
the beginning of `int64` and is tried first. -/
theorem int64_violation {g g' m n g'' : List Char} {l u : Bool} {k : Num} (hg : Gap g) (hg' : Gap g') (hg'' : Gap g'')
    (hm : Mark m l) (hn : Named64 n k u) (output : Bool) :
    formatToDeclare output (g ++ (m ++ (g' ++ (n ++ g'')))) = .ok (k.half.decl l u) ∧ k.half.decl l u ≠ k.decl l u := by
  have hl := isLittle_named hg hg' hg'' hm (.inr ⟨k, u, hn⟩)
  have hs : Start (n ++ g'') := by
    apply start_of
    · cases hn <;> exact sk_cons (by decide) _
    · cases hn <;> simp [marks, alts, w, lit_cons, s_lt, s_gt, s_bang, s_little, s_big, s_network, s_pad, s_boolean, s_byte, s_int8, s_unsigned, s_short, s_int16, s_int, s_int32, s_long, s_int64, s_float, s_float32, s_double, s_float64, s_raw, s_null, s_terminated, s_length, s_prefixed]
  rw [select_eq hg hg' hm hs, hl]
  cases hn
  all_goals
    simp [select, hit, pPad, pBoolean, pByte, pUByte_eq, pShort, pUShort, pInt, pUInt, pLong, pULong, pFloat, pDouble,
      alts, w, lit_seq, lit_cons, lit_nil, s_lt, s_gt, s_bang, s_little, s_big, s_network, s_pad, s_boolean, s_byte, s_int8, s_unsigned, s_short, s_int16, s_int, s_int32, s_long, s_int64, s_float, s_float32, s_double, s_float64, s_raw, s_null, s_terminated, s_length, s_prefixed, ws_lit, ws_lit_seq, ws_alts, ws_bang, ws_1, ws_2, ws_3, ws_4, ws_6, ws_8, ws_lt, ws_gt, ws_a, ws_b, ws_d, ws_e, ws_f, ws_g, ws_h, ws_i, ws_k, ws_l, ws_m, ws_n, ws_o, ws_p, ws_r, ws_s, ws_t, ws_u, ws_w, ws_x, ws_y,
      lit_gap hg'', sk_gap, sk_cons, Num.decl, Num.half, *]

theorem digit_notWs {c : Char} (h : isDigit c = true) : isWs c = false := by
  simp only [isDigit, Bool.and_eq_true, decide_eq_true_eq] at h
  have : ∀ n, n < 58 → 48 ≤ n → ((9 ≤ n && n ≤ 13) || (28 ≤ n && n ≤ 32) || n == 0x85 || n == 0xa0 || n == 0x1680 ||
      (0x2000 ≤ n && n ≤ 0x200a) || n == 0x2028 || n == 0x2029 || n == 0x202f || n == 0x205f || n == 0x3000) = false := by
    decide
  exact this c.toNat (by omega) h.1

theorem ws_notDigit {c : Char} (h : isWs c = true) : isDigit c = false := by
  by_contra hc
  rw [digit_notWs (by simpa using hc)] at h
  cases h

theorem takeWhile_digits {ds g : List Char} (hd : ∀ c ∈ ds, isDigit c = true) (hg : Gap g) :
    (ds ++ g).takeWhile isDigit = ds := by
  induction ds with
  | nil =>
    cases g with
    | nil => rfl
    | cons c g => simp [ws_notDigit (hg c (by simp))]
  | cons d ds ih => simp [hd d (by simp), ih (fun c hc => hd c (by simp [hc]))]

/-- The size behind `raw`. -/
theorem rawSize_spec {g g1 ds g2 : List Char} (hg : Gap g) (hg1 : Gap g1) (hg2 : Gap g2) (hne : ds ≠ [])
    (hd : ∀ c ∈ ds, isDigit c = true) : rawSize? (g ++ ("raw".toList ++ (g1 ++ (ds ++ g2)))) = some (natOf ds) := by
  obtain ⟨d, ds, rfl⟩ := List.exists_cons_of_ne_nil hne
  simp only [rawSize?, w, s_raw]
  rw [ws_lit_seq ws_r, sk_gap hg]
  simp only [List.cons_append, List.nil_append, sk_cons ws_r, lit_cons, if_true, lit_nil]
  rw [ws_skip, sk_gap hg1, sk_cons (digit_notWs (hd d (by simp)))]
  · have := takeWhile_digits hd hg2
    rw [List.cons_append] at this
    rw [this]
  · intro c s hc
    left
    simp [ws_notDigit hc]

theorem rawSize_none {g n : List Char} (hg : Gap g) (hn : sk n = n) (h : ∀ t, n ≠ "raw".toList ++ t) : rawSize? (g ++ n) = none := by
  simp only [rawSize?, w, s_raw]
  rw [ws_lit_seq ws_r, sk_gap hg, hn]
  simp only [lit]
  rw [if_neg]
  intro hp
  obtain ⟨t, rfl⟩ := isPrefixOf_iff.1 hp
  exact h t rfl

/-- C23: the names without byte order, with every spacing. -/
theorem format_plain_names {g n g'' : List Char} {d : Decl} (hg : Gap g) (hg'' : Gap g'') (hn : PlainName n d) (output : Bool) :
    formatToDeclare output (g ++ (n ++ g'')) = .ok d := by
  have hs : Start (n ++ g'') := by
    apply start_of
    · cases hn <;> exact sk_cons (by decide) _
    · cases hn <;> simp [marks, alts, w, lit_cons, s_lt, s_gt, s_bang, s_little, s_big, s_network, s_pad, s_boolean, s_byte, s_int8, s_unsigned, s_short, s_int16, s_int, s_int32, s_long, s_int64, s_float, s_float32, s_double, s_float64, s_raw, s_null, s_terminated, s_length, s_prefixed]
  have hgap : Gap [] := fun c hc => by cases hc
  have := select_eq hg hgap .none hs output
  rw [List.nil_append, List.nil_append] at this
  rw [this]
  have hr : (∃ g1 ds, Gap g1 ∧ ds ≠ [] ∧ (∀ c ∈ ds, isDigit c = true) ∧ n = "raw".toList ++ (g1 ++ ds) ∧ d = .rawSize (natOf ds)) ∨
      rawSize? (g ++ (n ++ g'')) = none := by
    cases hn
    case rawSize g1 ds h1 h2 h3 => exact .inl ⟨g1, ds, h1, h2, h3, rfl, rfl⟩
    all_goals
      right
      apply rawSize_none hg hs.1
      intro t
      simp [s_lt, s_gt, s_bang, s_little, s_big, s_network, s_pad, s_boolean, s_byte, s_int8, s_unsigned, s_short, s_int16, s_int, s_int32, s_long, s_int64, s_float, s_float32, s_double, s_float64, s_raw, s_null, s_terminated, s_length, s_prefixed]
  rcases hr with ⟨g1, ds, h1, h2, h3, rfl, rfl⟩ | hr
  · have hr := rawSize_spec hg h1 hg'' h2 h3
    simp only [List.append_assoc] at hr ⊢
    rw [hr]
    simp [select, hit, pPad, pBoolean, pByte, pUByte_eq, pShort, pUShort, pInt, pUInt, pLong, pULong, pFloat, pDouble,
      alts, w, lit_seq, lit_cons, lit_nil, s_lt, s_gt, s_bang, s_little, s_big, s_network, s_pad, s_boolean, s_byte, s_int8, s_unsigned, s_short, s_int16, s_int, s_int32, s_long, s_int64, s_float, s_float32, s_double, s_float64, s_raw, s_null, s_terminated, s_length, s_prefixed]
  · rw [hr]
    cases hn
    case rawSize g1 ds h1 h2 h3 =>
      rw [List.append_assoc, List.append_assoc, rawSize_spec hg h1 hg'' h2 h3] at hr
      cases hr
    all_goals
      simp [select, hit, pPad, pBoolean, pByte, pUByte_eq, pShort, pUShort, pInt, pUInt, pLong, pULong, pFloat, pDouble,
        pToNull, pPrefixed, opt_lit, ws_lit',
        alts, w, lit_seq, lit_cons, lit_nil, s_lt, s_gt, s_bang, s_little, s_big, s_network, s_pad, s_boolean, s_byte, s_int8, s_unsigned, s_short, s_int16, s_int, s_int32, s_long, s_int64, s_float, s_float32, s_double, s_float64, s_raw, s_null, s_terminated, s_length, s_prefixed, ws_lit, ws_lit_seq, ws_alts, ws_bang, ws_1, ws_2, ws_3, ws_4, ws_6, ws_8, ws_lt, ws_gt, ws_a, ws_b, ws_d, ws_e, ws_f, ws_g, ws_h, ws_i, ws_k, ws_l, ws_m, ws_n, ws_o, ws_p, ws_r, ws_s, ws_t, ws_u, ws_w, ws_x, ws_y,
        lit_gap hg'', sk_gap, sk_cons, *]

/-! ## Errors, leniency and concrete cases -/

/-- Unsized raw for reading and unknown names are meant to raise a semantic exception; the static method
refers to `self` and raises NameError. -/
theorem format_errors :
    formatToDeclare true "raw".toList = .ok .raw ∧
    formatToDeclare false "raw".toList = .error (.py "NameError") ∧
    formatToDeclare true "string".toList = .error (.py "NameError") := by decide +kernel

/-- The patterns are not anchored at the end, so any continuation of a name is accepted. -/
theorem format_lenient :
    formatToDeclare true "padlock".toList = .ok .pad ∧ formatToDeclare true "shortage".toList = .ok (.short false false) ∧
    formatToDeclare true "<int8".toList = .ok (.int true false) := by decide +kernel

example : Named ("unsigned".toList ++ (" ".toList ++ "int".toList)) .int true :=
  .uint (by intro c hc; simp at hc; subst hc; decide)
example : formatToDeclare false "  little  unsigned int ".toList = .ok (.int true true) := by decide +kernel
example : formatToDeclare false "raw 12".toList = .ok (.rawSize 12) := by decide +kernel
example : formatToDeclare false "> int64".toList = .ok (.int false false) := by decide +kernel

end Verif.Pack.Format
