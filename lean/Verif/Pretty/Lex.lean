import Verif.Pretty.Grammar
import Verif.Lib.Num

/-!
# The tokens of PrettyPFA (prettypfa.py 1213-1442)

The lexer of ply tries the regular expressions of the `t_…` functions in the order of the file, then the literal characters.  Here each regular expression is a function that
gives what it matches and what is left.

Simplifications:
* Only the lexer of expressions: the two rules for section headers (1253-1263) are in `Verif/Pretty/Document.lean`.
* Escapes with numbers or names in strings (`\x41`, `\101`, `A`, `\N{…}`) and a backslash before a carriage return are not modelled, nor is a substitution without a value.
* `float(text)` is a parameter.
-/

namespace Verif.Pretty.Lex
open Avro

/-- Not an error of the code: the case is not modelled. -/
def unmodelled : Err := .py "not modelled"

/-- What the lexer needs: the substitutions (`self.subs`), `float` of a text, and the text of a float (only to write examples). -/
structure Env where
  subs : List (String × Sub)
  toFloat : List Char → Flt
  repr : Flt → List Char

/-! ## The regular expressions -/

/-- `[A-Za-z_]` -/
def start (c : Char) : Bool := c.isAlpha || c == '_'
/-- `[A-Za-z_0-9]` -/
def inner (c : Char) : Bool := c.isAlphanum || c == '_'

/-- `[A-Za-z_0-9]*(\.[A-Za-z_][A-Za-z_0-9]*)*` -/
def dotname : List Char → List Char × List Char
  | [] => ([], [])
  | [c] => if inner c then ([c], []) else ([], [c])
  | c :: d :: cs =>
    if inner c then (c :: (dotname (d :: cs)).1, (dotname (d :: cs)).2)
    else if c == '.' && start d then (c :: d :: (dotname cs).1, (dotname cs).2)
    else ([], c :: d :: cs)

/-- `0|[1-9][0-9]*` -/
def whole : List Char → Option (List Char × List Char)
  | [] => none
  | c :: cs => if c == '0' then some (['0'], cs) else if c.isDigit then some (c :: cs.takeWhile Char.isDigit, cs.dropWhile Char.isDigit) else none

/-- `(\.[0-9]*)?` -/
def frac : List Char → List Char × List Char
  | [] => ([], [])
  | c :: cs => if c == '.' then (c :: cs.takeWhile Char.isDigit, cs.dropWhile Char.isDigit) else ([], c :: cs)

/-- `[-+]?[0-9]+` -/
def signed : List Char → Option (List Char × List Char)
  | [] => none
  | c :: cs =>
    if c == '-' || c == '+' then (if (cs.takeWhile Char.isDigit).isEmpty then none else some (c :: cs.takeWhile Char.isDigit, cs.dropWhile Char.isDigit))
    else if c.isDigit then some (c :: cs.takeWhile Char.isDigit, cs.dropWhile Char.isDigit) else none

/-- `([eE][-+]?[0-9]+)?` -/
def expo : List Char → List Char × List Char
  | [] => ([], [])
  | c :: cs => if c == 'e' || c == 'E' then (match signed cs with
      | some r => (c :: r.1, r.2)
      | none => ([], c :: cs))
    else ([], c :: cs)

/-- The number without its sign: the whole part, the rest of the number, and what is left. -/
def unsigned (cs : List Char) : Option (List Char × List Char × List Char) :=
  (whole cs).map fun w => (w.1, (frac w.2).1 ++ (expo (frac w.2).2).1, (expo (frac w.2).2).2)

/-- `-?(0|[1-9][0-9]*)(\.[0-9]*)?([eE][-+]?[0-9]+)?` -/
def number : List Char → Option (List Char × List Char × List Char)
  | [] => none
  | c :: cs => if c == '-' then (unsigned cs).map fun r => (c :: r.1, r.2) else unsigned (c :: cs)

/-- `([^\\\n]|(\\.))*?\"`: what is inside, and what is left. -/
def quoted : List Char → Option (List Char × List Char)
  | [] => none
  | [c] => if c == '"' then some ([], []) else none
  | c :: d :: cs =>
    if c == '"' then some ([], d :: cs)
    else if c == '\\' then (if d == '\n' then none else (quoted cs).map fun r => (c :: d :: r.1, r.2))
    else if c == '\n' then none
    else (quoted (d :: cs)).map fun r => (c :: r.1, r.2)

/-- The escapes of Python that are modelled: the character, or the backslash kept. -/
def escape (d : Char) : Res (List Char) :=
  if d == '\\' || d == '\'' || d == '"' then .ok [d]
  else if d == 'a' then .ok [Char.ofNat 7]
  else if d == 'b' then .ok [Char.ofNat 8]
  else if d == 'f' then .ok [Char.ofNat 12]
  else if d == 'n' then .ok ['\n']
  else if d == 'r' then .ok ['\r']
  else if d == 't' then .ok ['\t']
  else if d == 'v' then .ok [Char.ofNat 11]
  else if d.isDigit || d == 'x' || d == 'u' || d == 'U' || d == 'N' || d == '\r' then .error unmodelled
  else .ok ['\\', d]

/-- `ast.literal_eval` of a string, given what is between the quotes. -/
def literal : List Char → Res (List Char)
  | [] => .ok []
  | [c] => if c == '\\' || c == '\r' || c == Char.ofNat 0 then .error (.py "SyntaxError") else .ok [c]
  | c :: d :: cs =>
    if c == '\\' then andThen (escape d) fun e => andThen (literal cs) fun r => .ok (e ++ r)
    else if c == '\r' || c == Char.ofNat 0 then .error (.py "SyntaxError")
    else andThen (literal (d :: cs)) fun r => .ok (c :: r)

/-- `[^']*'` -/
def raw : List Char → Option (List Char × List Char)
  | [] => none
  | c :: cs => if c == '\'' then some ([], cs) else (raw cs).map fun r => (c :: r.1, r.2)

/-- `[A-Za-z_][A-Za-z_0-9]*>>` -/
def replaced : List Char → Option (List Char × List Char)
  | [] => none
  | c :: cs => if start c then match cs.dropWhile inner with
      | '>' :: '>' :: rest => some (c :: cs.takeWhile inner, rest)
      | _ => none
    else none

/-- `(\r\n?|\n)+`: the number of lines, and what is left. -/
def newlines : List Char → Nat × List Char
  | [] => (0, [])
  | [c] => if c == '\n' || c == '\r' then (1, []) else (0, [c])
  | c :: d :: cs =>
    if c == '\n' then ((newlines (d :: cs)).1 + 1, (newlines (d :: cs)).2)
    else if c == '\r' then (if d == '\n' then ((newlines cs).1 + 1, (newlines cs).2) else ((newlines (d :: cs)).1 + 1, (newlines (d :: cs)).2))
    else (0, c :: d :: cs)

/-! ## The lexer -/

/-- A token without a value. -/
def sign (a : Tm) (h : a ≠ .eof := by decide) : Tok := ⟨a, .none, h⟩

/-- 1221-1238 -/
def reserved : List (List Char × Tok) :=
  [(['i', 'd', 'i', 'v'], sign .idiv), (['f', 'c', 'n'], sign .fcn), (['i', 'f'], sign .if_), (['e', 'l', 's', 'e'], sign .else_), (['w', 'h', 'i', 'l', 'e'], sign .while_), (['d', 'o'], sign .do_), (['u', 'n', 't', 'i', 'l'], sign .until_), (['f', 'o', 'r'], sign .for_),
   (['f', 'o', 'r', 'e', 'a', 'c', 'h'], sign .foreach), (['c', 'a', 's', 't'], sign .cast), (['a', 's'], sign .as_), (['i', 'f', 'n', 'o', 't', 'n', 'u', 'l', 'l'], sign .ifnotnull), (['u', 'n', 'p', 'a', 'c', 'k'], sign .unpack), (['t', 'r', 'y'], sign .try_), (['v', 'a', 'r'], sign .var),
   (['t', 'o'], sign .to_), (['i', 'n', 'i', 't'], sign .init)]

/-- The token of a reserved word. -/
def reservedAt : List (List Char × Tok) → List Char → Option Tok
  | [], _ => none
  | (p, t) :: l, cs => if p == cs then some t else reservedAt l cs

/-- The rules of fixed strings, 1302-1427, and after them the literals, 1240. -/
def signs : List (List Char × Tok) :=
  [(['-', '>'], sign .rarrow), (['('], sign .lparen), ([')'], sign .rparen), (['['], sign .lbracket), ([']'], sign .rbracket), (['{'], sign .lcurly), (['}'], sign .rcurly),
   (['+'], sign .plus), (['-'], sign .minus), (['*', '*'], sign .pow), (['*'], sign .times), (['/'], sign .fdiv), (['%', '%'], sign .rem), (['%'], sign .mod),
   (['=', '='], sign .eq), (['!', '='], sign .ne), (['<', '='], sign .le), (['<'], sign .lt), (['>', '='], sign .ge), (['>'], sign .gt),
   (['&', '&'], sign .and), (['|', '|'], sign .or), (['^', '^'], sign .xor), (['!'], sign .not), (['&'], sign .bitand), (['|'], sign .bitor), (['^'], sign .bitxor),
   (['~'], sign .bitnot), ([','], sign .comma), ([';'], sign .semi), ([':'], sign .colon), (['='], sign .equal), (['@'], sign .at_)]

/-- The first of the strings with which the text begins. -/
def signAt : List (List Char × Tok) → List Char → Option (Tok × List Char)
  | [], _ => none
  | (p, t) :: l, cs => if p.isPrefixOf cs then some (t, cs.drop p.length) else signAt l cs

/-- What is made of the text at its beginning. -/
inductive Lexed where
  | tok (t : Tok) (rest : List Char)
  | skip (lines : Nat) (rest : List Char)
  | bad (e : Err)
  /-- `t_error` -/
  | stuck

/-- A name or a reserved word, 1265-1273. -/
def nameTok (cs : List Char) : Tok := (reservedAt reserved cs).getD ⟨.dotname, .str (String.ofList cs), by decide⟩

/-- A number, 1275-1281. -/
def numTok (E : Env) (w f : List Char) : Tok :=
  if f.isEmpty then ⟨.number, .num (.int ((Lib.Num.pyInt 10 w).getD 0)), by decide⟩ else ⟨.number, .num (.flt (E.toFloat (w ++ f))), by decide⟩

/-- A string, 1283-1286. -/
def strTok (r : List Char × List Char) : Lexed := match literal r.1 with
  | .ok s => .tok ⟨.string, .str (String.ofList s), by decide⟩ r.2
  | .error e => .bad e

/-- A substitution, 1293-1300. -/
def subTok (E : Env) (r : List Char × List Char) : Lexed := match PyDict.get? E.subs (String.ofList r.1) with
  | some v => .tok ⟨.replacement, .sub v, by decide⟩ r.2
  | none => .bad unmodelled

/-- The rules after NUMBER. -/
def lexRest (E : Env) (c : Char) (cs : List Char) : Lexed :=
  match (if c == '"' then quoted cs else none) with
  | some r => strTok r
  | none => match (if c == '\'' then raw cs else none) with
    | some r => .tok ⟨.rawstring, .str (String.ofList r.1), by decide⟩ r.2
    | none => match (if ['<', '<'].isPrefixOf (c :: cs) then replaced (cs.drop 1) else none) with
      | some r => subTok E r
      | none => match signAt signs (c :: cs) with
        | some r => .tok r.1 r.2
        | none => if c == '\n' || c == '\r' then .skip (newlines (c :: cs)).1 (newlines (c :: cs)).2 else .stuck

/-- One round of `token()`: `t_ignore`, the comment (1246-1248), and the other rules in order. -/
def lex1 (E : Env) (c : Char) (cs : List Char) : Lexed :=
  if c == ' ' || c == '\t' then .skip 0 cs
  else if ['/', '/'].isPrefixOf (c :: cs) then .skip 0 ((c :: cs).dropWhile (· != '\n'))
  else if start c then .tok (nameTok (c :: (dotname cs).1)) (dotname cs).2
  else match number (c :: cs) with
    | some r => .tok (numTok E r.1 r.2.1) r.2.2
    | none => lexRest E c cs

/-- `len(self.text.split("\n"))` -/
def lineCount (cs : List Char) : Nat := cs.count '\n' + 1

/-- The exception of `t_error` and `p_error`, 1444-1451 and 2100-2106: `insertArrow` takes the second of the lines from `lineno - 1` on. -/
def errAt (total line : Nat) : Err := if total < 2 then pretty else if line < total then pretty else .py "IndexError"

/-- All tokens of a text with their lines; `total` is the number of lines and `n` a bound on the length of the text. -/
def lexN (E : Env) (total : Nat) : Nat → Nat → List Char → Res (List (Tok × Nat))
  | _, _, [] => .ok []
  | 0, _, _ :: _ => .error unmodelled
  | n + 1, line, c :: cs => match lex1 E c cs with
    | .tok t rest => andThen (lexN E total n line rest) fun ts => .ok ((t, line) :: ts)
    | .skip k rest => lexN E total n (line + k) rest
    | .bad e => .error e
    | .stuck => .error (errAt total line)

/-- The tokens of a text. -/
def lex (E : Env) (cs : List Char) : Res (List (Tok × Nat)) := lexN E (lineCount cs) cs.length 1 cs

/-! ## Writing tokens -/

/-- A name that is a token of its own: the regular expression matches it, and it is not reserved. -/
def isName (s : String) : Bool := match s.toList with
  | [] => false
  | c :: cs => start c && dotname cs == (cs, []) && (reservedAt reserved (c :: cs)).isNone

/-- A string with escapes. -/
def escaped : List Char → List Char
  | [] => []
  | c :: cs => (if c == '\\' then ['\\', '\\'] else if c == '"' then ['\\', '"'] else if c == '\n' then ['\\', 'n'] else if c == '\r' then ['\\', 'r'] else [c]) ++ escaped cs

/-- The text of a kind of token. -/
def wordOf (a : Tm) : List Char :=
  ((reserved.find? fun r => r.2.kind == a).map Prod.fst).getD (((signs.find? fun r => r.2.kind == a).map Prod.fst).getD [])

/-- The text of a token. -/
def spell (E : Env) (t : Tok) : List Char := match t.kind, t.val with
  | .dotname, .str s => s.toList
  | .string, .str s => '"' :: escaped s.toList ++ ['"']
  | .number, .num (.int i) => Lib.Num.fmt 10 i
  | .number, .num (.flt f) => E.repr f
  | a, _ => wordOf a

/-- A float whose text is read as that float. -/
def floatOk (E : Env) (f : Flt) : Prop := ∃ w r, number (E.repr f) = some (w, r, []) ∧ r ≠ [] ∧ E.toFloat (E.repr f) = f

/-- A token that can be written. -/
def Good (E : Env) (t : Tok) : Prop := match t.kind, t.val with
  | .dotname, .str s => isName s = true
  | .string, .str s => Char.ofNat 0 ∉ s.toList
  | .number, .num (.int _) => True
  | .number, .num (.flt f) => floatOk E f
  | a, .none => wordOf a ≠ []
  | _, _ => False

/-- Tokens with a blank after each. -/
def written (E : Env) : List Tok → List Char
  | [] => []
  | t :: ts => spell E t ++ ' ' :: written E ts

/-! ## They are read back -/

theorem dotname_stop' {cs : List Char} (h : dotname cs = (cs, [])) {x : Char} (hx : inner x = false) (hd : (x == '.') = false) (rest : List Char) :
    dotname (cs ++ x :: rest) = (cs, x :: rest) := by
  have h0 : dotname (x :: rest) = ([], x :: rest) := by cases rest <;> simp [dotname, hx, hd]
  fun_induction dotname cs with
  | case1 => exact h0
  | case2 c hc => simp only [List.cons_append, List.nil_append, dotname, hc, if_true, h0]
  | case3 c hc => simp at h
  | case4 c d cs hc ih =>
    injection h with h1 h2
    injection h1 with _ h1
    have := ih (Prod.ext h1 h2)
    simp only [List.cons_append, dotname, hc, if_true]
    simp only [List.cons_append] at this
    rw [this]
  | case5 c d cs hc hd ih =>
    injection h with h1 h2
    injection h1 with _ h1
    injection h1 with _ h1
    have := ih (Prod.ext h1 h2)
    simp only [List.cons_append, dotname, hc, hd, if_true, this]
    simp
  | case6 => simp at h

theorem dotname_stop {cs : List Char} (h : dotname cs = (cs, [])) (rest : List Char) : dotname (cs ++ ' ' :: rest) = (cs, ' ' :: rest) :=
  dotname_stop' h rfl rfl rest

theorem span_blank {p : Char → Bool} (hp : p ' ' = false) (cs rest : List Char) :
    (cs ++ ' ' :: rest).takeWhile p = cs.takeWhile p ∧ (cs ++ ' ' :: rest).dropWhile p = cs.dropWhile p ++ ' ' :: rest := by
  induction cs with
  | nil => simp [hp]
  | cons c cs ih =>
    by_cases hc : p c = true
    · simp [hc, ih.1, ih.2]
    · simp [hc]

theorem digit_blank : Char.isDigit ' ' = false := by decide

theorem whole_blank {cs a b : List Char} (h : whole cs = some (a, b)) (rest : List Char) : whole (cs ++ ' ' :: rest) = some (a, b ++ ' ' :: rest) := by
  cases cs with
  | nil => cases h
  | cons c cs =>
    simp only [whole] at h
    simp only [List.cons_append, whole, (span_blank digit_blank cs rest).1, (span_blank digit_blank cs rest).2]
    split at h
    · injection h with h; injection h with h1 h2; subst h1 h2; simp [*]
    · split at h
      · injection h with h; injection h with h1 h2; subst h1 h2; simp [*]
      · cases h

theorem frac_blank (cs rest : List Char) : frac (cs ++ ' ' :: rest) = ((frac cs).1, (frac cs).2 ++ ' ' :: rest) := by
  cases cs with
  | nil => simp [frac]
  | cons c cs =>
    simp only [List.cons_append, frac, (span_blank digit_blank cs rest).1, (span_blank digit_blank cs rest).2]
    split <;> rfl

theorem signed_blank (cs rest : List Char) : signed (cs ++ ' ' :: rest) = (signed cs).map fun r => (r.1, r.2 ++ ' ' :: rest) := by
  cases cs with
  | nil => simp [signed]
  | cons c cs =>
    simp only [List.cons_append, signed, (span_blank digit_blank cs rest).1, (span_blank digit_blank cs rest).2]
    split
    · split <;> rfl
    · split <;> rfl

theorem expo_blank (cs rest : List Char) : expo (cs ++ ' ' :: rest) = ((expo cs).1, (expo cs).2 ++ ' ' :: rest) := by
  cases cs with
  | nil => simp [expo]
  | cons c cs =>
    simp only [List.cons_append, expo, signed_blank]
    split
    · cases signed cs <;> rfl
    · rfl

theorem unsigned_blank {cs a b d : List Char} (h : unsigned cs = some (a, b, d)) (rest : List Char) :
    unsigned (cs ++ ' ' :: rest) = some (a, b, d ++ ' ' :: rest) := by
  simp only [unsigned, Option.map_eq_some_iff] at h
  obtain ⟨w, hw, e⟩ := h
  injection e with e1 e2
  injection e2 with e2 e3
  rw [unsigned, whole_blank hw]
  simp [frac_blank, expo_blank, e1, e2, e3]

theorem number_blank {cs a b d : List Char} (h : number cs = some (a, b, d)) (rest : List Char) :
    number (cs ++ ' ' :: rest) = some (a, b, d ++ ' ' :: rest) := by
  cases cs with
  | nil => cases h
  | cons c cs =>
    simp only [number] at h
    simp only [List.cons_append, number]
    split
    · next hc =>
      rw [if_pos hc, Option.map_eq_some_iff] at h
      obtain ⟨⟨a', b', d'⟩, hr, e⟩ := h
      injection e with e1 e2
      injection e2 with e2 e3
      simp only at e1 e2 e3
      subst e1 e2 e3
      rw [unsigned_blank hr]
      rfl
    · next hc =>
      rw [if_neg hc] at h
      exact unsigned_blank h rest

/-- What a number is made of. -/
theorem unsigned_parts {cs a b d : List Char} (h : unsigned cs = some (a, b, d)) : a ++ b ++ d = cs ∧ ∃ c l, a = c :: l ∧ c.isDigit = true := by
  simp only [unsigned, Option.map_eq_some_iff] at h
  obtain ⟨⟨w, v⟩, hw, e⟩ := h
  injection e with e1 e2
  injection e2 with e2 e3
  simp only at e1 e2 e3
  subst e1 e2 e3
  have hf : ∀ l, (frac l).1 ++ (frac l).2 = l := by
    intro l
    cases l with
    | nil => rfl
    | cons c l => simp only [frac]; split <;> simp
  have hs : ∀ l r, signed l = some r → r.1 ++ r.2 = l := by
    intro l r h
    cases l with
    | nil => cases h
    | cons c l =>
      simp only [signed] at h
      split at h
      · split at h
        · cases h
        · injection h with h; subst h; simp
      · split at h
        · injection h with h; subst h; simp
        · cases h
  have he : ∀ l, (expo l).1 ++ (expo l).2 = l := by
    intro l
    cases l with
    | nil => rfl
    | cons c l =>
      simp only [expo]
      split
      · cases hl : signed l with
        | none => simp
        | some r => simp [hs l r hl]
      · simp
  have hw2 : w ++ v = cs ∧ ∃ c l, w = c :: l ∧ c.isDigit = true := by
    cases cs with
    | nil => cases hw
    | cons c cs =>
      simp only [whole] at hw
      split at hw
      · next hc =>
        injection hw with hw; injection hw with h1 h2; subst h1 h2
        rw [beq_iff_eq] at hc
        subst hc
        exact ⟨rfl, _, _, rfl, rfl⟩
      · split at hw
        · next hd =>
          injection hw with hw; injection hw with h1 h2; subst h1 h2
          exact ⟨by simp, _, _, rfl, hd⟩
        · cases hw
  refine ⟨?_, hw2.2⟩
  rw [List.append_assoc, List.append_assoc, he, hf]
  exact hw2.1

theorem number_parts {cs a b d : List Char} (h : number cs = some (a, b, d)) :
    a ++ b ++ d = cs ∧ ∃ c l, cs = c :: l ∧ (c = '-' ∨ c.isDigit = true) ∧ (c = '-' → ∃ e k, l = e :: k ∧ e.isDigit = true) := by
  cases cs with
  | nil => cases h
  | cons c cs =>
    simp only [number] at h
    split at h
    · next hc =>
      rw [beq_iff_eq] at hc
      subst hc
      rw [Option.map_eq_some_iff] at h
      obtain ⟨⟨a', b', d'⟩, hr, e⟩ := h
      injection e with e1 e2
      injection e2 with e2 e3
      simp only at e1 e2 e3
      subst e1 e2 e3
      obtain ⟨h1, x, l, h2, h3⟩ := unsigned_parts hr
      refine ⟨by rw [← h1]; simp, _, _, rfl, .inl rfl, fun _ => ⟨x, l ++ b' ++ d', by rw [← h1, h2]; simp, h3⟩⟩
    · next hc =>
      obtain ⟨h1, x, l, h2, h3⟩ := unsigned_parts h
      have e := h1
      rw [h2, List.cons_append, List.cons_append] at e
      injection e with e1 e2
      subst e1
      exact ⟨h1, _, _, rfl, .inr h3, fun hx => absurd (by rw [hx]; rfl) hc⟩

/-- A number is not anything that is tried before. -/
theorem number_first {c : Char} {cs : List Char} (h : c = '-' ∨ c.isDigit = true) :
    (c == ' ' || c == '\t') = false ∧ ['/', '/'].isPrefixOf (c :: cs) = false ∧ start c = false := by
  rcases h with rfl | h
  · exact ⟨rfl, rfl, rfl⟩
  · have hb : 48 ≤ c.val ∧ c.val ≤ 57 := by simpa [Char.isDigit] using h
    have hn : ∀ d : Char, (d.val < 48 ∨ 57 < d.val) → (c == d) = false := by
      intro d hd
      rw [beq_eq_false_iff_ne]
      rintro rfl
      rcases hd with hd | hd
      · exact absurd hb.1 (UInt32.not_le.2 hd)
      · exact absurd hb.2 (UInt32.not_le.2 hd)
    refine ⟨?_, ?_, ?_⟩
    · rw [hn ' ' (by decide), hn '\t' (by decide)]; rfl
    · have h1 := hn '/' (by decide)
      simp only [List.isPrefixOf, Bool.and_eq_false_iff]
      left
      rw [Bool.beq_comm]
      exact h1
    · have h2 := hn '_' (by decide)
      simp only [start, h2, Bool.or_false]
      have : c.val < 65 := UInt32.lt_of_le_of_lt hb.2 (by decide)
      simp only [Char.isAlpha, Char.isUpper, Char.isLower, Bool.or_eq_false_iff, Bool.and_eq_false_iff, decide_eq_false_iff_not]
      exact ⟨fun h => absurd h.1 (UInt32.not_le.2 this), .inl (UInt32.not_le.2 (UInt32.lt_trans this (by decide)))⟩

theorem lex1_number (E : Env) {cs a b d : List Char} (h : number cs = some (a, b, d)) (rest : List Char) :
    ∃ c l, cs = c :: l ∧ lex1 E c (l ++ ' ' :: rest) = .tok (numTok E a b) (d ++ ' ' :: rest) := by
  obtain ⟨_, c, l, rfl, hc, _⟩ := number_parts h
  refine ⟨c, l, rfl, ?_⟩
  obtain ⟨h1, h2, h3⟩ := number_first (cs := l ++ ' ' :: rest) hc
  have := number_blank h rest
  simp only [List.cons_append] at this
  simp only [lex1, h1, h2, h3, this, Bool.false_eq_true, if_false]

theorem quoted_blank (s rest : List Char) : quoted (escaped s ++ '"' :: rest) = some (escaped s, rest) := by
  induction s with
  | nil => cases rest <;> rfl
  | cons c s ih =>
    have hex : ∃ e l, escaped s ++ '"' :: rest = e :: l := by
      cases escaped s with
      | nil => exact ⟨_, _, rfl⟩
      | cons e l => exact ⟨_, _, rfl⟩
    simp only [escaped]
    by_cases h1 : c = '\\'
    · subst h1
      simp [quoted, ih]
    by_cases h2 : c = '"'
    · subst h2
      simp [quoted, ih]
    by_cases h3 : c = '\n'
    · subst h3
      simp [quoted, ih]
    by_cases h4 : c = '\r'
    · subst h4
      simp [quoted, ih]
    obtain ⟨e, l, he⟩ := hex
    simp only [beq_iff_eq, h1, h2, h3, h4, if_false, List.cons_append, List.nil_append]
    rw [he] at ih ⊢
    simp [quoted, h1, h2, h3, ih]

theorem literal_escaped {s : List Char} (h : Char.ofNat 0 ∉ s) : literal (escaped s) = .ok s := by
  induction s with
  | nil => rfl
  | cons c s ih =>
    have ih := ih fun hc => h (List.mem_cons_of_mem _ hc)
    have h0 : c ≠ Char.ofNat 0 := fun hc => h (by simp [hc])
    simp only [escaped]
    by_cases h1 : c = '\\'
    · subst h1
      simp [literal, escape, ih, andThen]
    by_cases h2 : c = '"'
    · subst h2
      simp [literal, escape, ih, andThen]
    by_cases h3 : c = '\n'
    · subst h3
      simp [literal, escape, ih, andThen]
    by_cases h4 : c = '\r'
    · subst h4
      simp [literal, escape, ih, andThen]
    simp only [beq_iff_eq, h1, h2, h3, h4, if_false, List.cons_append, List.nil_append]
    cases he : escaped s with
    | nil =>
      rw [he] at ih
      injection ih with ih
      simp [literal, h1, h4, h0, ← ih]
    | cons e l =>
      rw [he] at ih
      simp [literal, h1, h4, h0, ih, andThen]

theorem digits_digit (fuel n : Nat) : ∀ c ∈ Lib.Num.natStr 10 fuel n, c.isDigit = true := by
  have hd : ∀ d, d < 10 → (Lib.Num.digitChar d).isDigit = true := by decide
  induction fuel generalizing n with
  | zero => simp [Lib.Num.natStr]
  | succ f ih =>
    intro c hc
    simp only [Lib.Num.natStr] at hc
    split at hc
    · next h => rw [List.mem_singleton] at hc; subst hc; exact hd _ h
    · rcases List.mem_append.1 hc with hc | hc
      · exact ih _ _ hc
      · rw [List.mem_singleton] at hc; subst hc; exact hd _ (Nat.mod_lt _ (by decide))

theorem digits_head (fuel n : Nat) (h : n < fuel) : ∃ c l, Lib.Num.natStr 10 fuel n = c :: l ∧ (c = '0' → l = []) := by
  have hz : ∀ d, d < 10 → 0 < d → Lib.Num.digitChar d ≠ '0' := by decide
  induction fuel generalizing n with
  | zero => omega
  | succ f ih =>
    simp only [Lib.Num.natStr]
    split
    · exact ⟨_, _, rfl, fun _ => rfl⟩
    · next hn =>
      have hpos : 0 < n / 10 := Nat.div_pos (by omega) (by decide)
      have hne : ∀ f n, 0 < n → n < f → ∃ c l, Lib.Num.natStr 10 f n = c :: l ∧ c ≠ '0' := by
        intro f
        induction f with
        | zero => intro n _ h; omega
        | succ f ih2 =>
          intro n hn hf
          simp only [Lib.Num.natStr]
          split
          · next h10 => exact ⟨_, _, rfl, hz n h10 hn⟩
          · obtain ⟨c, l, e, hc⟩ := ih2 (n / 10) (Nat.div_pos (by omega) (by decide)) (by omega)
            exact ⟨c, l ++ _, by rw [e]; rfl, hc⟩
      obtain ⟨c, l, e, hc⟩ := hne f (n / 10) hpos (by omega)
      exact ⟨c, l ++ _, by rw [e]; rfl, fun h => absurd h hc⟩

theorem takeWhile_all {p : Char → Bool} {cs : List Char} (h : ∀ c ∈ cs, p c = true) : cs.takeWhile p = cs ∧ cs.dropWhile p = [] := by
  induction cs with
  | nil => simp
  | cons c cs ih =>
    have := ih fun c hc => h c (by simp [hc])
    simp [h c (by simp), this.1, this.2]

theorem number_fmt (i : Int) : number (Lib.Num.fmt 10 i) = some (Lib.Num.fmt 10 i, [], []) := by
  have hd := digits_digit (i.natAbs + 1) i.natAbs
  obtain ⟨c, l, e, h0⟩ := digits_head (i.natAbs + 1) i.natAbs (by omega)
  have hu : unsigned (c :: l) = some (c :: l, [], []) := by
    rw [e] at hd
    have hl := takeWhile_all (p := Char.isDigit) (cs := l) fun x hx => hd x (by simp [hx])
    by_cases hc : c = '0'
    · subst hc
      simp [unsigned, whole, h0 rfl, frac, expo]
    · simp [unsigned, whole, hc, hd c (by simp), hl.1, hl.2, frac, expo]
  have hc : (c == '-') = false := by
    have := hd c (by rw [e]; simp)
    rw [beq_eq_false_iff_ne]
    rintro rfl
    revert this
    decide
  simp only [Lib.Num.fmt, Lib.Num.digitsStr, Lib.Num.signStr, e]
  split
  · simp [number, hu]
  · simp [number, hc, hu]

theorem pyInt_fmt (i : Int) : Lib.Num.pyInt 10 (Lib.Num.fmt 10 i) = some i :=
  (Lib.Num.pyInt_iff _ _ _).2 (Lib.Num.fmt_numeral 10 (by decide) (by decide) i)

theorem lex1_name' (E : Env) {c : Char} {cs : List Char} (h1 : start c = true) (h2 : dotname cs = (cs, [])) {x : Char} (hx : inner x = false) (hd : (x == '.') = false)
    (rest : List Char) : lex1 E c (cs ++ x :: rest) = .tok (nameTok (c :: cs)) (x :: rest) := by
  have hb : (c == ' ' || c == '\t') = false := by
    cases hx : (c == ' ' || c == '\t') with
    | false => rfl
    | true =>
      simp only [Bool.or_eq_true, beq_iff_eq] at hx
      rcases hx with rfl | rfl <;> cases h1
  have hc : ['/', '/'].isPrefixOf (c :: (cs ++ x :: rest)) = false := by
    cases hx : ('/' == c) with
    | false => simp [List.isPrefixOf, hx]
    | true => rw [beq_iff_eq] at hx; subst hx; cases h1
  simp only [lex1, hb, hc, h1, dotname_stop' h2 hx hd, Bool.false_eq_true, if_false, if_true]

theorem lex1_name (E : Env) {c : Char} {cs : List Char} (h1 : start c = true) (h2 : dotname cs = (cs, [])) (rest : List Char) :
    lex1 E c (cs ++ ' ' :: rest) = .tok (nameTok (c :: cs)) (' ' :: rest) := lex1_name' E h1 h2 rfl rfl rest

theorem wordOf_none {a : Tm} (h : wordOf a ≠ []) : ∀ (E : Env) (ha : a ≠ .eof) (rest : List Char),
    ∃ c l, wordOf a = c :: l ∧ lex1 E c (l ++ ' ' :: rest) = .tok ⟨a, .none, ha⟩ (' ' :: rest) := by
  intro E ha rest
  cases a <;> first | exact absurd rfl h | exact ⟨_, _, rfl, rfl⟩ | exact ⟨_, _, rfl, lex1_name E rfl rfl rest⟩

/-- A token that can be written is read back, when a blank follows. -/
theorem lex1_spell {E : Env} {t : Tok} (h : Good E t) (rest : List Char) : ∃ c l, spell E t = c :: l ∧ lex1 E c (l ++ ' ' :: rest) = .tok t (' ' :: rest) := by
  obtain ⟨a, v, ha⟩ := t
  unfold Good at h
  split at h
  · next s hk hv =>
    simp only at hk hv
    subst hk hv
    simp only [spell]
    unfold isName at h
    split at h
    · cases h
    · next c cs hs =>
      simp only [Bool.and_eq_true, beq_iff_eq, Option.isNone_iff_eq_none] at h
      obtain ⟨⟨h1, h2⟩, h3⟩ := h
      refine ⟨c, cs, hs, ?_⟩
      rw [lex1_name E h1 h2]
      rw [nameTok, h3, ← hs, String.ofList_toList]
      rfl
  · next s hk hv =>
    simp only at hk hv
    subst hk hv
    refine ⟨'"', escaped s.toList ++ ['"'], rfl, ?_⟩
    have : lex1 E '"' (escaped s.toList ++ ['"'] ++ ' ' :: rest) = lexRest E '"' (escaped s.toList ++ ['"'] ++ ' ' :: rest) := rfl
    rw [this]
    have hq := quoted_blank s.toList (' ' :: rest)
    simp only [lexRest, List.append_assoc, List.cons_append, List.nil_append, hq, beq_self_eq_true, if_true, strTok, literal_escaped h, String.ofList_toList]
  · next i hk hv =>
    simp only at hk hv
    subst hk hv
    obtain ⟨c, l, e, h2⟩ := lex1_number E (number_fmt i) rest
    refine ⟨c, l, e, ?_⟩
    rw [h2]
    simp [numTok, pyInt_fmt]
  · next f hk hv =>
    simp only at hk hv
    subst hk hv
    obtain ⟨w, r, hn, hr, hf⟩ := h
    obtain ⟨c, l, e, h2⟩ := lex1_number E hn rest
    refine ⟨c, l, e, ?_⟩
    rw [h2]
    have := (number_parts hn).1
    rw [List.append_nil] at this
    simp [numTok, hr, this, hf]
  · next hv =>
    simp only at hv
    subst hv
    obtain ⟨c, l, e, h2⟩ := wordOf_none h E ha rest
    refine ⟨c, l, ?_, h2⟩
    rw [← e]
    cases a <;> rfl
  · exact h.elim

theorem lexN_before {E : Env} (total : Nat) {ts : List Tok} (h : ∀ t ∈ ts, Good E t) (rest : List Char) : ∀ n, (written E ts ++ rest).length ≤ n → ∀ line,
    ∃ m, rest.length ≤ m ∧ lexN E total n line (written E ts ++ rest) = andThen (lexN E total m line rest) fun r => .ok (ts.map (fun t => (t, line)) ++ r) := by
  induction ts with
  | nil =>
    intro n hn line
    refine ⟨n, by simpa [written] using hn, ?_⟩
    show lexN E total n line rest = _
    cases lexN E total n line rest <;> rfl
  | cons t ts ih =>
    intro n hn line
    obtain ⟨c, l, e, h1⟩ := lex1_spell (h t (by simp)) (written E ts ++ rest)
    simp only [written, e, List.cons_append, List.append_assoc, List.length_cons, List.length_append] at hn
    obtain ⟨m, rfl⟩ : ∃ m, n = m + 2 := ⟨n - 2, by omega⟩
    obtain ⟨k, hk, ek⟩ := ih (fun t ht => h t (by simp [ht])) m (by rw [List.length_append]; omega) line
    refine ⟨k, hk, ?_⟩
    simp only [written, e, List.cons_append, List.append_assoc, lexN, h1]
    have : lex1 E ' ' (written E ts ++ rest) = .skip 0 (written E ts ++ rest) := rfl
    simp only [this, Nat.add_zero, ek]
    cases lexN E total k line rest <;> rfl

theorem lexN_written {E : Env} (total : Nat) {ts : List Tok} (h : ∀ t ∈ ts, Good E t) (n : Nat) (hn : (written E ts).length ≤ n) (line : Nat) :
    lexN E total n line (written E ts) = .ok (ts.map fun t => (t, line)) := by
  obtain ⟨m, _, e⟩ := lexN_before total h [] n (by simpa using hn) line
  rw [List.append_nil] at e
  rw [e]
  cases m <;> simp [lexN, andThen]

/-- Tokens that can be written are read back, all on the first line. -/
theorem lex_written {E : Env} {ts : List Tok} (h : ∀ t ∈ ts, Good E t) : lex E (written E ts) = .ok (ts.map fun t => (t, 1)) :=
  lexN_written _ h _ (Nat.le_refl _) 1

/-- A character that begins no token is reported, if the text has one line or goes on after this line. -/
theorem stuck_partial {E : Env} {ts : List Tok} (h : ∀ t ∈ ts, Good E t) : lex E (written E ts ++ ['$', '\n']) = .error pretty := by
  obtain ⟨m, hm, e⟩ := lexN_before (lineCount (written E ts ++ ['$', '\n'])) h ['$', '\n'] _ (Nat.le_refl _) 1
  obtain ⟨k, rfl⟩ : ∃ k, m = k + 1 := ⟨m - 1, by simp at hm; omega⟩
  rw [lex, e]
  have h1 : lex1 E '$' ['\n'] = .stuck := rfl
  have h2 : errAt (lineCount (written E ts ++ ['$', '\n'])) 1 = pretty := by
    unfold errAt lineCount
    rw [List.count_append]
    simp
  simp only [lexN, h1, h2, andThen]

/-- VIOLATION: on the last of several lines it is not reported but raises an IndexError, because the line that would get the arrow is the next one. -/
theorem stuck_last_violation {E : Env} {ts : List Tok} (h : ∀ t ∈ ts, Good E t) (hn : '\n' ∉ written E ts) :
    lex E (written E ts ++ ['\n', '$']) = .error (.py "IndexError") := by
  obtain ⟨m, hm, e⟩ := lexN_before (lineCount (written E ts ++ ['\n', '$'])) h ['\n', '$'] _ (Nat.le_refl _) 1
  obtain ⟨k, rfl⟩ : ∃ k, m = k + 2 := ⟨m - 2, by simp at hm; omega⟩
  have hl : lineCount (written E ts ++ ['\n', '$']) = 2 := by
    unfold lineCount
    rw [List.count_append, List.count_eq_zero.2 hn]
    rfl
  rw [lex, e, hl]
  have h1 : lex1 E '\n' ['$'] = .skip 1 ['$'] := rfl
  have h2 : lex1 E '$' [] = .stuck := rfl
  simp only [lexN, h1, h2, andThen]
  rfl

/-- VIOLATION: a number that is subtracted without a blank is another token: the regular expression of numbers begins with a minus sign and is tried first, so `x-1` is a
name and a number, for all names and numbers, which the grammar refuses. -/
theorem minus_number_violation (E : Env) {s : String} (h : isName s = true) (n : Nat) (hn : 0 < n) :
    ∃ a b, lex E (s.toList ++ Lib.Num.fmt 10 (-(n : Int))) = .ok [(a, 1), (b, 1)] ∧ a.kind = .dotname ∧ b.kind = .number ∧ b.num = .int (-(n : Int)) := by
  unfold isName at h
  split at h
  · cases h
  · next c cs hs =>
    simp only [Bool.and_eq_true, beq_iff_eq, Option.isNone_iff_eq_none] at h
    obtain ⟨⟨h1, h2⟩, h3⟩ := h
    have hf : Lib.Num.fmt 10 (-(n : Int)) = '-' :: Lib.Num.digitsStr 10 (-(n : Int)) := by
      rw [Lib.Num.fmt, Lib.Num.signStr, if_pos (by omega)]
      rfl
    have hnum := number_fmt (-(n : Int))
    have hval := pyInt_fmt (-(n : Int))
    rw [hf] at hnum hval
    have hl : lex1 E '-' (Lib.Num.digitsStr 10 (-(n : Int))) = .tok (numTok E ('-' :: Lib.Num.digitsStr 10 (-(n : Int))) []) [] := by
      have e1 : ('-' == ' ' || '-' == '\t') = false := rfl
      have e2 : ['/', '/'].isPrefixOf ('-' :: Lib.Num.digitsStr 10 (-(n : Int))) = false := rfl
      have e3 : start '-' = false := rfl
      simp only [lex1, e1, e2, e3, hnum, Bool.false_eq_true, if_false]
    refine ⟨nameTok (c :: cs), numTok E ('-' :: Lib.Num.digitsStr 10 (-(n : Int))) [], ?_, ?_, rfl, ?_⟩
    · rw [hs, hf]
      obtain ⟨m, hm⟩ : ∃ m, (c :: cs ++ '-' :: Lib.Num.digitsStr 10 (-(n : Int))).length = m + 2 := ⟨cs.length + (Lib.Num.digitsStr 10 (-(n : Int))).length, by
        simp only [List.cons_append, List.length_cons, List.length_append]; omega⟩
      rw [lex, hm]
      simp only [List.cons_append, lexN, lex1_name' E h1 h2 (x := '-') rfl rfl, hl, andThen]
    · rw [nameTok, h3]; rfl
    · simp [numTok, Tok.num, hval]

end Verif.Pretty.Lex
