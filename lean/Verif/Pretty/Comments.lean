import Verif.Pretty.Lex
/-! # Names and comments in PrettyPFA (C97)

Names with dots are the longest text that the regular expression of `t_DOTNAME` (prettypfa.py 1265-1266) matches, and what follows `//` on a line (1246-1248) is no part of
the tokens of a text, whose lines are counted all the same. -/

namespace Verif.Pretty.Lex
open Avro

/-- The texts of `[A-Za-z_0-9]*(\.[A-Za-z_][A-Za-z_0-9]*)*`. -/
inductive Dotted : List Char → Prop
  | nil : Dotted []
  | inner {c : Char} {cs : List Char} : (c.isAlphanum = true ∨ c = '_') → Dotted cs → Dotted (c :: cs)
  | dot {c : Char} {cs : List Char} : (c.isAlpha = true ∨ c = '_') → Dotted cs → Dotted ('.' :: c :: cs)

theorem dotname_split (cs : List Char) : (dotname cs).1 ++ (dotname cs).2 = cs ∧ Dotted (dotname cs).1 := by
  fun_induction dotname cs with
  | case1 => exact ⟨rfl, .nil⟩
  | case2 c hc => exact ⟨rfl, .inner (by simpa [inner] using hc) .nil⟩
  | case3 c hc => exact ⟨rfl, .nil⟩
  | case4 c d cs hc ih => exact ⟨by simp [ih.1], .inner (by simpa [inner] using hc) ih.2⟩
  | case5 c d cs hc hd ih =>
    simp only [Bool.and_eq_true, beq_iff_eq] at hd
    rw [hd.1]
    exact ⟨by simp [ih.1], .dot (by simpa [start] using hd.2) ih.2⟩
  | case6 c d cs hc hd => exact ⟨rfl, .nil⟩

/-- A name is the longest text that the regular expression matches. -/
theorem dotname_longest {a : List Char} (ha : Dotted a) (b : List Char) : a.length ≤ (dotname (a ++ b)).1.length := by
  induction ha with
  | nil => simp
  | @inner c cs hc _ ih =>
    have hc : inner c = true := by simpa [inner] using hc
    cases h : cs ++ b with
    | nil =>
      rw [List.cons_append, h]
      have : cs = [] := (List.append_eq_nil_iff.1 h).1
      simp [dotname, hc, this]
    | cons d ds =>
      rw [List.cons_append, h, dotname, if_pos hc, ← h]
      simpa using ih
  | @dot c cs hc _ ih =>
    have hc : start c = true := by simpa [start] using hc
    have hi : inner '.' = false := by decide
    simp only [List.cons_append, dotname, hi, hc, Bool.false_eq_true, if_false, BEq.rfl, Bool.and_self, if_true, List.length_cons]
    omega

example : Dotted "a.b2._c".toList := by
  have : "a.b2._c".toList = ['a', '.', 'b', '2', '.', '_', 'c'] := by decide +kernel
  rw [this]
  exact .inner (by decide) (.dot (by decide) (.inner (by decide) (.dot (by decide) (.inner (by decide) .nil))))
example : dotname ['b', '.', '2'] = (['b'], ['.', '2']) := by decide +kernel

/-! ## Comments -/

/-- Lines of tokens with a comment at the end of each. -/
def page (E : Env) : List (List Tok × List Char) → List Char
  | [] => []
  | l :: ls => written E l.1 ++ '/' :: '/' :: (l.2 ++ '\n' :: page E ls)

/-- The tokens with the numbers of their lines. -/
def lined (line : Nat) : List (List Tok × List Char) → List (Tok × Nat)
  | [] => []
  | l :: ls => l.1.map (fun t => (t, line)) ++ lined (line + 1) ls

theorem drop_comment {c : List Char} (h : '\n' ∉ c) (rest : List Char) : (c ++ '\n' :: rest).dropWhile (· != '\n') = '\n' :: rest := by
  induction c with
  | nil => rfl
  | cons x c ih =>
    simp only [List.mem_cons, not_or] at h
    rw [List.cons_append, List.dropWhile_cons_of_pos (by simpa using fun e => h.1 e.symm)]
    exact ih h.2

theorem lex1_comment (E : Env) {c : List Char} (h : '\n' ∉ c) (rest : List Char) : lex1 E '/' ('/' :: (c ++ '\n' :: rest)) = .skip 0 ('\n' :: rest) := by
  have h2 : ('/' :: '/' :: (c ++ '\n' :: rest)).dropWhile (· != '\n') = '\n' :: rest := drop_comment (c := '/' :: '/' :: c) (by simpa using h) rest
  have h3 : (['/', '/'].isPrefixOf ('/' :: '/' :: (c ++ '\n' :: rest))) = true := by simp
  rw [lex1, if_neg (by decide), if_pos h3, h2]

theorem lex1_line (E : Env) (rest : List Char) : lex1 E '\n' rest = .skip (newlines ('\n' :: rest)).1 (newlines ('\n' :: rest)).2 := by
  rfl

theorem page_first {E : Env} : ∀ {ls : List (List Tok × List Char)}, (∀ l ∈ ls, (∀ t ∈ l.1, Good E t) ∧ '\n' ∉ l.2) → newlines ('\n' :: page E ls) = (1, page E ls)
  | [], _ => rfl
  | l :: ls, h => by
    obtain ⟨ts, c⟩ := l
    have key : ∀ (d : Char) (r : List Char), d ≠ '\n' → d ≠ '\r' → newlines ('\n' :: d :: r) = (1, d :: r) := by
      intro d r h1 h2
      have h1' : (d == '\n') = false := by simpa using h1
      have h2' : (d == '\r') = false := by simpa using h2
      have : newlines (d :: r) = (0, d :: r) := by
        cases r with
        | nil => simp [newlines, h1', h2']
        | cons x r => simp [newlines, h1', h2']
      rw [newlines, if_pos (by decide), this]
    cases ts with
    | nil => exact key _ _ (by decide) (by decide)
    | cons t ts =>
      obtain ⟨d, r, e, h1⟩ := lex1_spell ((h (t :: ts, c) (by simp)).1 t (by simp)) (written E ts ++ '/' :: '/' :: (c ++ '\n' :: page E ls))
      simp only [page, written, e, List.cons_append, List.append_assoc]
      refine key _ _ ?_ ?_
      · rintro rfl
        rw [lex1_line] at h1
        cases h1
      · rintro rfl
        have : lex1 E '\r' (r ++ ' ' :: (written E ts ++ '/' :: '/' :: (c ++ '\n' :: page E ls))) = .skip _ _ := rfl
        rw [this] at h1
        cases h1

theorem lexN_page {E : Env} (total : Nat) : ∀ {ls : List (List Tok × List Char)}, (∀ l ∈ ls, (∀ t ∈ l.1, Good E t) ∧ '\n' ∉ l.2) → ∀ n, (page E ls).length ≤ n → ∀ line,
    lexN E total n line (page E ls) = .ok (lined line ls)
  | [], _, n, _, line => by cases n <;> rfl
  | l :: ls, h, n, hn, line => by
    obtain ⟨ts, c⟩ := l
    have h1 := h (ts, c) (by simp)
    simp only at h1
    obtain ⟨m, hm, e⟩ := lexN_before total h1.1 ('/' :: '/' :: (c ++ '\n' :: page E ls)) n hn line
    simp only [List.length_cons, List.length_append] at hm
    obtain ⟨k, rfl⟩ : ∃ k, m = k + 2 := ⟨m - 2, by omega⟩
    have hl : ∀ l ∈ ls, (∀ t ∈ l.1, Good E t) ∧ '\n' ∉ l.2 := fun l hl => h l (by simp [hl])
    have ih := lexN_page total hl k (by omega) (line + 1)
    rw [page, e]
    simp only [lexN, lex1_comment E h1.2, lex1_line, page_first hl, Nat.add_zero, ih, andThen, lined]

/-- Comments are no part of the tokens, and the lines are counted. -/
theorem lex_comments {E : Env} {ls : List (List Tok × List Char)} (h : ∀ l ∈ ls, (∀ t ∈ l.1, Good E t) ∧ '\n' ∉ l.2) : lex E (page E ls) = .ok (lined 1 ls) :=
  lexN_page _ h _ (Nat.le_refl _) 1

/-- The same for the last line, which does not end. -/
theorem lex_comment_last {E : Env} {ts : List Tok} (h : ∀ t ∈ ts, Good E t) {c : List Char} (hc : '\n' ∉ c) : lex E (written E ts ++ '/' :: '/' :: c) = .ok (ts.map fun t => (t, 1)) := by
  obtain ⟨m, hm, e⟩ := lexN_before (lineCount (written E ts ++ '/' :: '/' :: c)) h ('/' :: '/' :: c) _ (Nat.le_refl _) 1
  simp only [List.length_cons] at hm
  obtain ⟨k, rfl⟩ : ∃ k, m = k + 1 := ⟨m - 1, by omega⟩
  have h1 : lex1 E '/' ('/' :: c) = .skip 0 [] := by
    have h2 : ('/' :: '/' :: c).dropWhile (· != '\n') = [] := by
      refine (takeWhile_all fun x hx => ?_).2
      simp only [List.mem_cons] at hx
      rcases hx with rfl | rfl | hx
      · decide
      · decide
      · have : x ≠ '\n' := fun e => hc (e ▸ hx)
        simpa using this
    rw [lex1, if_neg (by decide), if_pos (by simp), h2]
  rw [lex, e]
  simp only [lexN, h1, andThen, List.append_nil]

example (E : Env) : lex E (page E [([⟨.dotname, .str "x.y", by decide⟩, sign .plus], "a // b".toList), ([], []), ([⟨.dotname, .str "z", by decide⟩], "\"".toList)]) =
    .ok [(⟨.dotname, .str "x.y", by decide⟩, 1), (sign .plus, 1), (⟨.dotname, .str "z", by decide⟩, 3)] := by
  refine lex_comments ?_
  intro l hl
  simp only [List.mem_cons, List.not_mem_nil, or_false] at hl
  rcases hl with rfl | rfl | rfl
  · refine ⟨?_, by decide +kernel⟩
    intro t ht
    simp only [List.mem_cons, List.not_mem_nil, or_false] at ht
    rcases ht with rfl | rfl
    · show isName "x.y" = true
      decide +kernel
    · show wordOf .plus ≠ []
      decide +kernel
  · exact ⟨by simp, by simp⟩
  · refine ⟨?_, by decide +kernel⟩
    intro t ht
    simp only [List.mem_cons, List.not_mem_nil, or_false] at ht
    rw [ht]
    show isName "z" = true
    decide +kernel

end Verif.Pretty.Lex
