import Verif.Pretty.Shown
import Verif.Pretty.Order
/-! # Types as text are read back (C106) -/

namespace Verif.Pretty
open Avro Ast Reader Lex Lr

/-! ## Texts that are tokens -/

/-- Not in the middle of a word or a number. -/
def Stop : List Char → Prop
  | [] => True
  | x :: _ => inner x = false ∧ (x == '.') = false

/-- Not the beginning of a line break. -/
def NoNl : List Char → Prop
  | [] => True
  | x :: _ => x ≠ '\n' ∧ x ≠ '\r'

/-- Before a rest of this kind, the text `cs` gives the tokens `ts`. -/
def Lx (E : Lex.Env) (P : List Char → Prop) (cs : List Char) (ts : List Tok) : Prop := ∀ rest, P rest → ∀ total n line, (cs ++ rest).length ≤ n →
  ∃ m line' tl, rest.length ≤ m ∧ tl.map Prod.fst = ts ∧
    lexN E total n line (cs ++ rest) = andThen (lexN E total m line' rest) fun r => .ok (tl ++ r)

variable {E : Lex.Env} {P Q : List Char → Prop}

theorem Lx.append {a b : List Char} {ts us : List Tok} (h1 : Lx E P a ts) (h2 : Lx E Q b us) (hp : ∀ rest, Q rest → P (b ++ rest)) : Lx E Q (a ++ b) (ts ++ us) := by
  intro rest hr total n line hn
  rw [List.append_assoc] at hn ⊢
  obtain ⟨m, l1, tl, hm, ht, e⟩ := h1 _ (hp rest hr) total n line hn
  obtain ⟨m2, l2, tl2, hm2, ht2, e2⟩ := h2 rest hr total m l1 hm
  refine ⟨m2, l2, tl ++ tl2, hm2, by simp [ht, ht2], ?_⟩
  rw [e, e2]
  cases lexN E total m2 l2 rest <;> simp [andThen]

theorem Lx.weaken {a : List Char} {ts : List Tok} (h : Lx E P a ts) (hp : ∀ rest, Q rest → P rest) : Lx E Q a ts := fun rest hr => h rest (hp rest hr)

theorem Lx.nil : Lx E P [] [] := by
  intro rest _ total n line hn
  refine ⟨n, line, [], hn, rfl, ?_⟩
  rw [List.nil_append]
  cases lexN E total n line rest <;> rfl

/-- One token. -/
theorem Lx.one {c : Char} {l : List Char} {t : Tok} (h : ∀ rest, P rest → lex1 E c (l ++ rest) = .tok t rest) : Lx E P (c :: l) [t] := by
  intro rest hr total n line hn
  rw [List.cons_append, List.length_cons] at hn
  obtain ⟨m, rfl⟩ : ∃ m, n = m + 1 := ⟨n - 1, by omega⟩
  refine ⟨m, line, [(t, line)], by rw [List.length_append] at hn; omega, rfl, ?_⟩
  simp only [List.cons_append, lexN, h rest hr, List.nil_append]

/-- Nothing but white space. -/
theorem Lx.skip {c : Char} {l : List Char} {k : Nat} (h : ∀ rest, P rest → lex1 E c (l ++ rest) = .skip k rest) : Lx E P (c :: l) [] := by
  intro rest hr total n line hn
  rw [List.cons_append, List.length_cons] at hn
  obtain ⟨m, rfl⟩ : ∃ m, n = m + 1 := ⟨n - 1, by omega⟩
  refine ⟨m, line + k, [], by rw [List.length_append] at hn; omega, rfl, ?_⟩
  simp only [List.cons_append, lexN, h rest hr, List.nil_append]
  cases lexN E total m (line + k) rest <;> rfl

/-- Any rest. -/
def Any' : List Char → Prop := fun _ => True

theorem lx_blank : Lx E Any' [' '] [] := .skip (k := 0) fun _ _ => rfl

theorem lx_blanks (k : Nat) : Lx E Any' (blanks k) [] := by
  induction k with
  | zero => exact .nil
  | succ k ih => exact Lx.append (ts := []) (us := []) lx_blank ih fun _ _ => trivial

theorem lx_nl : Lx E NoNl ['\n'] [] := by
  refine .skip (k := 1) fun rest hr => ?_
  have : lex1 E '\n' rest = .skip (newlines ('\n' :: rest)).1 (newlines ('\n' :: rest)).2 := rfl
  rw [List.nil_append, this]
  cases rest with
  | nil => rfl
  | cons x rest =>
    have h2 : newlines (x :: rest) = (0, x :: rest) := by
      cases rest <;> simp [newlines, hr.1, hr.2]
    simp [newlines, h2]

theorem lx_lparen : Lx E Any' ['('] [sign .lparen] := .one fun _ _ => rfl
theorem lx_rparen : Lx E Any' [')'] [sign .rparen] := .one fun _ _ => rfl
theorem lx_lbracket : Lx E Any' ['['] [sign .lbracket] := .one fun _ _ => rfl
theorem lx_rbracket : Lx E Any' [']'] [sign .rbracket] := .one fun _ _ => rfl
theorem lx_comma : Lx E Any' [','] [sign .comma] := .one fun _ _ => rfl
theorem lx_colon : Lx E Any' [':'] [sign .colon] := .one fun _ _ => rfl

/-- The token of a name. -/
def nameTk (s : String) : Tok := ⟨.dotname, .str s, by decide⟩

theorem lx_name {s : String} (h : isName s = true) : Lx E Stop s.toList [nameTk s] := by
  unfold isName at h
  split at h
  · cases h
  · next c cs hs =>
    simp only [Bool.and_eq_true, beq_iff_eq, Option.isNone_iff_eq_none] at h
    obtain ⟨⟨h1, h2⟩, h3⟩ := h
    have ht : nameTok (c :: cs) = nameTk s := by
      rw [nameTok, h3, ← hs, String.ofList_toList]; rfl
    rw [hs]
    refine .one fun rest hr => ?_
    cases rest with
    | cons x rest => rw [lex1_name' E h1 h2 hr.1 hr.2, ht]
    | nil =>
      have hb : (c == ' ' || c == '\t') = false := by
        cases hx : (c == ' ' || c == '\t') with
        | false => rfl
        | true =>
          simp only [Bool.or_eq_true, beq_iff_eq] at hx
          rcases hx with rfl | rfl <;> cases h1
      have hc : ['/', '/'].isPrefixOf (c :: cs) = false := by
        cases hx : ('/' == c) with
        | false => simp [List.isPrefixOf, hx]
        | true => rw [beq_iff_eq] at hx; subst hx; cases h1
      simp only [List.append_nil, lex1, hb, hc, h1, h2, Bool.false_eq_true, if_false, if_true, ht]

/-- A number before a comma. -/
theorem number_comma (i : Int) (rest : List Char) : number (Lib.Num.fmt 10 i ++ ',' :: rest) = some (Lib.Num.fmt 10 i, [], ',' :: rest) := by
  have hd := digits_digit (i.natAbs + 1) i.natAbs
  obtain ⟨c, l, e, h0⟩ := digits_head (i.natAbs + 1) i.natAbs (by omega)
  have hu : unsigned (c :: (l ++ ',' :: rest)) = some (c :: l, [], ',' :: rest) := by
    rw [e] at hd
    have hw : ∀ l : List Char, (∀ x ∈ l, x.isDigit = true) → (l ++ ',' :: rest).takeWhile Char.isDigit = l ∧ (l ++ ',' :: rest).dropWhile Char.isDigit = ',' :: rest := by
      intro l hl
      induction l with
      | nil => exact ⟨rfl, rfl⟩
      | cons x l ih =>
        have := ih fun y hy => hl y (by simp [hy])
        simp [hl x (by simp), this.1, this.2]
    have hl := hw l fun x hx => hd x (by simp [hx])
    by_cases hc : c = '0'
    · subst hc
      simp [unsigned, whole, h0 rfl, frac, expo]
    · simp [unsigned, whole, hc, hd c (by simp), hl.1, hl.2, frac, expo]
  have hc : (c == '-') = false := by
    have := hd c (by rw [e]; simp)
    rw [beq_eq_false_iff_ne]
    rintro rfl
    revert this
    decide
  simp only [Lib.Num.fmt, Lib.Num.digitsStr, Lib.Num.signStr, e]
  split
  · simp [number, hu]
  · simp [number, hc, hu]

/-- The token of a number. -/
def numTk (i : Int) : Tok := ⟨.number, .num (.int i), by decide⟩

theorem lx_size (i : Int) : Lx E (fun rest => ∃ r, rest = ',' :: r) (Lib.Num.fmt 10 i) [numTk i] := by
  obtain ⟨_, c, l, e, hc, _⟩ := number_parts (number_fmt i)
  rw [e]
  refine .one fun rest hr => ?_
  obtain ⟨r, rfl⟩ := hr
  have hn := number_comma i r
  rw [e, List.cons_append] at hn
  obtain ⟨h1, h2, h3⟩ := number_first (cs := l ++ ',' :: r) hc
  simp only [lex1, h1, h2, h3, hn, Bool.false_eq_true, if_false]
  rw [← e]
  simp [numTok, pyInt_fmt, numTk]

/-! ## Lists -/

/-- Tokens with commas between them. -/
def commaToks : List (List Tok) → List Tok
  | [] => []
  | t :: ts => t ++ ts.flatMap (sign .comma :: ·)

theorem commaToks_cons (t u : List Tok) (ts : List (List Tok)) : commaToks (t :: u :: ts) = t ++ sign .comma :: commaToks (u :: ts) := by
  simp [commaToks]

theorem lx_joined {sep : List Char} (hs : Lx E P sep [sign .comma]) (hstop : ∀ rest, Stop (sep ++ rest)) {ps : List (List Char)} {tss : List (List Tok)}
    (h : List.Forall₂ (fun p ts => Lx E Stop p ts ∧ ∀ rest, P (p ++ rest)) ps tss) : Lx E Stop (joined sep ps) (commaToks tss) := by
  induction h with
  | nil => exact .nil
  | @cons p ts ps tss h1 h2 ih =>
    cases h2 with
    | nil => simpa [joined, commaToks] using h1.1
    | @cons q us ps tss h3 h4 =>
      rw [commaToks_cons]
      have e : joined sep (p :: q :: ps) = p ++ (sep ++ joined sep (q :: ps)) := by simp [joined]
      rw [e]
      have hj : ∀ rest, P (joined sep (q :: ps) ++ rest) := by
        intro rest
        cases ps with
        | nil => exact h3.2 rest
        | cons r ps =>
          have := h3.2 (sep ++ joined sep (r :: ps) ++ rest)
          simpa [joined] using this
      have := (hs.append (Q := Stop) ih (fun rest _ => hj rest))
      refine h1.1.append this fun rest _ => ?_
      rw [List.append_assoc]
      exact hstop _

theorem listT_yield (one more : Pr) (sep : T) (ts : List T) : ∀ acc : T, (listT one more sep acc ts).yield = acc.yield ++ ts.flatMap fun t => sep.yield ++ t.yield := by
  induction ts with
  | nil => intro acc; simp [listT]
  | cons t ts ih => intro acc; simp [listT, ih, Tree.yield, yields]

theorem argsT_yield (ts : List T) : (argsT ts).yield = commaToks (ts.map Tree.yield) := by
  cases ts with
  | nil => rfl
  | cons t ts =>
    simp only [argsT, listT_yield, commaToks, List.map_cons, List.flatMap_map]
    simp [Tree.yield, yields, key]

theorem argTs_yield (ms : List Mini) : (argTs ms).map Tree.yield = ms.map fun m => (tree m).yield := by
  induction ms with
  | nil => rfl
  | cons m ms ih => simp [argTs, ih, argT, Tree.yield, yields]

theorem call_yield {n : String} (hn : isName n = true) (as : List Mini) :
    (tree (.call n as)).yield = nameTk n :: sign .lparen :: (commaToks (as.map fun m => (tree m).yield) ++ [sign .rparen]) := by
  obtain ⟨h1, h2, h3⟩ := name_plain hn
  have : tree (.call n as) = .node .call [nameLeaf n, key .lparen, argsT (argTs as), key .rparen] := by
    rw [tree]
    unfold callT
    rw [if_neg h1]
    split
    · next h => rw [h2] at h; cases h
    · next h => rw [h3] at h; cases h
    · rfl
  rw [this]
  simp [Tree.yield, yields, nameLeaf, key, argsT_yield, argTs_yield, nameTk]

theorem param_yield {n : String} (hn : isName n = true) (m : Mini) : (tree (.param n m)).yield = nameTk n :: sign .colon :: (tree m).yield := by
  simp [tree, paramT, hn, argT, Tree.yield, yields, nameLeaf, key, nameTk]

theorem bracketed_yield (as : List Mini) : (tree (.bracketed as)).yield = sign .lbracket :: (commaToks (as.map fun m => (tree m).yield) ++ [sign .rbracket]) := by
  simp [tree, Tree.yield, yields, key, argsT_yield, argTs_yield]

theorem name_yield (n : String) : (tree (.dotName n)).yield = [nameTk n] := rfl
theorem num_yield (i : Int) : (tree (.number (.int i))).yield = [numTk i] := rfl

/-! ## Types that are shown -/

/-- The type shown by the JSON `v` is the type `t` of PrettyPFA: the keys may have any order and there may be others. -/
inductive Shows : Val → Val → Prop
  | name {s : String} (h : isName s = true) : Shows (.str s) (.str s)
  | prim {d : List (String × Val)} {s : String} (hk : PyDict.get? d "type" = some (.str s)) (hs : s ∈ primWords) : Shows (.dict d) (.str s)
  | array {d : List (String × Val)} {v t : Val} (hk : PyDict.get? d "type" = some (.str "array")) (hi : PyDict.get? d "items" = some v) (h : Shows v t) :
      Shows (.dict d) (.dict [("type", .str "array"), ("items", t)])
  | map {d : List (String × Val)} {v t : Val} (hk : PyDict.get? d "type" = some (.str "map")) (hi : PyDict.get? d "values" = some v) (h : Shows v t) :
      Shows (.dict d) (.dict [("type", .str "map"), ("values", t)])
  | union {l : List (Val × Val)} (hne : l ≠ []) (h : ∀ p ∈ l, Shows p.1 p.2) : Shows (.arr (l.map Prod.fst)) (.arr (l.map Prod.snd))
  | fixed {d : List (String × Val)} {n : Int} {name : String} (hk : PyDict.get? d "type" = some (.str "fixed")) (hs : PyDict.get? d "size" = some (.int n))
      (hn : PyDict.get? d "name" = some (.str name)) (hns : PyDict.get? d "namespace" = none ∨ PyDict.get? d "namespace" = some (.str ""))
      (hw : isName name = true) : Shows (.dict d) (.dict [("type", .str "fixed"), ("size", .int n), ("name", .str name)])
  | fixedNs {d : List (String × Val)} {n : Int} {name ns : String} (hk : PyDict.get? d "type" = some (.str "fixed"))
      (hs : PyDict.get? d "size" = some (.int n)) (hn : PyDict.get? d "name" = some (.str name)) (hns : PyDict.get? d "namespace" = some (.str ns)) (he : ns ≠ "")
      (hw : isName (ns ++ "." ++ name) = true) :
      Shows (.dict d) (.dict [("type", .str "fixed"), ("size", .int n), ("name", .str name), ("namespace", .str ns)])
  | enum {d : List (String × Val)} {syms : List String} {name : String} (hk : PyDict.get? d "type" = some (.str "enum"))
      (hs : PyDict.get? d "symbols" = some (.arr (syms.map .str))) (hw : ∀ s ∈ syms, isName s = true)
      (hn : PyDict.get? d "name" = some (.str name)) (hns : PyDict.get? d "namespace" = none ∨ PyDict.get? d "namespace" = some (.str ""))
      (hw2 : isName name = true) : Shows (.dict d) (.dict [("type", .str "enum"), ("symbols", .arr (syms.map .str)), ("name", .str name)])
  | enumNs {d : List (String × Val)} {syms : List String} {name ns : String} (hk : PyDict.get? d "type" = some (.str "enum"))
      (hs : PyDict.get? d "symbols" = some (.arr (syms.map .str))) (hw : ∀ s ∈ syms, isName s = true)
      (hn : PyDict.get? d "name" = some (.str name)) (hns : PyDict.get? d "namespace" = some (.str ns)) (he : ns ≠ "")
      (hw2 : isName (ns ++ "." ++ name) = true) :
      Shows (.dict d) (.dict [("type", .str "enum"), ("symbols", .arr (syms.map .str)), ("name", .str name), ("namespace", .str ns)])
  | record {d : List (String × Val)} {fs : List (List (String × Val) × Val × String × Val)} {name : String} (hk : PyDict.get? d "type" = some (.str "record"))
      (hf : PyDict.get? d "fields" = some (.arr (fs.map fun f => .dict f.1))) (hne : fs ≠ [])
      (h1 : ∀ f ∈ fs, PyDict.get? f.1 "name" = some (.str f.2.2.1) ∧ PyDict.get? f.1 "type" = some f.2.1 ∧ isName f.2.2.1 = true)
      (h : ∀ f ∈ fs, Shows f.2.1 f.2.2.2) (hn : PyDict.get? d "name" = some (.str name))
      (hns : PyDict.get? d "namespace" = none ∨ PyDict.get? d "namespace" = some (.str "")) (hw : isName name = true) :
      Shows (.dict d) (.dict [("type", .str "record"), ("name", .str name),
        ("fields", .arr ((fs.map fun f => f.2.2).map fun f => .dict [("name", .str f.1), ("type", f.2)]))])
  | recordNs {d : List (String × Val)} {fs : List (List (String × Val) × Val × String × Val)} {name ns : String}
      (hk : PyDict.get? d "type" = some (.str "record"))
      (hf : PyDict.get? d "fields" = some (.arr (fs.map fun f => .dict f.1))) (hne : fs ≠ [])
      (h1 : ∀ f ∈ fs, PyDict.get? f.1 "name" = some (.str f.2.2.1) ∧ PyDict.get? f.1 "type" = some f.2.1 ∧ isName f.2.2.1 = true)
      (h : ∀ f ∈ fs, Shows f.2.1 f.2.2.2) (hn : PyDict.get? d "name" = some (.str name))
      (hns : PyDict.get? d "namespace" = some (.str ns)) (he : ns ≠ "") (hw : isName (ns ++ "." ++ name) = true) :
      Shows (.dict d) (.dict [("type", .str "record"), ("name", .str name),
        ("fields", .arr ((fs.map fun f => f.2.2).map fun f => .dict [("name", .str f.1), ("type", f.2)])), ("namespace", .str ns)])

theorem Shows.word {v t : Val} (h : Shows v t) : WordT t := by
  induction h with
  | name h => exact .name h
  | prim _ hs =>
    have : ∀ s ∈ primWords, isName s = true := by decide +kernel
    exact .name (this _ hs)
  | array _ _ _ ih => exact .array ih
  | map _ _ _ ih => exact .map ih
  | union _ _ ih =>
    refine .union fun t ht => ?_
    obtain ⟨p, hp, rfl⟩ := List.mem_map.1 ht
    exact ih p hp
  | fixed _ _ _ _ hw => exact .fixed hw
  | fixedNs _ _ _ _ _ hw => exact .fixedNs hw
  | enum _ _ hw _ _ hw2 => exact .enum hw hw2
  | enumNs _ _ hw _ _ _ hw2 => exact .enumNs hw hw2
  | record _ _ _ h1 _ _ _ hw ih =>
    refine .record hw (fun f hf => ?_) fun f hf => ?_
    · obtain ⟨p, hp, rfl⟩ := List.mem_map.1 hf
      exact .inl (h1 p hp).2.2
    · obtain ⟨p, hp, rfl⟩ := List.mem_map.1 hf
      exact ih p hp
  | recordNs _ _ _ h1 _ _ _ _ hw ih =>
    refine .recordNs hw (fun f hf => ?_) fun f hf => ?_
    · obtain ⟨p, hp, rfl⟩ := List.mem_map.1 hf
      exact .inl (h1 p hp).2.2
    · obtain ⟨p, hp, rfl⟩ := List.mem_map.1 hf
      exact ih p hp

/-! ## What is shown -/

theorem start_not_blank {c : Char} (h : start c = true) : c.isWhitespace = false := by
  rw [← Bool.not_eq_true]
  intro hw
  simp only [Char.isWhitespace, Bool.or_eq_true, decide_eq_true_eq] at hw
  rcases hw with ((rfl | rfl) | rfl) | rfl <;> revert h <;> decide

theorem lstrip_blanks (k : Nat) {c : Char} (h : start c = true) (l : List Char) : lstrip (blanks k ++ c :: l) = c :: l := by
  unfold lstrip
  induction k with
  | zero => simp [blanks, start_not_blank h]
  | succ k ih => simpa [blanks, List.replicate_succ] using ih

theorem noNl_start (k : Nat) {c : Char} (h : start c = true) (l : List Char) : NoNl (blanks k ++ c :: l) := by
  cases k with
  | zero =>
    refine ⟨?_, ?_⟩ <;> rintro rfl <;> revert h <;> decide
  | succ k => exact ⟨by decide, by decide⟩

/-- The text `cs` of a type after its blanks. -/
structure Body (E : Lex.Env) (cs : List Char) (ts : List Tok) : Prop where
  lx : Lx E Stop cs ts
  begins : ∃ c l, cs = c :: l ∧ start c = true

theorem Body.name {s : String} (h : isName s = true) : Body E s.toList [nameTk s] := by
  refine ⟨lx_name h, ?_⟩
  unfold isName at h
  split at h
  · cases h
  · next c cs hs =>
    simp only [Bool.and_eq_true] at h
    exact ⟨c, cs, hs, h.1.1⟩

theorem Body.strip {cs : List Char} {ts : List Tok} (h : Body E cs ts) (k : Nat) : lstrip (blanks k ++ cs) = cs := by
  obtain ⟨c, l, rfl, hc⟩ := h.begins
  exact lstrip_blanks k hc l

theorem Body.noNl {cs : List Char} {ts : List Tok} (h : Body E cs ts) (k : Nat) (rest : List Char) : NoNl (blanks k ++ cs ++ rest) := by
  obtain ⟨c, l, rfl, hc⟩ := h.begins
  simpa using noNl_start k hc (l ++ rest)

theorem Body.after {cs : List Char} {ts : List Tok} (h : Body E cs ts) (k : Nat) : Lx E Stop (blanks k ++ cs) ts :=
  Lx.append (ts := []) (lx_blanks k) h.lx fun _ _ => trivial

/-- A name with arguments in parentheses. -/
theorem Body.call {n : String} (hn : isName n = true) {cs : List Char} {ts : List Tok} (h : Lx E Stop cs ts) :
    Body E (n.toList ++ '(' :: (cs ++ [')'])) (nameTk n :: sign .lparen :: (ts ++ [sign .rparen])) := by
  obtain ⟨c, l, e, hc⟩ := (Body.name (E := E) hn).begins
  refine ⟨?_, c, l ++ '(' :: (cs ++ [')']), by rw [e]; rfl, hc⟩
  have h1 := h.append (Q := Any') lx_rparen (fun rest _ => (⟨rfl, rfl⟩ : Stop (')' :: rest)))
  have h2 := (lx_lparen (E := E)).append h1 fun _ _ => trivial
  have h3 := (lx_name (E := E) hn).append h2 (fun rest _ => (⟨rfl, rfl⟩ : Stop ('(' :: _)))
  exact h3.weaken fun _ _ => trivial

theorem comma_line : Lx E NoNl [',', '\n'] [sign .comma] := (lx_comma (E := E)).append lx_nl fun _ _ => trivial
theorem comma_blank : Lx E Any' [',', ' '] [sign .comma] := (lx_comma (E := E)).append lx_blank fun _ _ => trivial

theorem seq_forall {α β : Type} {f : α → Res β} {R : α → β → Prop} {l : List α} (h : ∀ a ∈ l, ∃ b, f a = .ok b ∧ R a b) :
    ∃ bs, seq (l.map f) = .ok bs ∧ List.Forall₂ R l bs := by
  induction l with
  | nil => exact ⟨[], rfl, .nil⟩
  | cons a l ih =>
    obtain ⟨b, hb, hr⟩ := h a (by simp)
    obtain ⟨bs, hbs, hrs⟩ := ih fun x hx => h x (by simp [hx])
    exact ⟨b :: bs, by simp [seq, hb, hbs], .cons hr hrs⟩

theorem uniform {α : Type} {Q : α → Nat → Prop} {l : List α} (h : ∀ a ∈ l, ∃ N, ∀ n, N ≤ n → Q a n) : ∃ N, ∀ n, N ≤ n → ∀ a ∈ l, Q a n := by
  induction l with
  | nil => exact ⟨0, by simp⟩
  | cons a l ih =>
    obtain ⟨N, hN⟩ := h a (by simp)
    obtain ⟨M', hM⟩ := ih fun x hx => h x (by simp [hx])
    refine ⟨max N M', fun n hn x hx => ?_⟩
    rcases List.mem_cons.1 hx with rfl | hx
    · exact hN n (by omega)
    · exact hM n (by omega) x hx

theorem nameText_plain {d : List (String × Val)} {name : String} (hn : PyDict.get? d "name" = some (.str name))
    (hns : PyDict.get? d "namespace" = none ∨ PyDict.get? d "namespace" = some (.str "")) : nameText d = .ok name.toList := by
  unfold nameText item
  rcases hns with h | h <;> simp [hn, h, andThen, textIn]

theorem nameText_ns {d : List (String × Val)} {name ns : String} (hn : PyDict.get? d "name" = some (.str name))
    (hns : PyDict.get? d "namespace" = some (.str ns)) (he : ns ≠ "") : nameText d = .ok (ns ++ "." ++ name).toList := by
  unfold nameText item
  have : ns.toList ≠ [] := fun h => he (by apply String.ext; simpa using h)
  simp [hn, hns, andThen, textIn, this]

/-- The tokens of a record. -/
theorem record_body {w : String} (hw : isName w = true) {ps : List (List Char)} {tss : List (List Tok)}
    (h : List.Forall₂ (fun p ts => Lx E Stop p ts ∧ ∀ rest, NoNl (p ++ rest)) ps tss) (hne : ps ≠ []) :
    Body E ("record".toList ++ '(' :: ((w.toList ++ [',', '\n'] ++ joined [',', '\n'] ps) ++ [')']))
      (nameTk "record" :: sign .lparen :: (commaToks ([nameTk w] :: tss) ++ [sign .rparen])) := by
  refine Body.call (by decide +kernel) ?_
  have hj := lx_joined (comma_line (E := E)) (fun rest => (⟨rfl, rfl⟩ : Stop (',' :: _))) (List.Forall₂.cons ⟨lx_name hw, fun rest => ?_⟩ h)
  · have e : joined [',', '\n'] (w.toList :: ps) = w.toList ++ [',', '\n'] ++ joined [',', '\n'] ps := by
      cases ps with
      | nil => exact absurd rfl hne
      | cons p ps => rfl
    rwa [e] at hj
  · simpa [blanks] using (Body.name (E := E) hw).noNl 0 rest

theorem enum_body {w : String} (hw : isName w = true) {syms : List String} (hs : ∀ s ∈ syms, isName s = true) :
    Body E ("enum".toList ++ '(' :: (('[' :: (joined [',', ' '] (syms.map String.toList) ++ [']', ',', ' ']) ++ w.toList) ++ [')']))
      (nameTk "enum" :: sign .lparen :: (commaToks [sign .lbracket :: (commaToks (syms.map fun s => [nameTk s]) ++ [sign .rbracket]), [nameTk w]] ++ [sign .rparen])) := by
  refine Body.call (by decide +kernel) ?_
  have h1 : Lx E Stop (joined [',', ' '] (syms.map String.toList)) (commaToks (syms.map fun s => [nameTk s])) := by
    refine lx_joined comma_blank (fun rest => (⟨rfl, rfl⟩ : Stop (',' :: _))) ?_
    induction syms with
    | nil => exact .nil
    | cons s syms ih => exact .cons ⟨lx_name (hs s (by simp)), fun _ => trivial⟩ (ih fun x hx => hs x (by simp [hx]))
  have h2 := (comma_blank (E := E)).append (lx_name hw) fun _ _ => trivial
  have h3 := (lx_rbracket (E := E)).append h2 fun _ _ => trivial
  have h4 := h1.append h3 (fun rest _ => (⟨rfl, rfl⟩ : Stop (']' :: _)))
  have h5 := (lx_lbracket (E := E)).append h4 fun _ _ => trivial
  simpa [commaToks] using h5

theorem fixed_body {w : String} (hw : isName w = true) (i : Int) :
    Body E ("fixed".toList ++ '(' :: ((Lib.Num.fmt 10 i ++ [',', ' '] ++ w.toList) ++ [')']))
      (nameTk "fixed" :: sign .lparen :: (commaToks [[numTk i], [nameTk w]] ++ [sign .rparen])) := by
  refine Body.call (by decide +kernel) ?_
  have h2 := (comma_blank (E := E)).append (lx_name hw) fun _ _ => trivial
  have h3 := (lx_size (E := E) i).append h2 (fun rest _ => ⟨_, rfl⟩)
  simpa [commaToks] using h3

theorem union_body {ps : List (List Char)} {tss : List (List Tok)} (h : List.Forall₂ (Body E) ps tss) (hne : ps ≠ []) (k : Nat) :
    Body E ("union".toList ++ '(' :: (lstrip (joined [',', '\n'] (ps.map (blanks k ++ ·))) ++ [')']))
      (nameTk "union" :: sign .lparen :: (commaToks tss ++ [sign .rparen])) := by
  refine Body.call (by decide +kernel) ?_
  cases h with
  | nil => exact absurd rfl hne
  | @cons p ts ps tss h1 h2 =>
    have e : lstrip (joined [',', '\n'] ((p :: ps).map (blanks k ++ ·))) = joined [',', '\n'] (p :: ps.map (blanks k ++ ·)) := by
      obtain ⟨c, l, rfl, hc⟩ := h1.begins
      cases ps with
      | nil => simpa [joined] using lstrip_blanks k hc l
      | cons q ps =>
        have := lstrip_blanks k hc (l ++ ([',', '\n'] ++ joined [',', '\n'] ((q :: ps).map (blanks k ++ ·))))
        simpa [joined] using this
    rw [e]
    refine lx_joined comma_line (fun rest => (⟨rfl, rfl⟩ : Stop (',' :: _))) (.cons ⟨h1.lx, fun rest => by simpa [blanks] using h1.noNl 0 rest⟩ ?_)
    clear e
    induction h2 with
    | nil => exact .nil
    | cons h3 _ ih =>
      refine .cons ⟨h3.after k, fun rest => h3.noNl k rest⟩ (ih (by simp))

theorem enum_yields {w : String} (hw : isName w = true) {syms : List String} (hs : ∀ s ∈ syms, isName s = true) :
    Body E ("enum".toList ++ '(' :: (('[' :: (joined [',', ' '] (syms.map String.toList) ++ [']', ',', ' ']) ++ w.toList) ++ [')']))
      (nameTk "enum" :: sign .lparen :: (commaToks ([.bracketed (syms.map .dotName), .dotName w].map fun m => (tree m).yield) ++ [sign .rparen])) := by
  have := enum_body (E := E) hw hs
  simpa only [List.map_cons, List.map_nil, List.map_map, bracketed_yield, name_yield, Function.comp_def] using this

/-- The text of a field. -/
theorem fields_shown {fs : List (List (String × Val) × Val × String × Val)} {n indent : Nat}
    (h1 : ∀ f ∈ fs, PyDict.get? f.1 "name" = some (.str f.2.2.1) ∧ PyDict.get? f.1 "type" = some f.2.1 ∧ isName f.2.2.1 = true)
    (h : ∀ f ∈ fs, ∀ i, ∃ cs, shown n f.2.1 i = .ok (blanks i ++ cs) ∧ Body E cs (tree (typeMini f.2.2.2)).yield) :
    ∃ ps, seq ((fs.map fun f => Val.dict f.1).map (fieldText (shown n) indent)) = .ok ps ∧
      List.Forall₂ (fun f p => Lx E Stop p (tree (.param f.2.2.1 (typeMini f.2.2.2))).yield ∧ ∀ rest, NoNl (p ++ rest)) fs ps := by
  rw [List.map_map]
  refine seq_forall fun f hf => ?_
  obtain ⟨hn, ht, hw⟩ := h1 f hf
  obtain ⟨cs, e, hb⟩ := h f hf (indent + 7 + f.2.2.1.toList.length + 2)
  refine ⟨blanks (indent + 7) ++ f.2.2.1.toList ++ [':', ' '] ++ cs, ?_, ?_, ?_⟩
  · simp only [Function.comp_apply, fieldText, item, hn, ht, andThen, textIn, e, hb.strip]
  · rw [param_yield hw]
    have g1 := (lx_blank (E := E)).append hb.lx fun _ _ => trivial
    have g2 := (lx_colon (E := E)).append g1 fun _ _ => trivial
    have g3 := (lx_name (E := E) hw).append g2 (fun rest _ => (⟨rfl, rfl⟩ : Stop (':' :: _)))
    have g4 := (lx_blanks (E := E) (indent + 7)).append g3 fun _ _ => trivial
    simpa using g4
  · intro rest
    simpa using (Body.name (E := E) hw).noNl (indent + 7) ([':', ' '] ++ cs ++ rest)

theorem record_yields {w : String} (hw : isName w = true) {fs : List (List (String × Val) × Val × String × Val)} {ps : List (List Char)}
    (h : List.Forall₂ (fun f p => Lx E Stop p (tree (.param f.2.2.1 (typeMini f.2.2.2))).yield ∧ ∀ rest, NoNl (p ++ rest)) fs ps) (hne : fs ≠ []) :
    Body E ("record".toList ++ '(' :: ((w.toList ++ [',', '\n'] ++ joined [',', '\n'] ps) ++ [')']))
      (nameTk "record" :: sign .lparen :: (commaToks ((.dotName w :: (fs.map fun f => f.2.2).map fun f => .param f.1 (typeMini f.2)).map fun m => (tree m).yield) ++
        [sign .rparen])) := by
  have h2 : List.Forall₂ (fun p ts => Lx E Stop p ts ∧ ∀ rest, NoNl (p ++ rest)) ps (fs.map fun f => (tree (.param f.2.2.1 (typeMini f.2.2.2))).yield) := by
    clear hne
    induction h with
    | nil => exact .nil
    | cons h3 _ ih => exact .cons h3 ih
  have := record_body (E := E) hw h2 (by
    rintro rfl
    cases h
    exact hne rfl)
  simpa only [List.map_cons, List.map_map, name_yield, Function.comp_def] using this

theorem members_shown {l : List (Val × Val)} {n k : Nat} (h : ∀ p ∈ l, ∃ cs, shown n p.1 k = .ok (blanks k ++ cs) ∧ Body E cs (tree (typeMini p.2)).yield) :
    ∃ ps, seq ((l.map Prod.fst).map fun t => shown n t k) = .ok (ps.map (blanks k ++ ·)) ∧
      List.Forall₂ (Body E) ps (l.map fun p => (tree (typeMini p.2)).yield) := by
  induction l with
  | nil => exact ⟨[], rfl, .nil⟩
  | cons a l ih =>
    obtain ⟨cs, e, hb⟩ := h a (by simp)
    obtain ⟨ps, hps, hf⟩ := ih fun x hx => h x (by simp [hx])
    exact ⟨cs :: ps, by simp only [List.map_cons, seq, e, hps], .cons hb hf⟩

/-- The text of a type gives the tokens of the type. -/
theorem shown_tokens {v t : Val} (h : Shows v t) : ∃ N, ∀ n, N ≤ n → ∀ indent, ∃ cs, shown n v indent = .ok (blanks indent ++ cs) ∧ Body E cs (tree (typeMini t)).yield := by
  induction h with
  | @name s h =>
    refine ⟨1, fun n hn indent => ?_⟩
    obtain ⟨m, rfl⟩ : ∃ m, n = m + 1 := ⟨n - 1, by omega⟩
    exact ⟨s.toList, rfl, Body.name h⟩
  | @prim d s hk hs =>
    refine ⟨1, fun n hn indent => ?_⟩
    obtain ⟨m, rfl⟩ : ∃ m, n = m + 1 := ⟨n - 1, by omega⟩
    have hw : ∀ s ∈ primWords, isName s = true ∧ s ≠ "function" ∧ s ≠ "exception" := by decide +kernel
    obtain ⟨h1, h2, h3⟩ := hw s hs
    refine ⟨s.toList, ?_, Body.name h1⟩
    simp only [shown, hk, if_neg h2, if_neg h3, if_pos hs]
  | @array d v t hk hi h ih =>
    obtain ⟨N, hN⟩ := ih
    refine ⟨N + 1, fun n hn indent => ?_⟩
    obtain ⟨m, rfl⟩ : ∃ m, n = m + 1 := ⟨n - 1, by omega⟩
    obtain ⟨cs, e, hb⟩ := hN m (by omega) (indent + 6)
    have hB := Body.call (E := E) (n := "array") (by decide +kernel) hb.lx
    refine ⟨_, ?_, by rw [typeMini_pair, call_yield (by decide +kernel)]; simpa [commaToks] using hB⟩
    simp [shown, hk, primWords, item, hi, andThen, e, hb.strip]
  | @map d v t hk hi h ih =>
    obtain ⟨N, hN⟩ := ih
    refine ⟨N + 1, fun n hn indent => ?_⟩
    obtain ⟨m, rfl⟩ : ∃ m, n = m + 1 := ⟨n - 1, by omega⟩
    obtain ⟨cs, e, hb⟩ := hN m (by omega) (indent + 4)
    have hB := Body.call (E := E) (n := "map") (by decide +kernel) hb.lx
    refine ⟨_, ?_, by rw [typeMini_pair, call_yield (by decide +kernel)]; simpa [commaToks] using hB⟩
    simp [shown, hk, primWords, item, hi, andThen, e, hb.strip]
  | @union l hne h ih =>
    obtain ⟨N, hN⟩ := uniform ih
    refine ⟨N + 1, fun n hn indent => ?_⟩
    obtain ⟨m, rfl⟩ : ∃ m, n = m + 1 := ⟨n - 1, by omega⟩
    obtain ⟨ps, hps, hfs⟩ := members_shown (E := E) (n := m) (k := indent + 6) (l := l) (fun p hp => hN m (by omega) p hp (indent + 6))
    have hB := union_body hfs (by rintro rfl; cases l with
      | nil => exact hne rfl
      | cons a l => cases hfs) (indent + 6)
    refine ⟨_, ?_, by simp only [typeMini, types_eq]; rw [call_yield (by decide +kernel)]; simpa [Function.comp_def] using hB⟩
    simp [shown, andThen, hps, -List.map_map]
  | @fixed d i name hk hs hn hns hw =>
    refine ⟨1, fun n hn' indent => ?_⟩
    obtain ⟨m, rfl⟩ : ∃ m, n = m + 1 := ⟨n - 1, by omega⟩
    refine ⟨_, ?_, by simp only [typeMini]; rw [call_yield (by decide +kernel)]; exact fixed_body hw i⟩
    simp [shown, hk, primWords, item, hs, nameText_plain hn hns, andThen, sizeText]
  | @fixedNs d i name ns hk hs hn hns he hw =>
    refine ⟨1, fun n hn' indent => ?_⟩
    obtain ⟨m, rfl⟩ : ∃ m, n = m + 1 := ⟨n - 1, by omega⟩
    refine ⟨_, ?_, by simp only [typeMini]; rw [call_yield (by decide +kernel)]; exact fixed_body hw i⟩
    simp [shown, hk, primWords, item, hs, nameText_ns hn hns he, andThen, sizeText]
  | @enum d syms name hk hs hws hn hns hw =>
    refine ⟨1, fun n hn' indent => ?_⟩
    obtain ⟨m, rfl⟩ : ∃ m, n = m + 1 := ⟨n - 1, by omega⟩
    have hq : seq ((syms.map Val.str).map textIn) = .ok (syms.map String.toList) := by
      rw [List.map_map]
      exact seq_ok (f := textIn ∘ Val.str) fun _ _ => rfl
    refine ⟨_, ?_, by simp only [typeMini, syms_eq]; rw [call_yield (by decide +kernel)]; exact enum_yields hw hws⟩
    simp [shown, hk, primWords, item, hs, nameText_plain hn hns, andThen, listIn, hq, -List.map_map]
  | @enumNs d syms name ns hk hs hws hn hns he hw =>
    refine ⟨1, fun n hn' indent => ?_⟩
    obtain ⟨m, rfl⟩ : ∃ m, n = m + 1 := ⟨n - 1, by omega⟩
    have hq : seq ((syms.map Val.str).map textIn) = .ok (syms.map String.toList) := by
      rw [List.map_map]
      exact seq_ok (f := textIn ∘ Val.str) fun _ _ => rfl
    refine ⟨_, ?_, by simp only [typeMini, syms_eq]; rw [call_yield (by decide +kernel)]; exact enum_yields hw hws⟩
    simp [shown, hk, primWords, item, hs, nameText_ns hn hns he, andThen, listIn, hq, -List.map_map]
  | @record d fs name hk hf hne h1 h hn hns hw ih =>
    obtain ⟨N, hN⟩ := uniform ih
    refine ⟨N + 1, fun n hn' indent => ?_⟩
    obtain ⟨m, rfl⟩ : ∃ m, n = m + 1 := ⟨n - 1, by omega⟩
    obtain ⟨ps, hps, hfs⟩ := fields_shown (E := E) (n := m) (indent := indent) h1 (fun f hf i => hN m (by omega) f hf i)
    refine ⟨_, ?_, by simp only [typeMini, fields_eq]; rw [call_yield (by decide +kernel)]; exact record_yields hw hfs hne⟩
    simp [shown, hk, primWords, item, hf, nameText_plain hn hns, andThen, listIn, hps, -List.map_map]
  | @recordNs d fs name ns hk hf hne h1 h hn hns he hw ih =>
    obtain ⟨N, hN⟩ := uniform ih
    refine ⟨N + 1, fun n hn' indent => ?_⟩
    obtain ⟨m, rfl⟩ : ∃ m, n = m + 1 := ⟨n - 1, by omega⟩
    obtain ⟨ps, hps, hfs⟩ := fields_shown (E := E) (n := m) (indent := indent) h1 (fun f hf i => hN m (by omega) f hf i)
    refine ⟨_, ?_, by simp only [typeMini, fields_eq]; rw [call_yield (by decide +kernel)]; exact record_yields hw hfs hne⟩
    simp [shown, hk, primWords, item, hf, nameText_ns hn hns he, andThen, listIn, hps, -List.map_map]

/-- The text is read as one type, which is `r`: its tokens, the objects of the parser, and `asType` of the only object. -/
def TypeReads (E : Lex.Env) (st : St) (cs : List Char) (r : Res Val) : Prop :=
  ∃ ts T m, lex E cs = .ok ts ∧ Parses exprParser (ts.map Prod.fst) T ∧ value T = .ok (.minis [m]) ∧ asType st m = r

/-- A text is read as at most one type. -/
theorem typeReads_unique {st : St} {cs : List Char} {r r' : Res Val} (h : TypeReads E st cs r) (h' : TypeReads E st cs r') : r' = r := by
  obtain ⟨ts, T, m, h1, h2, h3, h4⟩ := h
  obtain ⟨ts', T', m', h1', h2', h3', h4'⟩ := h'
  rw [h1] at h1'
  cases h1'
  rw [h2.unique h2', h3'] at h3
  cases h3
  rw [← h4, ← h4']

/-- **The text of a type is the type in PrettyPFA**: `avscToPretty` of JSON that shows the type `t` is read as `t`, at any depth. -/
theorem shown_back_partial {st : St} {v t : Val} (h : Shows v t) (hg : GoodT st t) :
    ∃ N, ∀ n, N ≤ n → ∀ indent, ∃ cs, shown n v indent = .ok cs ∧ TypeReads E st cs (.ok t) := by
  obtain ⟨N, hN⟩ := shown_tokens (E := E) h
  refine ⟨N, fun n hn indent => ?_⟩
  obtain ⟨cs, e, hb⟩ := hN n hn indent
  refine ⟨_, e, ?_⟩
  have hc : Cans E [typeMini t] := cans_iff.2 (by simpa using can_type h.word)
  have he : [typeMini t].all isE = true := by simpa using typeMini_isE h.word
  obtain ⟨h1, h2, h3⟩ := Fine.exprs (((fines [typeMini t] hc).exprs he).imp fun _ _ h => h.stmt) (by simp)
  have hp := expressions_read h1
  have hy : (exprsT (trees [typeMini t])).yield = (tree (typeMini t)).yield := by
    simp [trees, exprsT, listT, Tree.yield, yields]
  have hl := hb.after indent [] trivial (lineCount (blanks indent ++ cs)) (blanks indent ++ cs).length 1 (by simp)
  obtain ⟨m, l, tl, _, ht, el⟩ := hl
  refine ⟨tl, _, typeMini t, ?_, ?_, h2, type_back hg⟩
  · unfold lex
    rw [List.append_nil] at el
    rw [el]
    cases m <;> simp [lexN, andThen]
  · rw [ht, ← hy]
    exact hp

/-! ## An example, and texts that are not read -/

/-- A record as `jsonNode` prints it. -/
def treeType : Val := .dict [("type", .str "record"), ("name", .str "Tree"), ("namespace", .str "com.model"), ("fields", .arr [
  .dict [("name", .str "kind"), ("type", .dict [("type", .str "enum"), ("symbols", .arr [.str "leaf", .str "split"]), ("name", .str "Kind")]), ("default", .str "leaf")],
  .dict [("name", .str "next"), ("type", .arr [.str "com.model.Tree", .dict [("type", .str "array"), ("items", .str "double")]])]])]

/-- The same with the keys of PrettyPFA. -/
def treeRead : Val := .dict [("type", .str "record"), ("name", .str "Tree"), ("fields", .arr [
  .dict [("name", .str "kind"), ("type", .dict [("type", .str "enum"), ("symbols", .arr [.str "leaf", .str "split"]), ("name", .str "Kind")])],
  .dict [("name", .str "next"), ("type", .arr [.str "com.model.Tree", .dict [("type", .str "array"), ("items", .str "double")]])]]), ("namespace", .str "com.model")]

theorem tree_shows : Shows treeType treeRead :=
  .recordNs (fs := [([("name", .str "kind"), ("type", .dict [("type", .str "enum"), ("symbols", .arr [.str "leaf", .str "split"]), ("name", .str "Kind")]),
      ("default", .str "leaf")], .dict [("type", .str "enum"), ("symbols", .arr [.str "leaf", .str "split"]), ("name", .str "Kind")], "kind",
      .dict [("type", .str "enum"), ("symbols", .arr [.str "leaf", .str "split"]), ("name", .str "Kind")]),
    ([("name", .str "next"), ("type", .arr [.str "com.model.Tree", .dict [("type", .str "array"), ("items", .str "double")]])],
      .arr [.str "com.model.Tree", .dict [("type", .str "array"), ("items", .str "double")]], "next",
      .arr [.str "com.model.Tree", .dict [("type", .str "array"), ("items", .str "double")]])])
    rfl rfl (by simp) (by simp; decide +kernel) (by
      intro f hf
      simp only [List.mem_cons, List.not_mem_nil, or_false] at hf
      rcases hf with rfl | rfl
      · exact .enum (syms := ["leaf", "split"]) rfl rfl (by decide +kernel) rfl (.inl rfl) (by decide +kernel)
      · refine .union (l := [(.str "com.model.Tree", .str "com.model.Tree"), (_, _)]) (by simp) fun p hp => ?_
        simp only [List.mem_cons, List.not_mem_nil, or_false] at hp
        rcases hp with rfl | rfl
        · exact .name (by decide +kernel)
        · exact .array rfl rfl (.name (by decide +kernel))) rfl rfl (by decide) (by decide +kernel)

theorem tree_text : shown 9 treeType 0 = .ok
    ("record(com.model.Tree,\n       kind: enum([leaf, split], Kind),\n       next: union(com.model.Tree,\n                   array(double)))").toList := by
  decide +kernel

/-- Tokens that the parser refuses are no type. -/
theorem refused_type {st : St} {cs : List Char} {ts : List (Tok × Nat)} {n : Nat} (hl : lex E cs = .ok ts)
    (hr : refuses n ((ts.map Prod.fst).map Tok.kind) = true) (r : Res Val) : ¬ TypeReads E st cs r := by
  rintro ⟨ts', T, m, h1, h2, _, _⟩
  rw [hl] at h1
  cases h1
  obtain ⟨left, hf⟩ := refuses_fails hr
  exact h2.not_fails hf

/-- VIOLATION: a record without fields is shown with a comma after its name, which is not PrettyPFA. -/
theorem shown_nofields_violation {st : St} {name : String} (hw : isName name = true) (n : Nat) :
    ∃ cs, shown (n + 1) (.dict [("type", .str "record"), ("name", .str name), ("fields", .arr [])]) 0 = .ok cs ∧ ∀ r, ¬ TypeReads E st cs r := by
  refine ⟨"record".toList ++ '(' :: ((name.toList ++ [',', '\n']) ++ [')']), ?_, fun r => ?_⟩
  · have hn := nameText_plain (d := [("type", .str "record"), ("name", .str name), ("fields", .arr [])]) (name := name) rfl (.inl rfl)
    have hk : PyDict.get? [("type", Val.str "record"), ("name", .str name), ("fields", .arr [])] "type" = some (.str "record") := rfl
    have hf : PyDict.get? [("type", Val.str "record"), ("name", .str name), ("fields", .arr [])] "fields" = some (.arr []) := rfl
    simp [shown, hk, hf, hn, item, andThen, listIn, seq, joined, blanks, primWords]
  · have h1 := (lx_name (E := E) hw).append comma_line (fun rest _ => (⟨rfl, rfl⟩ : Stop (',' :: _)))
    have h2 := h1.append (Q := Any') lx_rparen (fun rest _ => (⟨by decide, by decide⟩ : NoNl (')' :: rest)))
    have h3 := (lx_lparen (E := E)).append h2 fun _ _ => trivial
    have h4 := (lx_name (E := E) (s := "record") (by decide +kernel)).append h3 (fun rest _ => (⟨rfl, rfl⟩ : Stop ('(' :: _)))
    obtain ⟨m, l, tl, _, ht, el⟩ := h4 [] trivial (lineCount ("record".toList ++ '(' :: ((name.toList ++ [',', '\n']) ++ [')']))) _ 1 (Nat.le_refl _)
    refine refused_type (ts := tl) (n := 40) ?_ ?_ r
    · unfold lex
      rw [List.append_nil] at el
      refine el.trans ?_
      cases m <;> simp [lexN, andThen]
    · rw [ht]
      show refuses 40 [.dotname, .lparen, .dotname, .comma, .rparen] = true
      decide +kernel

/-- VIOLATION: a field with a name that PrettyPFA reserves is shown as it is, although `"init"` in quotation marks could be read. -/
theorem shown_reserved_violation {st : St} : ∃ cs, shown 2 (.dict [("type", .str "record"), ("name", .str "R"), ("fields", .arr [
      .dict [("name", .str "init"), ("type", .str "int")]])]) 0 = .ok cs ∧ ∀ r, ¬ TypeReads E st cs r := by
  refine ⟨['r', 'e', 'c', 'o', 'r', 'd', '(', 'R', ',', '\n', ' ', ' ', ' ', ' ', ' ', ' ', ' ', 'i', 'n', 'i', 't', ':', ' ', 'i', 'n', 't', ')'], by decide +kernel, fun r => ?_⟩
  refine refused_type (n := 40) (ts := [(nameTk "record", 1), (sign .lparen, 1), (nameTk "R", 1), (sign .comma, 1), (sign .init, 2), (sign .colon, 2), (nameTk "int", 2), (sign .rparen, 2)])
    rfl (by decide +kernel) r

/-- VIOLATION: the type of a function, as the signature of a library function shows it, is not PrettyPFA. -/
theorem shown_function_violation {st : St} : ∃ cs, shown 2 (.dict [("type", .str "function"), ("params", .arr [.str "int"]), ("ret", .str "null")]) 0 = .ok cs ∧
    ∀ r, ¬ TypeReads E st cs r := by
  refine ⟨['f', 'c', 'n', '(', 'a', 'r', 'g', '1', ':', ' ', 'i', 'n', 't', ' ', '-', '>', ' ', 'n', 'u', 'l', 'l', ')'], by decide +kernel, fun r => ?_⟩
  refine refused_type (n := 40) (ts := [(sign .fcn, 1), (sign .lparen, 1), (nameTk "arg1", 1), (sign .colon, 1), (nameTk "int", 1), (sign .rarrow, 1), (nameTk "null", 1), (sign .rparen, 1)])
    rfl (by decide +kernel) r

/-- The eight primitive types may all be written as objects. -/
theorem prim_shows (d : List (String × Val)) (s : String) (hs : s = "null" ∨ s = "boolean" ∨ s = "int" ∨ s = "long" ∨ s = "float" ∨ s = "double" ∨ s = "bytes" ∨
    s = "string") (hk : PyDict.get? d "type" = some (.str s)) : Shows (.dict d) (.str s) :=
  .prim hk (by rcases hs with rfl | rfl | rfl | rfl | rfl | rfl | rfl | rfl <;> decide)

end Verif.Pretty
