import Verif.Pretty.Parse

/-!
# Which operand belongs to which operator

What the precedences of prettypfa.py 1625-1636 and the productions for extractions (1740-1746) come to: `a o b p c` is read from the left unless `p` binds more, comparisons
have no chains, and an index after a call belongs to everything before it.  Runs of the parser on tokens with unknown names are runs on the positions of the tokens
(`run_map`), which the kernel can compute.
-/

namespace Verif.Pretty.Lr

variable {Tm Nt Pr τ σ : Type}

mutual
/-- Other tokens in a tree. -/
def Tree.map (f : σ → τ) : Tree Pr σ → Tree Pr τ
  | .leaf t => .leaf (f t)
  | .node p ks => .node p (Trees.map f ks)
@[inherit_doc Tree.map] def Trees.map (f : σ → τ) : List (Tree Pr σ) → List (Tree Pr τ)
  | [] => []
  | k :: ks => k.map f :: Trees.map f ks
end

theorem Trees.map_eq (f : σ → τ) (l : List (Tree Pr σ)) : Trees.map f l = l.map (Tree.map f) := by
  induction l with
  | nil => rfl
  | cons k l ih => simp [Trees.map, ih]

/-- Other tokens on the stack. -/
def mapStack (f : σ → τ) (st : List (Nat × Tree Pr σ)) : List (Nat × Tree Pr τ) := st.map fun qt => (qt.1, qt.2.map f)

/-- Other tokens in what a step does. -/
def Out.map (f : σ → τ) : Out Pr σ → Out Pr τ
  | .next c => .next (mapStack f c.1, c.2.map f)
  | .done t => .done (t.map f)
  | .fail => .fail

/-- The same tables for other tokens. -/
def Machine.on (M : Machine Tm Nt Pr τ) (f : σ → τ) : Machine Tm Nt Pr σ := { M with kind := fun s => M.kind (f s) }

variable {M : Machine Tm Nt Pr τ} {f : σ → τ}

theorem top_map (st : List (Nat × Tree Pr σ)) : top (mapStack f st) = top st := by cases st <;> rfl

theorem step_map (c : Config Pr σ) : step M (mapStack f c.1, c.2.map f) = (step (M.on f) c).map f := by
  obtain ⟨st, inp⟩ := c
  have hl : look M (inp.map f) M.eof = look (M.on f) inp M.eof := by cases inp <;> rfl
  unfold step
  simp only [top_map, hl]
  show _ = Out.map f (match M.act (top st) (look (M.on f) inp M.eof) with
    | none => .fail
    | some (.shift q) => match inp with
      | t :: inp => .next ((q, .leaf t) :: st, inp)
      | [] => .fail
    | some (.reduce p) => reduce (M.on f) p st inp
    | some .accept => match st with
      | [(_, t)] => .done t
      | _ => .fail)
  cases M.act (top st) (look (M.on f) inp M.eof) with
  | none => rfl
  | some a =>
    cases a with
    | shift q => cases inp <;> rfl
    | accept =>
      cases st with
      | nil => rfl
      | cons x st => cases st <;> rfl
    | reduce p =>
      show reduce M p _ _ = Out.map f (reduce (M.on f) p st inp)
      have h1 : (M.on f).rhs = M.rhs := rfl
      have h2 : (M.on f).go = M.go := rfl
      have h3 : (M.on f).lhs = M.lhs := rfl
      have h4 : (mapStack f st).drop (M.rhs p).length = mapStack f (st.drop (M.rhs p).length) := by simp [mapStack]
      have h5 : (((mapStack f st).take (M.rhs p).length).map Prod.snd).reverse = Trees.map f ((st.take (M.rhs p).length).map Prod.snd).reverse := by
        simp [mapStack, Trees.map_eq, ← List.map_take, Function.comp_def]
      unfold reduce
      rw [h1, h2, h3, h4, h5, top_map]
      have hn : (mapStack f st).length = st.length := by simp [mapStack]
      rw [hn]
      by_cases h : st.length < (M.rhs p).length
      · simp [h, Out.map]
      · simp only [h, if_false]
        cases M.go (top (st.drop (M.rhs p).length)) (M.lhs p) <;> simp [Out.map, mapStack, Tree.map]

theorem step_shift {st : List (Nat × Tree Pr τ)} {t : τ} {inp : List τ} {q : Nat} (h : M.act (top st) (M.kind t) = some (.shift q)) :
    step M (st, t :: inp) = .next ((q, .leaf t) :: st, inp) := by
  simp only [step, look, h]

theorem step_none {st : List (Nat × Tree Pr τ)} {t : τ} {inp : List τ} (h : M.act (top st) (M.kind t) = none) : step M (st, t :: inp) = .fail := by
  simp only [step, look, h]

/-- The driver only looks at the kinds of tokens. -/
theorem run_map (n : Nat) : ∀ c : Config Pr σ, run M n (mapStack f c.1, c.2.map f) = (run (M.on f) n c).map f := by
  induction n with
  | zero => intro c; rfl
  | succ n ih =>
    intro c
    simp only [run, step_map]
    cases step (M.on f) c with
    | next d => exact ih d
    | done t => rfl
    | fail => rfl

/-- The token at a place. -/
def at_ (d : τ) (l : List τ) (i : Nat) : τ := l.getD i d

theorem map_range (d : τ) (l : List τ) : (List.range l.length).map (at_ d l) = l := by
  apply List.ext_getElem
  · simp
  · intro i h1 h2
    simp [at_, h2]

/-- Tables for positions of tokens whose kinds are given. -/
def Machine.places (M : Machine Tm Nt Pr τ) (k : Tm) (ks : List Tm) : Machine Tm Nt Pr Nat := { M with kind := fun i => ks.getD i k }

theorem run_places (d : τ) (l : List τ) (n : Nat) :
    run M n ([], l) = (run (M.places (M.kind d) (l.map M.kind)) n ([], List.range l.length)).map (at_ d l) := by
  have h := run_map (M := M) (f := at_ d l) n ([], List.range l.length)
  rw [map_range] at h
  have e : M.on (at_ d l) = M.places (M.kind d) (l.map M.kind) := by
    unfold Machine.on Machine.places
    congr 1
    funext i
    by_cases hi : i < l.length <;> simp [at_, hi]
  rw [e] at h
  exact h

/-- Is it an error? -/
def Out.isFail : Out Pr τ → Bool
  | .fail => true
  | _ => false

theorem Out.fail_of {o : Out Pr τ} (h : o.isFail = true) : o = .fail := by
  cases o <;> simp [isFail] at h ⊢

section
variable [DecidableEq Pr]
mutual
/-- The same tree? -/
def Tree.same : Tree Pr Nat → Tree Pr Nat → Bool
  | .leaf i, .leaf j => i == j
  | .node p ks, .node q ls => decide (p = q) && Trees.same ks ls
  | _, _ => false
@[inherit_doc Tree.same] def Trees.same : List (Tree Pr Nat) → List (Tree Pr Nat) → Bool
  | [], [] => true
  | k :: ks, l :: ls => k.same l && Trees.same ks ls
  | _, _ => false
end

mutual
theorem Tree.eq_of_same : ∀ {s t : Tree Pr Nat}, s.same t = true → s = t
  | .leaf i, .leaf j, h => by simp [Tree.same] at h; rw [h]
  | .node p ks, .node q ls, h => by
    simp only [Tree.same, Bool.and_eq_true, decide_eq_true_eq] at h
    have := Trees.eq_of_same h.2
    rw [h.1, this]
  | .leaf _, .node .., h => by simp [Tree.same] at h
  | .node .., .leaf _, h => by simp [Tree.same] at h
theorem Trees.eq_of_same : ∀ {s t : List (Tree Pr Nat)}, Trees.same s t = true → s = t
  | [], [], _ => rfl
  | k :: ks, l :: ls, h => by
    simp only [Trees.same, Bool.and_eq_true] at h
    have h1 := Tree.eq_of_same h.1
    have h2 := Trees.eq_of_same h.2
    rw [h1, h2]
  | [], _ :: _, h => by simp [Trees.same] at h
  | _ :: _, [], h => by simp [Trees.same] at h
end

/-- Is it this tree? -/
def Out.isTree (t : Tree Pr Nat) : Out Pr Nat → Bool
  | .done u => u.same t
  | _ => false

theorem Out.tree_of {o : Out Pr Nat} {t : Tree Pr Nat} (h : o.isTree t = true) : o = .done t := by
  cases o with
  | done u => rw [Tree.eq_of_same h]
  | next c => simp [isTree] at h
  | fail => simp [isTree] at h
end

end Verif.Pretty.Lr

namespace Verif.Pretty
open Avro Ast Reader Lr Pretty.Lex

/-! ## Texts of one line -/

/-- Any token, used where there is none. -/
def anyTok : Tok := sign .comma

/-- Does the parser refuse tokens of these kinds? -/
def refuses (n : Nat) (ks : List Tm) : Bool := (run (exprParser.places .comma ks) n ([], List.range ks.length)).isFail

theorem refuses_fails {n : Nat} {ts : List Tok} (h : refuses n (ts.map Tok.kind) = true) : ∃ left, Fails exprParser ts left := by
  apply run_fails (n := n)
  rw [run_places anyTok ts n]
  have := Out.fail_of h
  rw [List.length_map] at this
  show Out.map _ (run (exprParser.places .comma (ts.map Tok.kind)) n _) = _
  rw [this]
  rfl

/-- Does the parser make this tree from tokens of these kinds? -/
def makes (n : Nat) (ks : List Tm) (t : Tree Pr Nat) : Bool := (run (exprParser.places .comma ks) n ([], List.range ks.length)).isTree t

theorem makes_parses {n : Nat} {ts : List Tok} {t : Tree Pr Nat} (h : makes n (ts.map Tok.kind) t = true) : Parses exprParser ts (t.map (at_ anyTok ts)) := by
  apply run_parses (n := n)
  rw [run_places anyTok ts n]
  have := Out.tree_of h
  rw [List.length_map] at this
  show Out.map _ (run (exprParser.places .comma (ts.map Tok.kind)) n _) = _
  rw [this]
  rfl

theorem lineOf_one {ts : List Tok} {left : List Tok} (h : left ≠ []) (hl : left.length ≤ ts.length) : lineOf (ts.map fun t => (t, 1)) left = 1 := by
  have : 0 < left.length := List.length_pos_iff.2 h
  have hi : ts.length - left.length < ts.length := by omega
  simp [lineOf, hi]

/-- A syntax error in the first line is a PrettyPfaException. -/
theorem refused_pretty {E : Lex.Env} {st : St} {cs : List Char} {ts : List Tok} (hl : lex E cs = .ok (ts.map fun t => (t, 1))) (h : ∃ left, Fails exprParser ts left) :
    Reads E st cs (.error pretty) := by
  obtain ⟨left, hf⟩ := h
  have he : syntaxErr cs (ts.map fun t => (t, 1)) left = pretty := by
    unfold syntaxErr
    split
    · rfl
    · unfold errAt
      split
      · rfl
      · rw [if_pos]
        have : lineOf (ts.map fun t => (t, 1)) left ≤ 1 := by
          unfold lineOf
          cases h : (ts.map fun t => ((t, 1) : Tok × Nat))[(ts.map fun t => ((t, 1) : Tok × Nat)).length - left.length]? with
          | none => simp
          | some x =>
            have := List.mem_of_getElem? h
            obtain ⟨t, _, rfl⟩ := List.mem_map.1 this
            simp
        omega
  rw [← he]
  refine .refused hl ?_
  rw [List.map_map]
  simpa [Function.comp_def] using hf

/-- A token that is a name. -/
def nameTm (s : String) : Tok := ⟨.dotname, .str s, by decide⟩
/-- A token that is a whole number. -/
def intTm (i : Int) : Tok := ⟨.number, .num (.int i), by decide⟩

/-! ## Operators -/

/-- How much the operators bind, by the documentation (and 1625-1636). -/
def rank : Bin → Nat
  | .or => 1
  | .xor => 2
  | .and => 3
  | .eq | .ne | .lt | .le | .gt | .ge => 4
  | .bitor => 5
  | .bitxor => 6
  | .bitand => 7
  | .plus | .minus => 8
  | .times | .fdiv | .idiv | .mod | .rem => 9
  | .pow => 10

/-- An operand: a name, a number, a string, a call, an extraction, a block, or anything in parentheses. -/
abbrev Atom (t : T) : Prop := Has exprParser shapes (.x 13) t

/-- `a o b` -/
def binT (o : Bin) (a b : T) : T := .node (.bin o) [a, key o.tm o.real, b]

/-- Everything of the text is one expression. -/
def oneT (t : T) : T := .node .exprs1 [t]

theorem atom_any {t : T} (h : Atom t) (l : Fin 14) : Has exprParser shapes (.x l) t := has_up h fun _ ha => atom_ops (ops13 ha) l

theorem bin_has {o : Bin} {x y l : Fin 14} (hm : (o, x, y, l) ∈ binary) {a b : T} (ha : Has exprParser shapes (.x x) a) (hb : Has exprParser shapes (.x y) b)
    {k : Fin 14} (hk : k ≤ l) : Has exprParser shapes (.x k) (binT o a b) := by
  refine .mk (ks := [.sh (.x x), .tok o.tm, .sh (.x y)]) ?_ (.sh ha (.tok rfl (.sh hb .nil)))
  exact List.mem_append_left _ (List.mem_append_left _ (List.mem_map.2 ⟨(o, x, y, l), List.mem_filter.2 ⟨hm, by simpa using hk⟩, rfl⟩))

theorem one_read {t : T} (h : Has exprParser shapes (.x 1) t) : Parses exprParser t.yield (oneT t) := by
  have : Has exprParser shapes .exprs (oneT t) := .mk (p := .exprs1) (ks := [.sh .stmt]) (by simp [shapes, alts]) (.sh (has_up h fun a ha => List.mem_append_left _ ha) .nil)
  have := expressions_read this
  simpa [oneT, Tree.yield, yields] using this

theorem ranks : ∀ b ∈ binary, ∀ c ∈ binary, (rank c.1 ≤ rank b.1 → ¬ (rank b.1 = 4 ∧ rank c.1 = 4) → c.2.1 ≤ b.2.2.2) ∧ (rank b.1 < rank c.1 → b.2.2.1 ≤ c.2.2.2) ∧ 1 ≤ b.2.2.2 := by
  decide

/-- **Operators of one rank are read from the left**, and so are those where the second binds less: `a o b p c` is `(a o b) p c`. -/
theorem left_first {o p : Bin} (h : rank p ≤ rank o) (hc : ¬ (rank o = 4 ∧ rank p = 4)) {a b c : T} (ha : Atom a) (hb : Atom b) (hd : Atom c) :
    Parses exprParser (a.yield ++ sign o.tm o.real :: (b.yield ++ sign p.tm p.real :: c.yield)) (oneT (binT p (binT o a b) c)) := by
  obtain ⟨x, y, l, hm⟩ := bin_mem o
  obtain ⟨x', y', l', hm'⟩ := bin_mem p
  have h1 := ranks _ hm _ hm'
  have h2 := ranks _ hm' _ hm
  have := one_read (bin_has hm' (bin_has hm (atom_any ha x) (atom_any hb y) (h1.1 h hc)) (atom_any hd y') h2.2.2)
  simpa [binT, Tree.yield, yields, key] using this

/-- If the second operator binds more, `a o b p c` is `a o (b p c)`. -/
theorem right_first {o p : Bin} (h : rank o < rank p) {a b c : T} (ha : Atom a) (hb : Atom b) (hd : Atom c) :
    Parses exprParser (a.yield ++ sign o.tm o.real :: (b.yield ++ sign p.tm p.real :: c.yield)) (oneT (binT o a (binT p b c))) := by
  obtain ⟨x, y, l, hm⟩ := bin_mem o
  obtain ⟨x', y', l', hm'⟩ := bin_mem p
  have h1 := ranks _ hm _ hm'
  have := one_read (bin_has hm (atom_any ha x) (bin_has hm' (atom_any hb x') (atom_any hd y') (h1.2.1 h)) h1.2.2)
  simpa [binT, Tree.yield, yields, key] using this

/-- Names are operands. -/
theorem name_atom (s : String) : Atom (.node .sName [nameLeaf s]) := .mk (ks := [.tok .dotname]) (atom_ops (by simp [atoms]) 13) (.tok rfl .nil)

/-- `a - b - c` is `(a - b) - c`, and `a - b * c` is `a - (b * c)`. -/
example : Parses exprParser [nameTm "a", sign .minus, nameTm "b", sign .minus, nameTm "c"]
      (oneT (binT .minus (binT .minus (.node .sName [nameLeaf "a"]) (.node .sName [nameLeaf "b"])) (.node .sName [nameLeaf "c"]))) ∧
    Parses exprParser [nameTm "a", sign .minus, nameTm "b", sign .times, nameTm "c"]
      (oneT (binT .minus (.node .sName [nameLeaf "a"]) (binT .times (.node .sName [nameLeaf "b"]) (.node .sName [nameLeaf "c"])))) :=
  ⟨left_first (o := .minus) (p := .minus) (by decide) (by decide) (name_atom "a") (name_atom "b") (name_atom "c"), right_first (o := .minus) (p := .times) (by decide) (name_atom "a") (name_atom "b") (name_atom "c")⟩

set_option maxRecDepth 100000 in
theorem chains_refused : ∀ o ∈ bins, ∀ p ∈ bins, rank o = 4 → rank p = 4 → refuses 60 [.dotname, o.tm, .dotname, p.tm, .dotname] = true := by decide +kernel

/-- Comparisons have no chains: `a < b < c` is refused, for all names and all comparisons. -/
theorem chain_refused {E : Lex.Env} {st : St} {o p : Bin} (ho : rank o = 4) (hp : rank p = 4) {a b c : String} (ha : isName a = true) (hb : isName b = true)
    (hc : isName c = true) : Reads E st (written E [nameTm a, sign o.tm o.real, nameTm b, sign p.tm p.real, nameTm c]) (.error pretty) := by
  refine refused_pretty (lex_written ?_) (refuses_fails (chains_refused o (bins_all o) p (bins_all p) ho hp))
  have : ∀ o : Bin, Lex.Good E (sign o.tm o.real) := fun o => by cases o <;> (show wordOf _ ≠ []; decide)
  intro t ht
  simp only [List.mem_cons, List.not_mem_nil, or_false] at ht
  rcases ht with rfl | rfl | rfl | rfl | rfl
  · exact ha
  · exact this o
  · exact hb
  · exact this p
  · exact hc

/-! ## Where an index belongs -/

set_option maxRecDepth 100000 in
theorem index_made : ∀ o ∈ bins, makes 80 [.dotname, o.tm, .dotname, .lparen, .dotname, .rparen, .lbracket, .dotname, .rbracket]
    (.node .exprs1 [.node .genGet [.node (.bin o) [.node .sName [.leaf 0], .leaf 1, .node .call [.leaf 2, .leaf 3, .node .args1 [.node .argE [.node .sName [.leaf 4]]], .leaf 5]],
      .leaf 6, .node .args1 [.node .argE [.node .sName [.leaf 7]]], .leaf 8]]) = true := by decide +kernel

/-- **An index after a call belongs to the whole expression before it**: `a + f(x)[i]` is `(a + f(x))[i]`, for every operator, although `a + x[i]` is `a + (x[i])`. -/
theorem index_call_violation (o : Bin) (a f x i : String) : ∃ t, Parses exprParser [nameTm a, sign o.tm o.real, nameTm f, sign .lparen, nameTm x, sign .rparen, sign .lbracket, nameTm i, sign .rbracket] t ∧
    value t = .ok (.minis [.genGet (.call o.name [.dotName a, .call f [.dotName x]]) [.dotName i]]) := by
  refine ⟨_, makes_parses (n := 80) (ts := [nameTm a, sign o.tm o.real, nameTm f, sign .lparen, nameTm x, sign .rparen, sign .lbracket, nameTm i, sign .rbracket]) (index_made o (bins_all o)), ?_⟩
  cases o <;> rfl

set_option maxRecDepth 100000 in
theorem index_name_made : ∀ o ∈ bins, makes 80 [.dotname, o.tm, .dotname, .lbracket, .dotname, .rbracket]
    (.node .exprs1 [.node (.bin o) [.node .sName [.leaf 0], .leaf 1, .node .get [.leaf 2, .leaf 3, .node .args1 [.node .argE [.node .sName [.leaf 4]]], .leaf 5]]]) = true := by decide +kernel

/-- An index after a name belongs to the name. -/
theorem index_name (o : Bin) (a x i : String) : ∃ t, Parses exprParser [nameTm a, sign o.tm o.real, nameTm x, sign .lbracket, nameTm i, sign .rbracket] t ∧
    value t = .ok (.minis [.call o.name [.dotName a, .get x [.dotName i]]]) := by
  refine ⟨_, makes_parses (n := 80) (ts := [nameTm a, sign o.tm o.real, nameTm x, sign .lbracket, nameTm i, sign .rbracket]) (index_name_made o (bins_all o)), ?_⟩
  cases o <;> rfl

/-! ## Texts that are refused -/

set_option maxRecDepth 100000 in
theorem minus_refused : refuses 20 [.dotname, .number] = true := by decide +kernel

/-- **`x-1` is refused**, for all names and all numbers from 1 on. -/
theorem minus_read_violation (E : Lex.Env) (st : St) {s : String} (h : isName s = true) (n : Nat) (hn : 0 < n) :
    Reads E st (s.toList ++ Lib.Num.fmt 10 (-(n : Int))) (.error pretty) := by
  obtain ⟨a, b, h1, h2, h3, _⟩ := minus_number_violation E h n hn
  exact refused_pretty (ts := [a, b]) h1 (refuses_fails (n := 20) (by rw [List.map_cons, List.map_cons, h2, h3]; exact minus_refused))

set_option maxRecDepth 100000 in
theorem comma_refused : refuses 40 [.dotname, .lparen, .dotname, .equal, .number, .comma, .number, .rparen] = true := by decide +kernel

/-- No argument is an assignment: `f(x = 1, 3)` is refused. -/
theorem assigned_argument_refused (E : Lex.Env) (st : St) {f x : String} (hf : isName f = true) (hx : isName x = true) (i j : Int) :
    Reads E st (written E [nameTm f, sign .lparen, nameTm x, sign .equal, intTm i, sign .comma, intTm j, sign .rparen]) (.error pretty) := by
  refine refused_pretty (lex_written ?_) (refuses_fails (n := 40) comma_refused)
  intro t ht
  simp only [List.mem_cons, List.not_mem_nil, or_false] at ht
  rcases ht with rfl | rfl | rfl | rfl | rfl | rfl | rfl | rfl
  · exact hf
  · show wordOf _ ≠ []; decide
  · exact hx
  · show wordOf _ ≠ []; decide
  · trivial
  · show wordOf _ ≠ []; decide
  · trivial
  · show wordOf _ ≠ []; decide

/-- **A syntax error in the last of several lines is an IndexError**: `a`, a new line, and `b`. -/
theorem last_line_violation (E : Lex.Env) (st : St) {a b : String} (ha : isName a = true) (hb : isName b = true) (hl : '\n' ∉ a.toList) (hm : '\n' ∉ b.toList) :
    Reads E st (written E [nameTm a] ++ '\n' :: written E [nameTm b]) (.error (.py "IndexError")) := by
  have ga : ∀ t ∈ [nameTm a], Lex.Good E t := by intro t ht; rw [List.mem_singleton.1 ht]; exact ha
  have gb : ∀ t ∈ [nameTm b], Lex.Good E t := by intro t ht; rw [List.mem_singleton.1 ht]; exact hb
  have hc : lineCount (written E [nameTm a] ++ '\n' :: written E [nameTm b]) = 2 := by
    have h1 : (written E [nameTm a]).count '\n' = 0 := List.count_eq_zero.2 (by
      show '\n' ∉ a.toList ++ [' ']
      simp [hl])
    have h2 : (written E [nameTm b]).count '\n' = 0 := List.count_eq_zero.2 (by
      show '\n' ∉ b.toList ++ [' ']
      simp [hm])
    simp [lineCount, h1, h2]
  have hx : lex E (written E [nameTm a] ++ '\n' :: written E [nameTm b]) = .ok [(nameTm a, 1), (nameTm b, 2)] := by
    obtain ⟨m, hm, e⟩ := lexN_before 2 ga ('\n' :: written E [nameTm b]) _ (Nat.le_refl _) 1
    rw [lex, hc, e]
    obtain ⟨k, rfl⟩ : ∃ k, m = k + 1 := ⟨m - 1, by simp at hm; omega⟩
    obtain ⟨c, w, hw⟩ : ∃ c w, written E [nameTm b] = c :: w := by
      cases h : written E [nameTm b] with
      | nil => simp [written] at h
      | cons c w => exact ⟨c, w, rfl⟩
    have hc : c ≠ '\n' ∧ c ≠ '\r' := by
      have : isName b = true := hb
      have hw' : b.toList ++ [' '] = c :: w := hw
      unfold isName at this
      cases hb' : b.toList with
      | nil => simp [hb'] at this
      | cons d l =>
        rw [hb'] at this hw'
        injection hw' with h1 h2
        subst h1
        simp only [Bool.and_eq_true] at this
        have h := this.1.1
        exact ⟨by rintro rfl; exact absurd h (by decide), by rintro rfl; exact absurd h (by decide)⟩
    have h1 : lex1 E '\n' (written E [nameTm b]) = .skip 1 (written E [nameTm b]) := by
      rw [hw]
      have : newlines ('\n' :: c :: w) = (1, c :: w) := by
        have h0 : newlines (c :: w) = (0, c :: w) := by cases w <;> simp [newlines, hc.1, hc.2]
        simp [newlines, h0]
      have e1 : ('\n' == ' ' || '\n' == '\t') = false := rfl
      have e2 : ['/', '/'].isPrefixOf ('\n' :: c :: w) = false := rfl
      have e3 : Lex.start '\n' = false := rfl
      have e4 : number ('\n' :: c :: w) = none := rfl
      have e5 : lexRest E '\n' (c :: w) = .skip (newlines ('\n' :: c :: w)).1 (newlines ('\n' :: c :: w)).2 := rfl
      simp only [lex1, e1, e2, e3, e4, e5, this, Bool.false_eq_true, if_false]
    have h2 := lexN_written 2 gb k (by simpa using hm) 2
    simp only [lexN, h1, h2, andThen]
    rfl
  have hf : Fails exprParser [nameTm a, nameTm b] [nameTm b] := by
    have h0 : exprParser.act 0 .dotname = some (.shift 5) := by decide +kernel
    have h5 : exprParser.act 5 .dotname = none := by decide +kernel
    refine ⟨[(5, .leaf (nameTm a))], .cons (step_shift h0) (.refl _), step_none h5⟩
  have := Reads.refused (st := st) hx hf
  simpa [syntaxErr, hc, lineOf, errAt] using this

/-! ## An expression that is written and read back -/

/-- A program where `0.5` is the text of the only fraction. -/
def sampleEnv : Lex.Env := { subs := [], toFloat := fun _ => .fin (1/2), repr := fun _ => ['0', '.', '5'] }

set_option maxRecDepth 10000 in
theorem sample_can : Cans sampleEnv (minis [sample]) := by
  have hf : floatOk sampleEnv (.fin (1/2)) := ⟨['0'], ['.', '5'], by decide +kernel, by decide, rfl⟩
  have hm : minis [sample] = [.call "do" [.assign [("x", .number (.int 3)), ("y", .call "long" [.number (.int 99999999999)])] true,
      .foreach "z" (.dotName "xs") (.call "do" [.assign [("c", .call "+" [.dotName "c", .dotName "z"])] false]) false,
      .if_ [(.call ">" [.dotName "x", .number (.flt (.fin (1 / 2)))], .call "do" [.dotName "null"]), (.dotName "true", .call "do" [.dotName "x"])] (some (.call "do" [.string "a"])),
      .call "a.map" [.get "x" [.string "k", .number (.int 0)], .dotName "u.f"],
      .call "new" [.call "map" [.dotName "int"], .param "k" (.dotName "x"), .param "l" (.get "p" [.string "q"])],
      .call "error" [.string "bad", .param "code" (.number (.int (-3)))]]] := by
    unfold sample
    simp only [minis, mini]
    rfl
  rw [hm]
  simp only [Cans, Can, CanN, CanP, CanO, NumOk, hf, and_true, true_and]
  repeat' first
    | with_reducible refine And.intro ?_ ?_
    | decide +kernel
    | (intro m hm; cases hm; decide +kernel)

/-- So its text is read as the expression. -/
example : Reads sampleEnv sampleSt (textOf sampleEnv (minis [sample])) (.ok [sample]) :=
  written_means_partial (by simp) (by intro e he; rw [List.mem_singleton.1 he]; exact sample_ok) (by decide +kernel) sample_can

end Verif.Pretty
