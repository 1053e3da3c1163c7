import Verif.Pretty.Shapes
import Verif.Pretty.Lex

/-!
# Writing PrettyPFA

`tree m` writes the parser's tree `m` with the productions of the grammar, in parentheses where the grammar would read something else, and `can m` lists what the
language needs for it: names that are names, parts that may stand where they are, assignments with distinct names.  `written_read`: such a text is read as `m`.
-/

namespace Verif.Pretty
open Avro Ast Reader Lr Lex

/-! ## Trees -/

/-- A token without a value as a tree. -/
def key (a : Tm) (h : a ≠ .eof := by decide) : T := .leaf (sign a h)
@[inherit_doc key] def nameLeaf (s : String) : T := .leaf ⟨.dotname, .str s, by decide⟩
@[inherit_doc key] def strLeaf (s : String) : T := .leaf ⟨.string, .str s, by decide⟩

theorem Bin.real (o : Bin) : o.tm ≠ .eof := by cases o <;> decide

/-- In parentheses. -/
def paren (t : T) : T := .node .group [key .lparen, t, key .rparen]

/-- A list with a separator, from its first production and its second. -/
def listT (one more : Pr) (sep : T) : T → List T → T
  | acc, [] => acc
  | acc, t :: ts => listT one more sep (.node more [acc, sep, t]) ts

/-- Arguments. -/
def argsT : List T → T
  | [] => .node .args0 [.node .empty []]
  | t :: ts => listT .args1 .argsMore (key .comma) (.node .args1 [t]) ts

/-- Parameters. -/
def paramsT : List T → T
  | [] => .node .params0 [.node .empty []]
  | t :: ts => listT .params1 .paramsMore (key .comma) (.node .params1 [t]) ts

/-- Expressions with semicolons. -/
def exprsT : List T → T
  | [] => .node .empty []
  | t :: ts => listT .exprs1 .exprsMore (key .semi) (.node .exprs1 [t]) ts

/-- Assignments. -/
def assignsT : List T → T
  | [] => .node .empty []
  | t :: ts => listT .assigns1 .assignsMore (key .comma) (.node .assigns1 [t]) ts

/-- Cases of a cast. -/
def casesT : T → List T → T
  | acc, [] => acc
  | acc, t :: ts => casesT (.node .asblocksMore [acc, t]) ts

/-- A parameter: the name as a name if it is one, otherwise as a string. -/
def paramT (n : String) (a : T) : T := if isName n then .node .paramName [nameLeaf n, key .colon, a] else .node .paramStr [strLeaf n, key .colon, a]

/-- A tree as an argument. -/
def argT (m : Mini) (t : T) : T := .node (match m with | .param .. => .argP | .bracketed _ => .argB | .fcnDef .. => .argF | _ => .argE) [t]

/-- A parameter with a boolean. -/
def flagT (n : String) (b : Bool) : T := paramT n (.node .argE [.node .sName [nameLeaf (if b then "true" else "false")]])

/-- `if … else if … else …`. -/
def ifT : List (T × T) → Option T → T
  | [], _ => .node .empty []
  | [(p, t)], none => .node .if1 [key .if_, key .lparen, p, key .rparen, t]
  | [(p, t)], some e => .node .if2 [key .if_, key .lparen, p, key .rparen, t, key .else_, e]
  | (p, t) :: ps, e => .node .if2 [key .if_, key .lparen, p, key .rparen, t, key .else_, ifT ps e]

/-- A unary operator. -/
def unOf (n : String) : Option (T → T) :=
  if n = "u-" then some fun a => .node .uminus [key .minus, a]
  else if n = "~" then some fun a => .node .bitnot [key .bitnot, a]
  else if n = "!" then some fun a => .node .not [key .not, a]
  else none

/-- All binary operators. -/
def bins : List Bin := [.or, .xor, .and, .eq, .ne, .lt, .le, .gt, .ge, .bitor, .bitxor, .bitand, .plus, .minus, .times, .fdiv, .idiv, .mod, .rem, .pow]

/-- A binary operator. -/
def binOf (n : String) : Option Bin := bins.find? fun o => o.name == n

/-- A call: a block, an operator or a name with arguments. -/
def callT (n : String) (ts as : List T) : T :=
  if n = "do" then .node .sBlock [.node .blockE [key .lcurly, exprsT ts, key .rcurly]]
  else match ts, unOf n, binOf n with
    | [a], some f, _ => paren (f a)
    | [a, b], _, some o => paren (.node (.bin o) [a, key o.tm o.real, b])
    | _, _, _ => .node .call [nameLeaf n, key .lparen, argsT as, key .rparen]

/-- The filters of `try` and its body. -/
def tryT (b : T) : Option (List T × List T) → T
  | none => .node .try1 [key .try_, b]
  | some ([f], _) => .node .try2 [key .try_, key .lparen, f, key .rparen, b]
  | some (_, as) => .node .try3 [key .try_, key .lparen, argsT as, key .rparen, b]

/-- Assignment to a path. -/
def toT (n : String) (as : List T) (d : Bool) (r ra : T) : Option T → T
  | none => if d then .node .to1 [nameLeaf n, key .lbracket, argsT as, key .rbracket, key .equal, r]
    else if as.isEmpty then .node .to4 [nameLeaf n, key .to_, ra]
    else .node .to2 [nameLeaf n, key .lbracket, argsT as, key .rbracket, key .to_, ra]
  | some i => if as.isEmpty then .node .to5 [nameLeaf n, key .to_, ra, key .init, i]
    else .node .to3 [nameLeaf n, key .lbracket, argsT as, key .rbracket, key .to_, ra, key .init, i]

/-- An optional `else` of `ifnotnull` and `unpack`. -/
def elseT (one two : Pr) (ks : List T) : Option T → T
  | none => .node one ks
  | some e => .node two (ks ++ [key .else_, e])

mutual
/-- The tree of the grammar. -/
def tree : Mini → T
  | .subs s => .node .repl [.leaf ⟨.replacement, .sub s, by decide⟩]
  | .genGet e as => paren (.node .genGet [paren (tree e), key .lbracket, argsT (argTs as), key .rbracket])
  | .get n as => .node .get [nameLeaf n, key .lbracket, argsT (argTs as), key .rbracket]
  | .to_ n as d r i => paren (toT n (argTs as) d (tree r) (argT r (tree r)) (treeO i))
  | .enumSymbol t v => .node .enumSym [nameLeaf t, key .at_, nameLeaf v]
  | .dotName n => .node .sName [nameLeaf n]
  | .number v => .node .sNumber [.leaf ⟨.number, .num v, by decide⟩]
  | .string s => .node .sStr [strLeaf s]
  | .call n as => callT n (trees as) (argTs as)
  | .block es => .node .sBlock [.node .blockP [key .lcurly, paramsT (trees es), key .rcurly]]
  | .bracketed as => .node .bracketed [key .lbracket, argsT (argTs as), key .rbracket]
  | .param n m => paramT n (argT m (tree m))
  | .fcnDef ps r d => .node .fcnB [key .fcn, key .lparen, paramsT (paramTs ps), .node .rettype [key .rarrow, tree r], key .rparen,
      .node .blockE [key .lcurly, exprsT (trees d), key .rcurly]]
  | .if_ ps e => paren (ifT (pairTs ps) (treeO e))
  | .asBlock t n b => .node .asblock [key .as_, key .lparen, paramT n (argT t (tree t)), key .rparen, tree b]
  | .cast e as p => paren (match trees as with
    | [] => .node .empty []
    | c :: cs => if p then .node .cast2 [key .cast, key .lparen, tree e, key .comma, flagT "partial" true, key .rparen, key .lcurly,
        casesT (.node .asblocks1 [c]) cs, key .rcurly]
      else .node .cast1 [key .cast, key .lparen, tree e, key .rparen, key .lcurly, casesT (.node .asblocks1 [c]) cs, key .rcurly])
  | .ifNotNull ps t e => paren (elseT .ifnn1 .ifnn2 [key .ifnotnull, key .lparen, paramsT (paramTs ps), key .rparen, tree t] (treeO e))
  | .unpack b ps t e => paren (elseT .unpack1 .unpack2 [key .unpack, key .lparen, tree b, key .comma, paramsT (paramTs ps), key .rparen, tree t] (treeO e))
  | .while_ p b pre => paren (if pre then .node .while_ [key .while_, key .lparen, tree p, key .rparen, tree b]
      else .node .doUntil [key .do_, tree b, key .until_, key .lparen, tree p, key .rparen])
  | .for_ i p s b => paren (.node .for_ [key .for_, key .lparen, assignsT (assignTs i), key .semi, tree p, key .semi, assignsT (assignTs s), key .rparen, tree b])
  | .foreach n a b q => paren (if q then .node .each2 [key .foreach, key .lparen, paramT n (argT a (tree a)), key .comma, flagT "seq" true, key .rparen, tree b]
      else .node .each1 [key .foreach, key .lparen, paramT n (argT a (tree a)), key .rparen, tree b])
  | .forkeyval k v m b => paren (if isName k then .node .pairName [key .foreach, key .lparen, nameLeaf k, key .comma, paramT v (argT m (tree m)), key .rparen, tree b]
      else .node .pairStr [key .foreach, key .lparen, strLeaf k, key .comma, paramT v (argT m (tree m)), key .rparen, tree b])
  | .try_ b fs => paren (tryT (tree b) (filterTs fs))
  | .genAssign e as r => paren (.node .genSet [paren (tree e), key .lbracket, argsT (argTs as), key .rbracket, key .equal, tree r])
  | .assign ps var => paren (if var then .node .let_ [key .var, assignsT (assignTs ps)] else .node .set_ [assignsT (assignTs ps)])
@[inherit_doc tree] def trees : List Mini → List T
  | [] => []
  | m :: ms => tree m :: trees ms
@[inherit_doc tree] def argTs : List Mini → List T
  | [] => []
  | m :: ms => argT m (tree m) :: argTs ms
@[inherit_doc tree] def treeO : Option Mini → Option T
  | none => none
  | some m => some (tree m)
@[inherit_doc tree] def paramTs : List (String × Mini) → List T
  | [] => []
  | (n, m) :: ps => paramT n (argT m (tree m)) :: paramTs ps
@[inherit_doc tree] def assignTs : List (String × Mini) → List T
  | [] => []
  | (n, m) :: ps => .node .assignment [nameLeaf n, key .equal, tree m] :: assignTs ps
@[inherit_doc tree] def pairTs : List (Mini × Mini) → List (T × T)
  | [] => []
  | (a, b) :: ps => (tree a, tree b) :: pairTs ps
@[inherit_doc tree] def filterTs : Option (List Mini) → Option (List T × List T)
  | none => none
  | some l => some (trees l, argTs l)
end

/-- The text of some expressions. -/
def textOf (E : Lex.Env) (ms : List Mini) : List Char := written E (exprsT (trees ms)).yield

/-! ## Conditions -/

/-- May stand where an expression is needed. -/
def isE : Mini → Bool
  | .param .. | .bracketed _ | .fcnDef .. | .asBlock .. => false
  | _ => true

/-- May stand where an argument is needed. -/
def isA : Mini → Bool
  | .asBlock .. => false
  | _ => true

/-- A case of a cast. -/
def isC : Mini → Bool
  | .asBlock .. => true
  | _ => false

/-- A `do` with expressions: what a block `{…}` gives. -/
def isDo : Mini → Bool
  | .call n as => n == "do" && !as.isEmpty
  | _ => false

/-- Another `if`. -/
def isIf : Mini → Bool
  | .if_ .. => true
  | _ => false

/-- Names of calls: `do` makes a block, operators have one operand or two, and others must be names. -/
def callOk (n : String) (as : List Mini) : Bool :=
  if n = "do" then !as.isEmpty && as.all isE
  else match as, unOf n, binOf n with
    | [a], some _, _ => isE a
    | [a, b], _, some _ => isE a && isE b
    | _, _, _ => isName n && as.all isA

/-- The names of a dictionary are names, and distinct. -/
def namesOk (ps : List (String × Mini)) : Bool := !ps.isEmpty && ps.all (fun p => isName p.1 && isE p.2) && decide (ps.map Prod.fst).Nodup

/-- A name that is a name or a string. -/
def keyOk (n : String) : Bool := isName n || !(n.toList.contains (Char.ofNat 0))

/-- A number that can be written. -/
def NumOk (E : Lex.Env) : Val → Prop
  | .int _ => True
  | .flt f => floatOk E f
  | _ => False

section
variable (E : Lex.Env)

mutual
/-- The language can write this. -/
def Can : Mini → Prop
  | .subs _ => False
  | .genGet e as => isE e = true ∧ Can e ∧ as.all isA = true ∧ Cans as
  | .get n as => isName n = true ∧ as.all isA = true ∧ Cans as
  | .to_ n as d r i => isName n = true ∧ as.all isA = true ∧ Cans as ∧ Can r ∧ isA r = true ∧ (d = true → isE r = true ∧ i = none) ∧ CanO i
  | .enumSymbol t v => isName t = true ∧ isName v = true
  | .dotName n => isName n = true
  | .number v => NumOk E v
  | .string s => Char.ofNat 0 ∉ s.toList
  | .call n as => callOk n as = true ∧ Cans as
  | .block es => es.all Mini.isParam = true ∧ Cans es
  | .bracketed as => as.all isA = true ∧ Cans as
  | .param n m => keyOk n = true ∧ isA m = true ∧ Can m
  | .fcnDef ps r d => CanN ps ∧ isE r = true ∧ Can r ∧ d ≠ [] ∧ d.all isE = true ∧ Cans d
  | .if_ ps e => ps ≠ [] ∧ CanP ps ∧ CanO e ∧ (∀ m, e = some m → isIf m = false)
  | .asBlock t n b => keyOk n = true ∧ isA t = true ∧ Can t ∧ isE b = true ∧ Can b
  | .cast e as _ => isE e = true ∧ Can e ∧ as ≠ [] ∧ as.all isC = true ∧ Cans as
  | .ifNotNull ps t e => CanN ps ∧ isE t = true ∧ Can t ∧ CanO e
  | .unpack b ps t e => isE b = true ∧ Can b ∧ CanN ps ∧ isE t = true ∧ Can t ∧ CanO e
  | .while_ p b _ => isE p = true ∧ Can p ∧ isE b = true ∧ Can b
  | .for_ i p s b => namesOk i = true ∧ CanN i ∧ isE p = true ∧ Can p ∧ namesOk s = true ∧ CanN s ∧ isE b = true ∧ Can b
  | .foreach n a b _ => keyOk n = true ∧ isA a = true ∧ Can a ∧ isE b = true ∧ Can b
  | .forkeyval k v m b => keyOk k = true ∧ keyOk v = true ∧ isA m = true ∧ Can m ∧ isE b = true ∧ Can b
  | .try_ b fs => isE b = true ∧ Can b ∧ CanF fs ∧ (fs = none → isDo b = true)
  | .genAssign e as r => isE e = true ∧ Can e ∧ as.all isA = true ∧ Cans as ∧ isE r = true ∧ Can r
  | .assign ps _ => namesOk ps = true ∧ CanN ps
@[inherit_doc Can] def Cans : List Mini → Prop
  | [] => True
  | m :: ms => Can m ∧ Cans ms
@[inherit_doc Can] def CanO : Option Mini → Prop
  | none => True
  | some m => isE m = true ∧ Can m
@[inherit_doc Can] def CanN : List (String × Mini) → Prop
  | [] => True
  | (n, m) :: ps => keyOk n = true ∧ isA m = true ∧ Can m ∧ CanN ps
@[inherit_doc Can] def CanP : List (Mini × Mini) → Prop
  | [] => True
  | (a, b) :: ps => isE a = true ∧ Can a ∧ isE b = true ∧ Can b ∧ CanP ps
@[inherit_doc Can] def CanF : Option (List Mini) → Prop
  | none => True
  | some l => l.all isE = true ∧ Cans l
end

/-! ## Trees that are read, with their values -/

/-- A tree of a shape with a value, whose tokens can be written. -/
def Fine (i : Sh) (v : V) (t : T) : Prop := Has exprParser shapes i t ∧ value t = .ok v ∧ ∀ k ∈ t.yield, Good E k

@[inherit_doc Fine] def FineL (ks : List (Kid Tm Sh)) (vs : List V) (ts : List T) : Prop :=
  HasL exprParser shapes ks ts ∧ values ts = .ok vs ∧ ∀ k ∈ yields ts, Good E k

variable {E}

theorem FineL.nil : FineL E [] [] [] := ⟨.nil, rfl, by simp [yields]⟩

theorem FineL.tok {a : Tm} {k : Tok} {ks : List (Kid Tm Sh)} {vs : List V} {ts : List T} (hk : k.kind = a) (hg : Good E k) (h : FineL E ks vs ts) :
    FineL E (.tok a :: ks) (.tok k :: vs) (.leaf k :: ts) := by
  obtain ⟨h1, h2, h3⟩ := h
  refine ⟨.tok hk h1, ?_, ?_⟩
  · simp [values, value, h2, andThen]
  · intro x hx
    simp only [yields, Tree.yield, List.cons_append, List.nil_append, List.mem_cons] at hx
    rcases hx with rfl | hx
    · exact hg
    · exact h3 x hx

theorem FineL.sh {i : Sh} {t : T} {v : V} {ks : List (Kid Tm Sh)} {vs : List V} {ts : List T} (ht : Fine E i v t) (h : FineL E ks vs ts) :
    FineL E (.sh i :: ks) (v :: vs) (t :: ts) := by
  obtain ⟨h1, h2, h3⟩ := h
  obtain ⟨g1, g2, g3⟩ := ht
  refine ⟨.sh g1 h1, ?_, ?_⟩
  · simp [values, g2, h2, andThen]
  · intro x hx
    simp only [yields, List.mem_append] at hx
    exact hx.elim (g3 x) (h3 x)

theorem Fine.mk {i : Sh} {p : Pr} {ks : List (Kid Tm Sh)} {vs : List V} {ts : List T} {v : V} (hp : (p, ks) ∈ alts i) (h : FineL E ks vs ts)
    (hv : sem p vs = .ok v) : Fine E i v (.node p ts) := by
  obtain ⟨h1, h2, h3⟩ := h
  refine ⟨.mk hp h1, ?_, ?_⟩
  · simp [value, h2, andThen, hv]
  · simpa [Tree.yield] using h3

/-- A token without a value. -/
theorem FineL.key {a : Tm} {ha : a ≠ .eof} {ks : List (Kid Tm Sh)} {vs : List V} {ts : List T} (hg : wordOf a ≠ []) (h : FineL E ks vs ts) :
    FineL E (.tok a :: ks) (.tok (sign a ha) :: vs) (key a ha :: ts) := by
  refine FineL.tok rfl ?_ h
  unfold Good sign
  cases a <;> first | exact hg | exact absurd rfl hg

theorem FineL.name {n : String} {ks : List (Kid Tm Sh)} {vs : List V} {ts : List T} (hn : isName n = true) (h : FineL E ks vs ts) :
    FineL E (.tok .dotname :: ks) (.tok ⟨.dotname, .str n, by decide⟩ :: vs) (nameLeaf n :: ts) := FineL.tok rfl hn h

theorem FineL.str {n : String} {ks : List (Kid Tm Sh)} {vs : List V} {ts : List T} (hn : Char.ofNat 0 ∉ n.toList) (h : FineL E ks vs ts) :
    FineL E (.tok .string :: ks) (.tok ⟨.string, .str n, by decide⟩ :: vs) (strLeaf n :: ts) := FineL.tok rfl hn h

/-- Every atom is an expression of any level. -/
theorem atom_ops {a : Pr × List (Kid Tm Sh)} (h : a ∈ atoms) (l : Fin 14) : a ∈ alts (.x l) := List.mem_append_right _ h

theorem atom_stmt {a : Pr × List (Kid Tm Sh)} (h : a ∈ atoms) : a ∈ alts .stmt := List.mem_append_left _ (atom_ops h 1)

/-- The production of an atom. -/
theorem has_up {i j : Sh} {t : T} (h : Has exprParser shapes i t) (hs : ∀ a ∈ alts i, a ∈ alts j) : Has exprParser shapes j t := by
  cases h with
  | mk hp hk => exact .mk (hs _ hp) hk

theorem ops13 {a : Pr × List (Kid Tm Sh)} (h : a ∈ alts (.x 13)) : a ∈ atoms := by
  rcases List.mem_append.1 h with h | h
  · rcases List.mem_append.1 h with h | h
    · obtain ⟨b, hb, _⟩ := List.mem_map.1 h
      rw [show binary.filter (fun b => (13 : Fin 14) ≤ b.2.2.2) = [] by decide] at hb
      cases hb
    · obtain ⟨b, hb, _⟩ := List.mem_map.1 h
      rw [show unary.filter (fun b => (13 : Fin 14) ≤ b.2.2) = [] by decide] at hb
      cases hb
  · exact h

theorem Fine.any {v : V} {t : T} (h : Fine E (.x 13) v t) (l : Fin 14) : Fine E (.x l) v t := ⟨has_up h.1 fun _ ha => atom_ops (ops13 ha) l, h.2⟩
theorem Fine.stmt {v : V} {t : T} (h : Fine E (.x 13) v t) : Fine E .stmt v t := ⟨has_up h.1 fun _ ha => atom_stmt (ops13 ha), h.2⟩

theorem Fine.paren {m : Mini} {t : T} (h : Fine E .stmt (.mini m) t) : Fine E (.x 13) (.mini m) (paren t) :=
  .mk (atom_ops (by simp [atoms]) 13) (.key (by decide) (.sh h (.key (by decide) .nil))) rfl

theorem Fine.base {m : Mini} {t : T} (h : Fine E .stmt (.mini m) t) : Fine E .base (.mini m) (Pretty.paren t) :=
  .mk (by simp [alts]) (.key (by decide) (.sh h (.key (by decide) .nil))) rfl

theorem stmt_mem {a : Pr × List (Kid Tm Sh)} (h : a ∈ stmts) : a ∈ alts .stmt := List.mem_append_right _ h

/-- A list with a separator. -/
theorem Fine.list {i j : Sh} {one more : Pr} {sep : Tm} {hsep : sep ≠ .eof} (hm : (more, [.sh i, .tok sep, .sh j]) ∈ alts i) (hg : wordOf sep ≠ [])
    (hs : ∀ ms x m, sem more [.minis ms, x, .mini m] = .ok (.minis (ms ++ [m]))) {ms' : List Mini} {ts' : List T}
    (h : List.Forall₂ (fun m t => Fine E j (.mini m) t) ms' ts') : ∀ {ms : List Mini} {acc : T}, Fine E i (.minis ms) acc →
    Fine E i (.minis (ms ++ ms')) (listT one more (key sep hsep) acc ts') := by
  induction h with
  | nil => intro ms acc ha; simpa [listT] using ha
  | cons hx _ ih =>
    intro ms acc ha
    rename_i m t ms' ts' _
    have := ih (.mk hm (.sh ha (.key (ha := hsep) hg (.sh hx .nil))) (hs _ _ _))
    simpa [listT] using this

theorem Fine.args1 {m : Mini} {t : T} {ms : List Mini} {ts : List T} (h1 : Fine E .arg (.mini m) t) (h : List.Forall₂ (fun m t => Fine E .arg (.mini m) t) ms ts) :
    Fine E .args1 (.minis (m :: ms)) (argsT (t :: ts)) :=
  Fine.list (by simp [alts]) (by decide) (fun _ _ _ => rfl) h (ms := [m]) (.mk (by simp [alts]) (.sh h1 .nil) rfl)

theorem Fine.empty : Fine E .empty .none (.node .empty []) := .mk (by simp [alts]) .nil rfl

theorem listT_root (one more : Pr) (sep : T) (acc : T) (t : T) (ts : List T) : ∃ a b, listT one more sep acc (t :: ts) = .node more [a, sep, b] := by
  induction ts generalizing acc t with
  | nil => exact ⟨_, _, rfl⟩
  | cons u us ih => exact ih _ _

theorem Fine.args {ms : List Mini} {ts : List T} (h : List.Forall₂ (fun m t => Fine E .arg (.mini m) t) ms ts) : Fine E .args (.minis ms) (argsT ts) := by
  cases h with
  | nil => exact .mk (by simp [alts]) (.sh .empty .nil) rfl
  | cons h1 h2 => exact ⟨has_up (Fine.args1 h1 h2).1 (by simp [alts]), (Fine.args1 h1 h2).2⟩

/-- None or at least two arguments. -/
theorem Fine.args2 {ms : List Mini} {ts : List T} (h : List.Forall₂ (fun m t => Fine E .arg (.mini m) t) ms ts) (hl : ms.length ≠ 1) :
    Fine E .args2 (.minis ms) (argsT ts) := by
  cases h with
  | nil => exact .mk (by simp [alts]) (.sh .empty .nil) rfl
  | cons h1 h2 =>
    rename_i m t ms ts
    have hf := Fine.args1 h1 h2
    cases h2 with
    | nil => simp at hl
    | cons h3 h4 =>
      rename_i m' t' ms' ts'
      obtain ⟨a, b, e⟩ := listT_root .args1 .argsMore (key .comma) (.node .args1 [t]) t' ts'
      refine ⟨?_, hf.2⟩
      have h5 := hf.1
      rw [show argsT (t :: t' :: ts') = .node .argsMore [a, key .comma, b] from e] at h5 ⊢
      cases h5 with
      | mk hp hk =>
        refine .mk ?_ hk
        simp only [shapes, alts, List.mem_cons, List.not_mem_nil, or_false, Prod.mk.injEq, reduceCtorEq, false_and, true_and, false_or] at hp ⊢
        exact hp

theorem Fine.params1 {m : Mini} {t : T} {ms : List Mini} {ts : List T} (h1 : Fine E .param (.mini m) t) (h : List.Forall₂ (fun m t => Fine E .param (.mini m) t) ms ts) :
    Fine E .params1 (.minis (m :: ms)) (paramsT (t :: ts)) :=
  Fine.list (by simp [alts]) (by decide) (fun _ _ _ => rfl) h (ms := [m]) (.mk (by simp [alts]) (.sh h1 .nil) rfl)

theorem Fine.params {ms : List Mini} {ts : List T} (h : List.Forall₂ (fun m t => Fine E .param (.mini m) t) ms ts) : Fine E .params (.minis ms) (paramsT ts) := by
  cases h with
  | nil => exact .mk (by simp [alts]) (.sh .empty .nil) rfl
  | cons h1 h2 => exact ⟨has_up (Fine.params1 h1 h2).1 (by simp [alts]), (Fine.params1 h1 h2).2⟩

theorem Fine.exprs {ms : List Mini} {ts : List T} (h : List.Forall₂ (fun m t => Fine E .stmt (.mini m) t) ms ts) (hne : ms ≠ []) :
    Fine E .exprs (.minis ms) (exprsT ts) := by
  cases h with
  | nil => exact absurd rfl hne
  | cons h1 h2 => exact Fine.list (by simp [alts]) (by decide) (fun _ _ _ => rfl) h2 (ms := [_]) (.mk (by simp [alts]) (.sh h1 .nil) rfl)

theorem Fine.cases {ms : List Mini} {ts : List T} (h : List.Forall₂ (fun m t => Fine E .asblock (.mini m) t) ms ts) : ∀ {ms' : List Mini} {acc : T},
    Fine E .asblocks (.minis ms') acc → Fine E .asblocks (.minis (ms' ++ ms)) (casesT acc ts) := by
  induction h with
  | nil => intro ms acc ha; simpa [casesT] using ha
  | cons hx _ ih =>
    intro ms acc ha
    have := ih (.mk (by simp [alts]) (.sh ha (.sh hx .nil)) rfl : Fine E .asblocks _ (.node .asblocksMore [_, _]))
    simpa [casesT] using this

theorem update_new {α : Type} (d : List (String × α)) (k : String) (v : α) (h : k ∉ d.map Prod.fst) : PyDict.update d [(k, v)] = d ++ [(k, v)] := by
  induction d with
  | nil => rfl
  | cons p d ih =>
    obtain ⟨j, w⟩ := p
    simp only [List.map_cons, List.mem_cons, not_or] at h
    have := ih h.2
    simp only [PyDict.update, List.foldl_cons, List.foldl_nil] at this ⊢
    simp [PyDict.set, Ne.symm h.1, this]

theorem Fine.assigns' {ps : List (String × Mini)} (h : ∀ p ∈ ps, isName p.1 = true ∧ Fine E (.x 13) (.mini p.2) (tree p.2)) :
    ∀ {qs : List (String × Mini)} {acc : T}, ((qs ++ ps).map Prod.fst).Nodup → Fine E .assigns (.mini (.assign qs false)) acc →
    Fine E .assigns (.mini (.assign (qs ++ ps) false)) (listT .assigns1 .assignsMore (key .comma) acc (assignTs ps)) := by
  induction ps with
  | nil => intro qs acc _ ha; simpa [listT, assignTs] using ha
  | cons p ps ih =>
    intro qs acc hd ha
    obtain ⟨k, m⟩ := p
    obtain ⟨hn, hf⟩ := h (k, m) (by simp)
    have h1 : Fine E .assign (.mini (.assign [(k, m)] false)) (.node .assignment [nameLeaf k, key .equal, tree m]) :=
      .mk (by simp [alts]) (.name hn (.key (by decide) (.sh (hf.any 1) .nil))) rfl
    have hk : k ∉ qs.map Prod.fst := by
      rw [List.map_append, List.nodup_append] at hd
      exact fun hk => hd.2.2 k hk k (by simp) rfl
    have h2 : Fine E .assigns (.mini (.assign (qs ++ [(k, m)]) false)) (.node .assignsMore [acc, key .comma, .node .assignment [nameLeaf k, key .equal, tree m]]) := by
      refine .mk (by simp [alts]) (.sh ha (.key (by decide) (.sh h1 .nil))) ?_
      rw [← update_new _ _ m hk]
      rfl
    have := ih (fun p hp => h p (by simp [hp])) (by simpa using hd) h2
    simpa [listT, assignTs] using this

theorem Fine.assigns {ps : List (String × Mini)} (h : ∀ p ∈ ps, isName p.1 = true ∧ Fine E (.x 13) (.mini p.2) (tree p.2)) (hd : (ps.map Prod.fst).Nodup)
    (hne : ps ≠ []) : Fine E .assigns (.mini (.assign ps false)) (assignsT (assignTs ps)) := by
  cases ps with
  | nil => exact absurd rfl hne
  | cons p ps =>
    obtain ⟨k, m⟩ := p
    obtain ⟨hn, hf⟩ := h (k, m) (by simp)
    have h1 : Fine E .assign (.mini (.assign [(k, m)] false)) (.node .assignment [nameLeaf k, key .equal, tree m]) :=
      .mk (by simp [alts]) (.name hn (.key (by decide) (.sh (hf.any 1) .nil))) rfl
    have h2 : Fine E .assigns (.mini (.assign [(k, m)] false)) (.node .assigns1 [.node .assignment [nameLeaf k, key .equal, tree m]]) :=
      .mk (by simp [alts]) (.sh h1 .nil) rfl
    exact Fine.assigns' (fun p hp => h p (by simp [hp])) (qs := [(k, m)]) (by simpa using hd) h2

theorem Fine.param {n : String} {m : Mini} {a : T} (hn : keyOk n = true) (h : Fine E .arg (.mini m) a) : Fine E .param (.mini (.param n m)) (paramT n a) := by
  unfold paramT
  split
  · next h1 => exact .mk (by simp [alts]) (.name h1 (.key (by decide) (.sh h .nil))) rfl
  · next h1 =>
    refine .mk (by simp [alts]) (.str ?_ (.key (by decide) (.sh h .nil))) rfl
    simpa [keyOk, h1] using hn

/-! ## The induction -/

/-- The shape of a tree. -/
def shOf : Mini → Sh
  | .param .. => .param
  | .bracketed _ => .bargs
  | .fcnDef .. => .fcndef
  | .asBlock .. => .asblock
  | _ => .x 13

theorem shOf_E {m : Mini} (h : isE m = true) : shOf m = .x 13 := by cases m <;> first | rfl | cases h
theorem shOf_C {m : Mini} (h : isC m = true) : shOf m = .asblock := by cases m <;> first | rfl | cases h

theorem Fine.arg {m : Mini} {t : T} (ha : isA m = true) (h : Fine E (shOf m) (.mini m) t) : Fine E .arg (.mini m) (argT m t) := by
  cases m <;> first | cases ha | skip
  case param => exact .mk (ks := [.sh .param]) (by simp [alts]) (.sh h .nil) rfl
  case bracketed => exact .mk (ks := [.sh .bargs]) (by simp [alts]) (.sh h .nil) rfl
  case fcnDef => exact .mk (ks := [.sh .fcndef]) (by simp [alts]) (.sh h .nil) rfl
  all_goals exact .mk (by simp [alts]) (.sh (Fine.any h 1) .nil) rfl

/-- Elements with their trees. -/
def FineAll (ms : List Mini) : Prop := ∀ m ∈ ms, Fine E (shOf m) (.mini m) (tree m)

theorem FineAll.args {ms : List Mini} (h : FineAll (E := E) ms) (ha : ms.all isA = true) : List.Forall₂ (fun m t => Fine E .arg (.mini m) t) ms (argTs ms) := by
  induction ms with
  | nil => exact .nil
  | cons m ms ih =>
    simp only [List.all_cons, Bool.and_eq_true] at ha
    exact .cons (.arg ha.1 (h m (by simp))) (ih (fun m hm => h m (by simp [hm])) ha.2)

theorem FineAll.exprs {ms : List Mini} (h : FineAll (E := E) ms) (ha : ms.all isE = true) : List.Forall₂ (fun m t => Fine E (.x 13) (.mini m) t) ms (trees ms) := by
  induction ms with
  | nil => exact .nil
  | cons m ms ih =>
    simp only [List.all_cons, Bool.and_eq_true] at ha
    exact .cons (shOf_E ha.1 ▸ h m (by simp)) (ih (fun m hm => h m (by simp [hm])) ha.2)

theorem FineAll.params {ms : List Mini} (h : FineAll (E := E) ms) (ha : ms.all Mini.isParam = true) :
    List.Forall₂ (fun m t => Fine E .param (.mini m) t) ms (trees ms) := by
  induction ms with
  | nil => exact .nil
  | cons m ms ih =>
    simp only [List.all_cons, Bool.and_eq_true] at ha
    have hm := h m (by simp)
    refine .cons ?_ (ih (fun m hm => h m (by simp [hm])) ha.2)
    cases m <;> first | exact hm | cases ha.1

theorem FineAll.cases {ms : List Mini} (h : FineAll (E := E) ms) (ha : ms.all isC = true) : List.Forall₂ (fun m t => Fine E .asblock (.mini m) t) ms (trees ms) := by
  induction ms with
  | nil => exact .nil
  | cons m ms ih =>
    simp only [List.all_cons, Bool.and_eq_true] at ha
    exact .cons (shOf_C ha.1 ▸ h m (by simp)) (ih (fun m hm => h m (by simp [hm])) ha.2)

/-- Parameters as elements. -/
def paramMs (ps : List (String × Mini)) : List Mini := ps.map fun p => .param p.1 p.2

theorem params_paramMs (ps : List (String × Mini)) : Pretty.params (paramMs ps) = ps := by
  induction ps with
  | nil => rfl
  | cons p ps ih => exact congrArg (p :: ·) ih

/-- Named elements. -/
def FineN (ps : List (String × Mini)) : Prop := ∀ p ∈ ps, keyOk p.1 = true ∧ isA p.2 = true ∧ Fine E (shOf p.2) (.mini p.2) (tree p.2)

theorem FineN.params {ps : List (String × Mini)} (h : FineN (E := E) ps) : List.Forall₂ (fun m t => Fine E .param (.mini m) t) (paramMs ps) (paramTs ps) := by
  induction ps with
  | nil => exact .nil
  | cons p ps ih =>
    obtain ⟨n, m⟩ := p
    obtain ⟨h1, h2, h3⟩ := h (n, m) (by simp)
    exact .cons (.param h1 (.arg h2 h3)) (ih fun p hp => h p (by simp [hp]))

theorem FineN.assigns {ps : List (String × Mini)} (h : FineN (E := E) ps) (hn : namesOk ps = true) :
    Fine E .assigns (.mini (.assign ps false)) (assignsT (assignTs ps)) := by
  simp only [namesOk, Bool.and_eq_true, decide_eq_true_eq, List.all_eq_true] at hn
  obtain ⟨⟨h1, h2⟩, h3⟩ := hn
  refine .assigns (fun p hp => ⟨(h2 p hp).1, ?_⟩) h3 ?_
  · exact shOf_E (h2 p hp).2 ▸ (h p hp).2.2
  · intro e; simp [e] at h1

theorem block_fine {ms : List Mini} (h : FineAll (E := E) ms) (ha : ms.all isE = true) (hne : ms ≠ []) :
    Fine E .block (.mini (.block ms)) (.node .blockE [key .lcurly, exprsT (trees ms), key .rcurly]) :=
  .mk (by simp [alts]) (.key (by decide) (.sh (.exprs ((h.exprs ha).imp fun _ _ h => h.stmt) hne) (.key (by decide) .nil))) rfl

theorem blockExpr_do {ms : List Mini} (ha : ms.all isE = true) (hne : ms ≠ []) : blockExpr ms = .call "do" ms := by
  cases ms with
  | nil => exact absurd rfl hne
  | cons m ms =>
    simp only [List.all_cons, Bool.and_eq_true] at ha
    unfold blockExpr
    rw [if_neg]
    simp only [List.all_cons, Bool.and_eq_true, not_and]
    intro h
    cases m <;> first | exact absurd ha.1 Bool.false_ne_true | exact absurd h Bool.false_ne_true

theorem do_fine {ms : List Mini} (h : FineAll (E := E) ms) (ha : ms.all isE = true) (hne : ms ≠ []) :
    Fine E .bexpr (.mini (.call "do" ms)) (.node .sBlock [.node .blockE [key .lcurly, exprsT (trees ms), key .rcurly]]) := by
  refine .mk (by simp [alts]) (.sh (block_fine h ha hne) .nil) ?_
  rw [← blockExpr_do ha hne]
  rfl

theorem bins_all (o : Bin) : o ∈ bins := by cases o <;> decide

theorem binOf_name {n : String} {o : Bin} (h : binOf n = some o) : o.name = n := by
  have := List.find?_some h
  simpa using this

theorem bin_mem (o : Bin) : ∃ a b l, (o, a, b, l) ∈ binary := by
  have h : ∀ o ∈ bins, ∃ b ∈ binary, b.1 = o := by decide
  obtain ⟨⟨_, a, b, l⟩, hb, rfl⟩ := h o (bins_all o)
  exact ⟨a, b, l, hb⟩

theorem bin_fine {o : Bin} {a b : Mini} {s t : T} (ha : Fine E (.x 13) (.mini a) s) (hb : Fine E (.x 13) (.mini b) t) :
    Fine E .stmt (.mini (.call o.name [a, b])) (.node (.bin o) [s, key o.tm o.real, t]) := by
  obtain ⟨x, y, l, hm⟩ := bin_mem o
  refine .mk (ks := [.sh (.x x), .tok o.tm, .sh (.x y)]) ?_ (.sh (ha.any x) (.key ?_ (.sh (hb.any y) .nil))) ?_
  · refine List.mem_append_left _ (List.mem_append_left _ (List.mem_append_left _ (List.mem_map.2 ⟨(o, x, y, l), ?_, rfl⟩)))
    refine List.mem_filter.2 ⟨hm, ?_⟩
    have : ∀ b ∈ binary, decide ((1 : Fin 14) ≤ b.2.2.2) = true := by decide
    exact this _ hm
  · cases o <;> decide
  · cases o <;> rfl

theorem un_fine {n : String} {f : T → T} {a : Mini} {s : T} (hf : unOf n = some f) (ha : Fine E (.x 13) (.mini a) s) : Fine E .stmt (.mini (.call n [a])) (f s) := by
  unfold unOf at hf
  split at hf
  · next h =>
    obtain rfl := Option.some.inj hf
    subst h
    exact .mk (List.mem_append_left _ (List.mem_append_left _ (List.mem_append_right _ (List.mem_map.2 ⟨(.uminus, .minus, 11), by decide, rfl⟩)))) (.key (by decide) (.sh (ha.any 11) .nil)) rfl
  split at hf
  · next h =>
    obtain rfl := Option.some.inj hf
    subst h
    exact .mk (List.mem_append_left _ (List.mem_append_left _ (List.mem_append_right _ (List.mem_map.2 ⟨(.bitnot, .bitnot, 11), by decide, rfl⟩)))) (.key (by decide) (.sh (ha.any 11) .nil)) rfl
  split at hf
  · next h =>
    obtain rfl := Option.some.inj hf
    subst h
    exact .mk (List.mem_append_left _ (List.mem_append_left _ (List.mem_append_right _ (List.mem_map.2 ⟨(.not, .not, 4), by decide, rfl⟩)))) (.key (by decide) (.sh (ha.any 4) .nil)) rfl
  · cases hf

theorem call_fine {n : String} {as : List Mini} (hc : callOk n as = true) (h : FineAll (E := E) as) :
    Fine E (.x 13) (.mini (.call n as)) (callT n (trees as) (argTs as)) := by
  unfold callOk at hc
  unfold callT
  by_cases hn : n = "do"
  · rw [if_pos hn] at hc ⊢
    subst hn
    simp only [Bool.and_eq_true, Bool.not_eq_true'] at hc
    have := do_fine h hc.2 (by rintro rfl; simp at hc)
    exact ⟨has_up this.1 fun a ha => atom_ops (by simp only [alts, List.mem_singleton] at ha; subst ha; simp [atoms]) 13, this.2⟩
  · rw [if_neg hn] at hc ⊢
    have other : isName n = true → as.all isA = true → Fine E (.x 13) (.mini (.call n as)) (.node .call [nameLeaf n, key .lparen, argsT (argTs as), key .rparen]) :=
      fun h1 h2 => .mk (atom_ops (by simp [atoms]) 13) (.name h1 (.key (by decide) (.sh (.args (h.args h2)) (.key (by decide) .nil)))) rfl
    have hc' : ∀ {l : List Mini}, (isName n && l.all isA) = true → isName n = true ∧ l.all isA = true := fun h => by simpa using h
    match as, hu : unOf n, hb : binOf n with
    | [], _, _ =>
      rw [hu, hb] at hc
      have := hc' hc
      exact other this.1 this.2
    | [a], some f, _ =>
      rw [hu, hb] at hc
      have ha : Fine E (.x 13) (.mini a) (tree a) := shOf_E hc ▸ h a (by simp)
      exact (un_fine hu ha).paren
    | [a], none, _ =>
      rw [hu, hb] at hc
      have := hc' hc
      exact other this.1 this.2
    | [a, b], _, some o =>
      rw [hu, hb] at hc
      have hc : (isE a && isE b) = true := hc
      simp only [Bool.and_eq_true] at hc
      have ha : Fine E (.x 13) (.mini a) (tree a) := shOf_E hc.1 ▸ h a (by simp)
      have hb' : Fine E (.x 13) (.mini b) (tree b) := shOf_E hc.2 ▸ h b (by simp)
      rw [← binOf_name hb]
      exact (bin_fine ha hb').paren
    | [a, b], _, none =>
      rw [hu, hb] at hc
      have := hc' hc
      exact other this.1 this.2
    | a :: b :: c :: l, _, _ =>
      rw [hu, hb] at hc
      have := hc' hc
      exact other this.1 this.2

/-- The else clause. -/
def FineO (i : Option Mini) : Prop := ∀ m, i = some m → Fine E (.x 13) (.mini m) (tree m)

theorem treeO_none : treeO none = none := rfl
theorem treeO_some (m : Mini) : treeO (some m) = some (tree m) := rfl

theorem to_fine {n : String} {as : List Mini} {d : Bool} {r : Mini} {i : Option Mini} (hn : isName n = true) (has : as.all isA = true) (h : FineAll (E := E) as)
    (hr : isA r = true) (hr' : Fine E (shOf r) (.mini r) (tree r)) (hd : d = true → isE r = true ∧ i = none) (hi : FineO (E := E) i) :
    Fine E .stmt (.mini (.to_ n as d r i)) (toT n (argTs as) d (tree r) (argT r (tree r)) (treeO i)) := by
  have ha := Fine.args (h.args has)
  have hra := Fine.arg hr hr'
  cases i with
  | none =>
    rw [treeO_none]
    unfold toT
    cases d with
    | true =>
      have hre : Fine E (.x 13) (.mini r) (tree r) := shOf_E (hd rfl).1 ▸ hr'
      exact .mk (stmt_mem (by simp [stmts])) (.name hn (.key (by decide) (.sh ha (.key (by decide) (.key (by decide) (.sh (hre.any 1) .nil)))))) rfl
    | false =>
      cases as with
      | nil => exact .mk (stmt_mem (by simp [stmts])) (.name hn (.key (by decide) (.sh hra .nil))) rfl
      | cons a as => exact .mk (stmt_mem (by simp [stmts])) (.name hn (.key (by decide) (.sh ha (.key (by decide) (.key (by decide) (.sh hra .nil)))))) rfl
  | some i =>
    rw [treeO_some]
    unfold toT
    have hi := (hi i rfl).any 1
    cases d with
    | true => exact absurd (hd rfl).2 (by simp)
    | false =>
      cases as with
      | nil => exact .mk (stmt_mem (by simp [stmts])) (.name hn (.key (by decide) (.sh hra (.key (by decide) (.sh hi .nil))))) rfl
      | cons a as =>
        exact .mk (stmt_mem (by simp [stmts])) (.name hn (.key (by decide) (.sh ha (.key (by decide) (.key (by decide) (.sh hra (.key (by decide) (.sh hi .nil)))))))) rfl

/-- The clauses of `if`. -/
def FineP (ps : List (Mini × Mini)) : Prop := ∀ p ∈ ps, Fine E (.x 13) (.mini p.1) (tree p.1) ∧ Fine E (.x 13) (.mini p.2) (tree p.2)

theorem if_fine {ps : List (Mini × Mini)} {e : Option Mini} (hne : ps ≠ []) (hp : FineP (E := E) ps) (he : FineO (E := E) e)
    (hi : ∀ m, e = some m → isIf m = false) : Fine E .stmt (.mini (.if_ ps e)) (ifT (pairTs ps) (treeO e)) := by
  induction ps with
  | nil => exact absurd rfl hne
  | cons p ps ih =>
    obtain ⟨a, b⟩ := p
    obtain ⟨h1, h2⟩ := hp (a, b) (by simp)
    cases ps with
    | nil =>
      cases e with
      | none => exact .mk (stmt_mem (by simp [stmts])) (.key (by decide) (.key (by decide) (.sh h1.stmt (.key (by decide) (.sh h2 .nil))))) rfl
      | some m =>
        have h3 := (he m rfl).stmt
        have hm := hi m rfl
        refine .mk (stmt_mem (by simp [stmts])) (.key (by decide) (.key (by decide) (.sh h1.stmt (.key (by decide) (.sh h2 (.key (by decide) (.sh h3 .nil))))))) ?_
        cases m <;> first | rfl | cases hm
    | cons q ps =>
      have h3 := ih (by simp) fun p hp' => hp p (by simp [hp'])
      obtain ⟨c, d⟩ := q
      exact .mk (stmt_mem (by simp [stmts])) (.key (by decide) (.key (by decide) (.sh h1.stmt (.key (by decide) (.sh h2 (.key (by decide) (.sh h3 .nil))))))) rfl

theorem flag_fine {n : String} (hn : keyOk n = true) : Fine E .param (.mini (.param n (.dotName "true"))) (flagT n true) :=
  .param hn (.mk (by simp [alts]) (.sh (.mk (atom_ops (by simp [atoms]) 1) (.name (by decide +kernel) .nil) rfl) .nil) rfl)

theorem try_fine {b : Mini} {fs : Option (List Mini)} (hb : Fine E (.x 13) (.mini b) (tree b)) (hd : fs = none → Fine E .bexpr (.mini b) (tree b))
    (hf : ∀ l, fs = some l → l.all isE = true ∧ FineAll (E := E) l) : Fine E .stmt (.mini (.try_ b fs)) (tryT (tree b) (filterTs fs)) := by
  cases fs with
  | none => exact .mk (stmt_mem (by simp [stmts])) (.key (by decide) (.sh (hd rfl) .nil)) rfl
  | some l =>
    obtain ⟨h1, h2⟩ := hf l rfl
    have hA : l.all isA = true := by
      rw [List.all_eq_true] at h1 ⊢
      intro m hm
      have := h1 m hm
      cases m <;> first | rfl | cases this
    have h3 := h2.args hA
    match l with
    | [] => exact .mk (stmt_mem (by simp [stmts])) (.key (by decide) (.key (by decide) (.sh (.args2 h3 (by simp)) (.key (by decide) (.sh hb .nil))))) rfl
    | [f] =>
      have hf : Fine E (.x 13) (.mini f) (tree f) := shOf_E (by simpa using h1) ▸ h2 f (by simp)
      exact .mk (stmt_mem (by simp [stmts])) (.key (by decide) (.key (by decide) (.sh (hf.any 1) (.key (by decide) (.sh hb .nil))))) rfl
    | f :: g :: l => exact .mk (stmt_mem (by simp [stmts])) (.key (by decide) (.key (by decide) (.sh (.args2 h3 (by simp)) (.key (by decide) (.sh hb .nil))))) rfl

theorem cast_fine {e : Mini} {as : List Mini} {p : Bool} (he : Fine E (.x 13) (.mini e) (tree e)) (hne : as ≠ [])
    (h : List.Forall₂ (fun m t => Fine E .asblock (.mini m) t) as (trees as)) : Fine E (.x 13) (.mini (.cast e as p)) (tree (.cast e as p)) := by
  unfold tree
  refine Fine.paren ?_
  cases h with
  | nil => exact absurd rfl hne
  | cons h1 h2 =>
    have h3 := Fine.cases h2 (.mk (p := .asblocks1) (by simp [alts]) (.sh h1 .nil) rfl)
    cases p with
    | false =>
      exact .mk (stmt_mem (by simp [stmts])) (.key (by decide) (.key (by decide) (.sh (he.any 1) (.key (by decide) (.key (by decide) (.sh h3 (.key (by decide) .nil))))))) rfl
    | true =>
      exact .mk (stmt_mem (by simp [stmts])) (.key (by decide) (.key (by decide) (.sh (he.any 1) (.key (by decide) (.sh (flag_fine (by decide +kernel))
        (.key (by decide) (.key (by decide) (.sh h3 (.key (by decide) .nil))))))))) rfl

theorem num_fine {v : Val} (h : NumOk E v) : Good E ⟨.number, .num v, by decide⟩ := by
  cases v <;> first | exact h | trivial

theorem bexpr_fine {b : Mini} (h : isDo b = true) (hb : Can E b) (hf : Fine E (.x 13) (.mini b) (tree b)) : Fine E .bexpr (.mini b) (tree b) := by
  cases b with
  | call n as =>
    simp only [isDo, Bool.and_eq_true, beq_iff_eq] at h
    refine ⟨?_, hf.2⟩
    have h1 := hf.1
    unfold tree callT at h1 ⊢
    rw [if_pos h.1] at h1 ⊢
    cases h1 with
    | mk hp hk =>
      refine .mk ?_ hk
      have := ops13 hp
      simp only [atoms, List.mem_cons, List.not_mem_nil, or_false, Prod.mk.injEq, reduceCtorEq, false_and, true_and, false_or] at this
      simp [shapes, alts, this]
  | _ => cases h

mutual
/-- **What can be written has a tree that is read and has the right value.** -/
theorem fine : ∀ m : Mini, Can E m → Fine E (shOf m) (.mini m) (tree m)
  | .subs _, h => absurd h (by unfold Can; exact id)
  | .genGet e as, h => by
    unfold Can at h
    obtain ⟨h1, h2, h3, h4⟩ := h
    have he : Fine E (.x 13) (.mini e) (tree e) := shOf_E h1 ▸ fine e h2
    unfold tree
    exact .paren (.mk (stmt_mem (by simp [stmts])) (.sh (.base he.stmt) (.key (by decide) (.sh (.args (FineAll.args (fines as h4) h3)) (.key (by decide) .nil)))) rfl)
  | .get n as, h => by
    unfold Can at h
    obtain ⟨h1, h2, h3⟩ := h
    unfold tree
    exact .mk (atom_ops (by simp [atoms]) 13) (.name h1 (.key (by decide) (.sh (.args (FineAll.args (fines as h3) h2)) (.key (by decide) .nil)))) rfl
  | .to_ n as d r i, h => by
    unfold Can at h
    obtain ⟨h1, h2, h3, h4, h5, h6, h7⟩ := h
    unfold tree
    exact .paren (to_fine h1 h2 (fines as h3) h5 (fine r h4) h6 (fineO i h7))
  | .enumSymbol t v, h => by
    unfold Can at h
    unfold tree
    exact .mk (atom_ops (by simp [atoms]) 13) (.name h.1 (.key (by decide) (.name h.2 .nil))) rfl
  | .dotName n, h => by
    unfold Can at h
    unfold tree
    exact .mk (atom_ops (by simp [atoms]) 13) (.name h .nil) rfl
  | .number v, h => by
    unfold Can at h
    unfold tree
    exact .mk (atom_ops (by simp [atoms]) 13) (.tok rfl (num_fine h) .nil) rfl
  | .string s, h => by
    unfold Can at h
    unfold tree
    exact .mk (atom_ops (by simp [atoms]) 13) (.str h .nil) rfl
  | .call n as, h => by
    unfold Can at h
    unfold tree
    exact call_fine h.1 (fines as h.2)
  | .block es, h => by
    unfold Can at h
    unfold tree
    refine .mk (atom_ops (by simp [atoms]) 13) (.sh (.mk (by simp [alts]) (.key (by decide) (.sh (.params (FineAll.params (fines es h.2) h.1)) (.key (by decide) .nil))) rfl : Fine E .block _ _) .nil) ?_
    show Except.ok (V.mini (blockExpr es)) = _
    rw [blockExpr, if_pos h.1]
  | .bracketed as, h => by
    unfold Can at h
    unfold tree
    exact .mk (ks := [.tok .lbracket, .sh .args, .tok .rbracket]) (i := .bargs) (by simp [alts]) (.key (by decide) (.sh (.args (FineAll.args (fines as h.2) h.1)) (.key (by decide) .nil))) rfl
  | .param n m, h => by
    unfold Can at h
    unfold tree
    exact .param h.1 (.arg h.2.1 (fine m h.2.2))
  | .fcnDef ps r d, h => by
    unfold Can at h
    obtain ⟨h1, h2, h3, h4, h5, h6⟩ := h
    have hr : Fine E (.x 13) (.mini r) (tree r) := shOf_E h2 ▸ fine r h3
    have hp := Fine.params (FineN.params (fineN ps h1))
    have hr' : Fine E .rettype (.mini r) (.node .rettype [key .rarrow, tree r]) := .mk (by simp [alts]) (.key (by decide) (.sh (hr.any 1) .nil)) rfl
    unfold tree
    refine .mk (i := .fcndef) (ks := [.tok .fcn, .tok .lparen, .sh .params, .sh .rettype, .tok .rparen, .sh .block]) (by simp [alts])
      (.key (by decide) (.key (by decide) (.sh hp (.sh hr' (.key (by decide) (.sh (block_fine (fines d h6) h5 h4) .nil)))))) ?_
    show Except.ok (V.mini (.fcnDef (params (paramMs ps)) r d)) = _
    rw [params_paramMs]
  | .if_ ps e, h => by
    unfold Can at h
    obtain ⟨h1, h2, h3, h4⟩ := h
    unfold tree
    exact .paren (if_fine h1 (fineP ps h2) (fineO e h3) h4)
  | .asBlock t n b, h => by
    unfold Can at h
    obtain ⟨h1, h2, h3, h4, h5⟩ := h
    have hb : Fine E (.x 13) (.mini b) (tree b) := shOf_E h4 ▸ fine b h5
    unfold tree
    exact .mk (i := .asblock) (ks := [.tok .as_, .tok .lparen, .sh .param, .tok .rparen, .sh (.x 13)]) (by simp [alts])
      (.key (by decide) (.key (by decide) (.sh (.param h1 (.arg h2 (fine t h3))) (.key (by decide) (.sh hb .nil))))) rfl
  | .cast e as p, h => by
    unfold Can at h
    obtain ⟨h1, h2, h3, h4, h5⟩ := h
    exact cast_fine (shOf_E h1 ▸ fine e h2) h3 (FineAll.cases (fines as h5) h4)
  | .ifNotNull ps t e, h => by
    unfold Can at h
    obtain ⟨h1, h2, h3, h4⟩ := h
    have ht : Fine E (.x 13) (.mini t) (tree t) := shOf_E h2 ▸ fine t h3
    have hp := Fine.params (FineN.params (fineN ps h1))
    have he := fineO e h4
    unfold tree
    refine .paren ?_
    cases e with
    | none =>
      refine .mk (stmt_mem (by simp [stmts])) (.key (by decide) (.key (by decide) (.sh hp (.key (by decide) (.sh ht .nil))))) ?_
      show Except.ok (V.mini (.ifNotNull (params (paramMs ps)) t none)) = _
      rw [params_paramMs]
    | some e =>
      refine .mk (stmt_mem (by simp [stmts])) (.key (by decide) (.key (by decide) (.sh hp (.key (by decide) (.sh ht (.key (by decide) (.sh (he e rfl) .nil))))))) ?_
      show Except.ok (V.mini (.ifNotNull (params (paramMs ps)) t (some e))) = _
      rw [params_paramMs]
  | .unpack b ps t e, h => by
    unfold Can at h
    obtain ⟨h0, h0', h1, h2, h3, h4⟩ := h
    have hb : Fine E (.x 13) (.mini b) (tree b) := shOf_E h0 ▸ fine b h0'
    have ht : Fine E (.x 13) (.mini t) (tree t) := shOf_E h2 ▸ fine t h3
    have hp := Fine.params (FineN.params (fineN ps h1))
    have he := fineO e h4
    unfold tree
    refine .paren ?_
    cases e with
    | none =>
      refine .mk (stmt_mem (by simp [stmts])) (.key (by decide) (.key (by decide) (.sh (hb.any 1) (.key (by decide) (.sh hp (.key (by decide) (.sh ht .nil))))))) ?_
      show Except.ok (V.mini (.unpack b (params (paramMs ps)) t none)) = _
      rw [params_paramMs]
    | some e =>
      refine .mk (stmt_mem (by simp [stmts])) (.key (by decide) (.key (by decide) (.sh (hb.any 1) (.key (by decide) (.sh hp (.key (by decide) (.sh ht (.key (by decide)
        (.sh (he e rfl) .nil))))))))) ?_
      show Except.ok (V.mini (.unpack b (params (paramMs ps)) t (some e))) = _
      rw [params_paramMs]
  | .while_ p b pre, h => by
    unfold Can at h
    obtain ⟨h1, h2, h3, h4⟩ := h
    have hp : Fine E (.x 13) (.mini p) (tree p) := shOf_E h1 ▸ fine p h2
    have hb : Fine E (.x 13) (.mini b) (tree b) := shOf_E h3 ▸ fine b h4
    unfold tree
    refine .paren ?_
    cases pre with
    | true => exact .mk (stmt_mem (by simp [stmts])) (.key (by decide) (.key (by decide) (.sh hp.stmt (.key (by decide) (.sh hb .nil))))) rfl
    | false => exact .mk (stmt_mem (by simp [stmts])) (.key (by decide) (.sh hb (.key (by decide) (.key (by decide) (.sh hp.stmt (.key (by decide) .nil)))))) rfl
  | .for_ i p s b, h => by
    unfold Can at h
    obtain ⟨h1, h2, h3, h4, h5, h6, h7, h8⟩ := h
    have hp : Fine E (.x 13) (.mini p) (tree p) := shOf_E h3 ▸ fine p h4
    have hb : Fine E (.x 13) (.mini b) (tree b) := shOf_E h7 ▸ fine b h8
    unfold tree
    exact .paren (.mk (stmt_mem (by simp [stmts])) (.key (by decide) (.key (by decide) (.sh (FineN.assigns (fineN i h2) h1) (.key (by decide) (.sh (hp.any 1) (.key (by decide)
      (.sh (FineN.assigns (fineN s h6) h5) (.key (by decide) (.sh hb .nil))))))))) rfl)
  | .foreach n a b q, h => by
    unfold Can at h
    obtain ⟨h1, h2, h3, h4, h5⟩ := h
    have hb : Fine E (.x 13) (.mini b) (tree b) := shOf_E h4 ▸ fine b h5
    have ha := Fine.param h1 (.arg h2 (fine a h3))
    unfold tree
    refine .paren ?_
    cases q with
    | false => exact .mk (stmt_mem (by simp [stmts])) (.key (by decide) (.key (by decide) (.sh ha (.key (by decide) (.sh hb .nil))))) rfl
    | true =>
      exact .mk (stmt_mem (by simp [stmts])) (.key (by decide) (.key (by decide) (.sh ha (.key (by decide) (.sh (flag_fine (by decide +kernel)) (.key (by decide)
        (.sh hb .nil))))))) rfl
  | .forkeyval k v m b, h => by
    unfold Can at h
    obtain ⟨h0, h1, h2, h3, h4, h5⟩ := h
    have hb : Fine E (.x 13) (.mini b) (tree b) := shOf_E h4 ▸ fine b h5
    have ha := Fine.param h1 (.arg h2 (fine m h3))
    unfold tree
    refine .paren ?_
    split
    · next hk => exact .mk (stmt_mem (by simp [stmts])) (.key (by decide) (.key (by decide) (.name hk (.key (by decide) (.sh ha (.key (by decide) (.sh hb .nil))))))) rfl
    · next hk =>
      refine .mk (stmt_mem (by simp [stmts])) (.key (by decide) (.key (by decide) (.str ?_ (.key (by decide) (.sh ha (.key (by decide) (.sh hb .nil))))))) rfl
      simpa [keyOk, hk] using h0
  | .try_ b fs, h => by
    unfold Can at h
    obtain ⟨h1, h2, h3, h4⟩ := h
    have hb : Fine E (.x 13) (.mini b) (tree b) := shOf_E h1 ▸ fine b h2
    unfold tree
    exact .paren (try_fine hb (fun e => bexpr_fine (h4 e) h2 hb) (fineF fs h3))
  | .genAssign e as r, h => by
    unfold Can at h
    obtain ⟨h1, h2, h3, h4, h5, h6⟩ := h
    have he : Fine E (.x 13) (.mini e) (tree e) := shOf_E h1 ▸ fine e h2
    have hr : Fine E (.x 13) (.mini r) (tree r) := shOf_E h5 ▸ fine r h6
    unfold tree
    exact .paren (.mk (stmt_mem (by simp [stmts])) (.sh (.base he.stmt) (.key (by decide) (.sh (.args (FineAll.args (fines as h4) h3)) (.key (by decide) (.key (by decide)
      (.sh (hr.any 1) .nil)))))) rfl)
  | .assign ps var, h => by
    unfold Can at h
    have ha := FineN.assigns (fineN ps h.2) h.1
    unfold tree
    refine .paren ?_
    cases var with
    | true => exact .mk (stmt_mem (by simp [stmts])) (.key (by decide) (.sh ha .nil)) rfl
    | false => exact .mk (stmt_mem (by simp [stmts])) (.sh ha .nil) rfl
theorem fines : ∀ ms : List Mini, Cans E ms → FineAll (E := E) ms
  | [], _ => fun _ h => nomatch h
  | m :: ms, h => by
    unfold Cans at h
    have h1 := fine m h.1
    have h2 := fines ms h.2
    intro x hx
    rcases List.mem_cons.1 hx with rfl | hx
    · exact h1
    · exact h2 x hx
theorem fineO : ∀ i : Option Mini, CanO E i → FineO (E := E) i
  | none, _ => fun _ h => nomatch h
  | some m, h => by
    unfold CanO at h
    intro x hx
    obtain rfl := Option.some.inj hx
    exact shOf_E h.1 ▸ fine m h.2
theorem fineN : ∀ ps : List (String × Mini), CanN E ps → FineN (E := E) ps
  | [], _ => fun _ h => nomatch h
  | (n, m) :: ps, h => by
    unfold CanN at h
    have h1 := fine m h.2.2.1
    have h2 := fineN ps h.2.2.2
    intro x hx
    rcases List.mem_cons.1 hx with rfl | hx
    · exact ⟨h.1, h.2.1, h1⟩
    · exact h2 x hx
theorem fineP : ∀ ps : List (Mini × Mini), CanP E ps → FineP (E := E) ps
  | [], _ => fun _ h => nomatch h
  | (a, b) :: ps, h => by
    unfold CanP at h
    obtain ⟨h1, h2, h3, h4, h5⟩ := h
    have ha := fine a h2
    have hb := fine b h4
    have hps := fineP ps h5
    intro x hx
    rcases List.mem_cons.1 hx with rfl | hx
    · exact ⟨shOf_E h1 ▸ ha, shOf_E h3 ▸ hb⟩
    · exact hps x hx
theorem fineF : ∀ fs : Option (List Mini), CanF E fs → ∀ l, fs = some l → l.all isE = true ∧ FineAll (E := E) l
  | none, _ => fun _ h => nomatch h
  | some l, h => by
    unfold CanF at h
    intro x hx
    obtain rfl := Option.some.inj hx
    exact ⟨h.1, fines l h.2⟩
end

end

end Verif.Pretty
