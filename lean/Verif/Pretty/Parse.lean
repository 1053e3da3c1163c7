import Verif.Pretty.Print
import Verif.Pretty.Limits

/-!
# Reading PrettyPFA expressions (prettypfa.py 2097-2134)

`Reads E st text r`: `Parser(False).parse(text, subs)` gives `r`.  What a text means is unique (`Reads.unique`), and a text written from an expression by `mini` and
`tree` means that expression (`written_means_partial`).

Simplification: all tokens are made before the parser begins, so an error of the lexer comes before one of the parser; and exceptions of the
functions of productions are raised when the whole text has been read, so a later syntax error comes before them (ply raises them as soon as the production is complete).
-/

namespace Verif.Pretty
open Avro Ast Reader Lr Lex

/-! ## The functions have what they need -/

/-- What the functions give for a symbol. -/
def Typed : Sym Tm Nt → V → Prop
  | .t a, v => ∃ k : Tok, v = .tok k ∧ k.kind = a
  | .n .expressions, v | .n .arguments, v | .n .parameters, v | .n .asblocks, v => ∃ l, v = .minis l
  | .n .parameter, v => ∃ n m, v = .mini (.param n m)
  | .n .block, v => ∃ l, v = .mini (.block l)
  | .n .assignment, v | .n .assignments, v => ∃ l b, v = .mini (.assign l b)
  | .n .empty, v => v = .none
  | .n _, v => ∃ m, v = .mini m

/-- Symbols of expressions. -/
def ofExpr : Sym Tm Nt → Bool
  | .t _ => true
  | .n a => a ∈ [Nt.expressions, .block, .bracketedargs, .argument, .arguments, .parameters, .parameter, .expression, .rettype, .fcndef, .asblock, .asblocks,
      .assignment, .assignments, .empty]

theorem ofExpr_rhs {p : Pr} (h : ofExpr (.n (lhs p)) = true) : (∀ s ∈ rhs false p, ofExpr s = true) := by
  cases p <;> first | exact absurd h (by decide) | (rename_i o; cases o <;> decide) | decide

theorem flag_cases (m : Mini) : (∃ b, flag m = .ok b) ∨ flag m = .error pretty := by
  unfold flag
  split
  · exact .inl ⟨_, rfl⟩
  · exact .inl ⟨_, rfl⟩
  · exact .inr rfl

theorem flagOf_cases (k n : String) (m : Mini) : (∃ b, flagOf k n m = .ok b) ∨ flagOf k n m = .error pretty := by
  unfold flagOf
  split
  · exact .inr rfl
  · exact flag_cases m

theorem flag_typed {r : Res Bool} {f : Bool → Mini} (h : (∃ b, r = .ok b) ∨ r = .error pretty) :
    (∃ v, (andThen r fun q => Except.ok (V.mini (f q))) = .ok v ∧ Typed (.n .expression) v) ∨ (andThen r fun q => Except.ok (V.mini (f q))) = .error pretty := by
  rcases h with ⟨b, rfl⟩ | rfl
  · exact .inl ⟨_, rfl, _, rfl⟩
  · exact .inr rfl

/-- Every function finds values of the classes that it expects, and its own is what others expect. -/
theorem sem_typed {p : Pr} (hp : ofExpr (.n (lhs p)) = true) {vs : List V} (h : List.Forall₂ Typed (rhs false p) vs) :
    (∃ v, sem p vs = .ok v ∧ Typed (.n (lhs p)) v) ∨ sem p vs = .error pretty := by
  cases p
  case exprs1 =>
    obtain ⟨_, _, ⟨_, rfl⟩, h1, rfl⟩ := List.forall₂_cons_left_iff.1 h
    cases h1
    exact .inl ⟨_, rfl, ⟨_, rfl⟩⟩
  case exprsMore =>
    obtain ⟨_, _, ⟨_, rfl⟩, h1, rfl⟩ := List.forall₂_cons_left_iff.1 h
    obtain ⟨_, _, ⟨_, rfl, _⟩, h2, rfl⟩ := List.forall₂_cons_left_iff.1 h1
    obtain ⟨_, _, ⟨_, rfl⟩, h3, rfl⟩ := List.forall₂_cons_left_iff.1 h2
    cases h3
    exact .inl ⟨_, rfl, ⟨_, rfl⟩⟩
  case exprsSemi =>
    obtain ⟨_, _, ⟨_, rfl⟩, h1, rfl⟩ := List.forall₂_cons_left_iff.1 h
    obtain ⟨_, _, ⟨_, rfl, _⟩, h2, rfl⟩ := List.forall₂_cons_left_iff.1 h1
    cases h2
    exact .inl ⟨_, rfl, ⟨_, rfl⟩⟩
  case blockE =>
    obtain ⟨_, _, ⟨_, rfl, _⟩, h1, rfl⟩ := List.forall₂_cons_left_iff.1 h
    obtain ⟨_, _, ⟨_, rfl⟩, h2, rfl⟩ := List.forall₂_cons_left_iff.1 h1
    obtain ⟨_, _, ⟨_, rfl, _⟩, h3, rfl⟩ := List.forall₂_cons_left_iff.1 h2
    cases h3
    exact .inl ⟨_, rfl, ⟨_, rfl⟩⟩
  case blockP =>
    obtain ⟨_, _, ⟨_, rfl, _⟩, h1, rfl⟩ := List.forall₂_cons_left_iff.1 h
    obtain ⟨_, _, ⟨_, rfl⟩, h2, rfl⟩ := List.forall₂_cons_left_iff.1 h1
    obtain ⟨_, _, ⟨_, rfl, _⟩, h3, rfl⟩ := List.forall₂_cons_left_iff.1 h2
    cases h3
    exact .inl ⟨_, rfl, ⟨_, rfl⟩⟩
  case bracketed =>
    obtain ⟨_, _, ⟨_, rfl, _⟩, h1, rfl⟩ := List.forall₂_cons_left_iff.1 h
    obtain ⟨_, _, ⟨_, rfl⟩, h2, rfl⟩ := List.forall₂_cons_left_iff.1 h1
    obtain ⟨_, _, ⟨_, rfl, _⟩, h3, rfl⟩ := List.forall₂_cons_left_iff.1 h2
    cases h3
    exact .inl ⟨_, rfl, ⟨_, rfl⟩⟩
  case argE =>
    obtain ⟨_, _, ⟨_, rfl⟩, h1, rfl⟩ := List.forall₂_cons_left_iff.1 h
    cases h1
    exact .inl ⟨_, rfl, ⟨_, rfl⟩⟩
  case argP =>
    obtain ⟨_, _, ⟨_, _, rfl⟩, h1, rfl⟩ := List.forall₂_cons_left_iff.1 h
    cases h1
    exact .inl ⟨_, rfl, ⟨_, rfl⟩⟩
  case argB =>
    obtain ⟨_, _, ⟨_, rfl⟩, h1, rfl⟩ := List.forall₂_cons_left_iff.1 h
    cases h1
    exact .inl ⟨_, rfl, ⟨_, rfl⟩⟩
  case argF =>
    obtain ⟨_, _, ⟨_, rfl⟩, h1, rfl⟩ := List.forall₂_cons_left_iff.1 h
    cases h1
    exact .inl ⟨_, rfl, ⟨_, rfl⟩⟩
  case args0 =>
    obtain ⟨_, _, rfl, h1, rfl⟩ := List.forall₂_cons_left_iff.1 h
    cases h1
    exact .inl ⟨_, rfl, ⟨_, rfl⟩⟩
  case args1 =>
    obtain ⟨_, _, ⟨_, rfl⟩, h1, rfl⟩ := List.forall₂_cons_left_iff.1 h
    cases h1
    exact .inl ⟨_, rfl, ⟨_, rfl⟩⟩
  case argsMore =>
    obtain ⟨_, _, ⟨_, rfl⟩, h1, rfl⟩ := List.forall₂_cons_left_iff.1 h
    obtain ⟨_, _, ⟨_, rfl, _⟩, h2, rfl⟩ := List.forall₂_cons_left_iff.1 h1
    obtain ⟨_, _, ⟨_, rfl⟩, h3, rfl⟩ := List.forall₂_cons_left_iff.1 h2
    cases h3
    exact .inl ⟨_, rfl, ⟨_, rfl⟩⟩
  case params0 =>
    obtain ⟨_, _, rfl, h1, rfl⟩ := List.forall₂_cons_left_iff.1 h
    cases h1
    exact .inl ⟨_, rfl, ⟨_, rfl⟩⟩
  case params1 =>
    obtain ⟨_, _, ⟨_, _, rfl⟩, h1, rfl⟩ := List.forall₂_cons_left_iff.1 h
    cases h1
    exact .inl ⟨_, rfl, ⟨_, rfl⟩⟩
  case paramsMore =>
    obtain ⟨_, _, ⟨_, rfl⟩, h1, rfl⟩ := List.forall₂_cons_left_iff.1 h
    obtain ⟨_, _, ⟨_, rfl, _⟩, h2, rfl⟩ := List.forall₂_cons_left_iff.1 h1
    obtain ⟨_, _, ⟨_, _, rfl⟩, h3, rfl⟩ := List.forall₂_cons_left_iff.1 h2
    cases h3
    exact .inl ⟨_, rfl, ⟨_, rfl⟩⟩
  case paramName =>
    obtain ⟨_, _, ⟨_, rfl, _⟩, h1, rfl⟩ := List.forall₂_cons_left_iff.1 h
    obtain ⟨_, _, ⟨_, rfl, _⟩, h2, rfl⟩ := List.forall₂_cons_left_iff.1 h1
    obtain ⟨_, _, ⟨_, rfl⟩, h3, rfl⟩ := List.forall₂_cons_left_iff.1 h2
    cases h3
    exact .inl ⟨_, rfl, ⟨_, _, rfl⟩⟩
  case paramStr =>
    obtain ⟨_, _, ⟨_, rfl, _⟩, h1, rfl⟩ := List.forall₂_cons_left_iff.1 h
    obtain ⟨_, _, ⟨_, rfl, _⟩, h2, rfl⟩ := List.forall₂_cons_left_iff.1 h1
    obtain ⟨_, _, ⟨_, rfl⟩, h3, rfl⟩ := List.forall₂_cons_left_iff.1 h2
    cases h3
    exact .inl ⟨_, rfl, ⟨_, _, rfl⟩⟩
  case paramRaw =>
    obtain ⟨_, _, ⟨_, rfl, _⟩, h1, rfl⟩ := List.forall₂_cons_left_iff.1 h
    obtain ⟨_, _, ⟨_, rfl, _⟩, h2, rfl⟩ := List.forall₂_cons_left_iff.1 h1
    obtain ⟨_, _, ⟨_, rfl⟩, h3, rfl⟩ := List.forall₂_cons_left_iff.1 h2
    cases h3
    exact .inl ⟨_, rfl, ⟨_, _, rfl⟩⟩
  case repl =>
    obtain ⟨_, _, ⟨_, rfl, _⟩, h1, rfl⟩ := List.forall₂_cons_left_iff.1 h
    cases h1
    exact .inl ⟨_, rfl, ⟨_, rfl⟩⟩
  case call =>
    obtain ⟨_, _, ⟨_, rfl, _⟩, h1, rfl⟩ := List.forall₂_cons_left_iff.1 h
    obtain ⟨_, _, ⟨_, rfl, _⟩, h2, rfl⟩ := List.forall₂_cons_left_iff.1 h1
    obtain ⟨_, _, ⟨_, rfl⟩, h3, rfl⟩ := List.forall₂_cons_left_iff.1 h2
    obtain ⟨_, _, ⟨_, rfl, _⟩, h4, rfl⟩ := List.forall₂_cons_left_iff.1 h3
    cases h4
    exact .inl ⟨_, rfl, ⟨_, rfl⟩⟩
  case uminus =>
    obtain ⟨_, _, ⟨_, rfl, _⟩, h1, rfl⟩ := List.forall₂_cons_left_iff.1 h
    obtain ⟨_, _, ⟨_, rfl⟩, h2, rfl⟩ := List.forall₂_cons_left_iff.1 h1
    cases h2
    exact .inl ⟨_, rfl, ⟨_, rfl⟩⟩
  case bitnot =>
    obtain ⟨_, _, ⟨_, rfl, _⟩, h1, rfl⟩ := List.forall₂_cons_left_iff.1 h
    obtain ⟨_, _, ⟨_, rfl⟩, h2, rfl⟩ := List.forall₂_cons_left_iff.1 h1
    cases h2
    exact .inl ⟨_, rfl, ⟨_, rfl⟩⟩
  case not =>
    obtain ⟨_, _, ⟨_, rfl, _⟩, h1, rfl⟩ := List.forall₂_cons_left_iff.1 h
    obtain ⟨_, _, ⟨_, rfl⟩, h2, rfl⟩ := List.forall₂_cons_left_iff.1 h1
    cases h2
    exact .inl ⟨_, rfl, ⟨_, rfl⟩⟩
  case bin o =>
    obtain ⟨_, _, ⟨_, rfl⟩, h1, rfl⟩ := List.forall₂_cons_left_iff.1 h
    obtain ⟨_, _, ⟨_, rfl, _⟩, h2, rfl⟩ := List.forall₂_cons_left_iff.1 h1
    obtain ⟨_, _, ⟨_, rfl⟩, h3, rfl⟩ := List.forall₂_cons_left_iff.1 h2
    cases h3
    exact .inl ⟨_, rfl, ⟨_, rfl⟩⟩
  case group =>
    obtain ⟨_, _, ⟨_, rfl, _⟩, h1, rfl⟩ := List.forall₂_cons_left_iff.1 h
    obtain ⟨_, _, ⟨_, rfl⟩, h2, rfl⟩ := List.forall₂_cons_left_iff.1 h1
    obtain ⟨_, _, ⟨_, rfl, _⟩, h3, rfl⟩ := List.forall₂_cons_left_iff.1 h2
    cases h3
    exact .inl ⟨_, rfl, ⟨_, rfl⟩⟩
  case rettype =>
    obtain ⟨_, _, ⟨_, rfl, _⟩, h1, rfl⟩ := List.forall₂_cons_left_iff.1 h
    obtain ⟨_, _, ⟨_, rfl⟩, h2, rfl⟩ := List.forall₂_cons_left_iff.1 h1
    cases h2
    exact .inl ⟨_, rfl, ⟨_, rfl⟩⟩
  case fcnE =>
    obtain ⟨_, _, ⟨_, rfl, _⟩, h1, rfl⟩ := List.forall₂_cons_left_iff.1 h
    obtain ⟨_, _, ⟨_, rfl, _⟩, h2, rfl⟩ := List.forall₂_cons_left_iff.1 h1
    obtain ⟨_, _, ⟨_, rfl⟩, h3, rfl⟩ := List.forall₂_cons_left_iff.1 h2
    obtain ⟨_, _, ⟨_, rfl⟩, h4, rfl⟩ := List.forall₂_cons_left_iff.1 h3
    obtain ⟨_, _, ⟨_, rfl, _⟩, h5, rfl⟩ := List.forall₂_cons_left_iff.1 h4
    obtain ⟨_, _, ⟨_, rfl⟩, h6, rfl⟩ := List.forall₂_cons_left_iff.1 h5
    cases h6
    exact .inl ⟨_, rfl, ⟨_, rfl⟩⟩
  case fcnB =>
    obtain ⟨_, _, ⟨_, rfl, _⟩, h1, rfl⟩ := List.forall₂_cons_left_iff.1 h
    obtain ⟨_, _, ⟨_, rfl, _⟩, h2, rfl⟩ := List.forall₂_cons_left_iff.1 h1
    obtain ⟨_, _, ⟨_, rfl⟩, h3, rfl⟩ := List.forall₂_cons_left_iff.1 h2
    obtain ⟨_, _, ⟨_, rfl⟩, h4, rfl⟩ := List.forall₂_cons_left_iff.1 h3
    obtain ⟨_, _, ⟨_, rfl, _⟩, h5, rfl⟩ := List.forall₂_cons_left_iff.1 h4
    obtain ⟨_, _, ⟨_, rfl⟩, h6, rfl⟩ := List.forall₂_cons_left_iff.1 h5
    cases h6
    exact .inl ⟨_, rfl, ⟨_, rfl⟩⟩
  case if1 =>
    obtain ⟨_, _, ⟨_, rfl, _⟩, h1, rfl⟩ := List.forall₂_cons_left_iff.1 h
    obtain ⟨_, _, ⟨_, rfl, _⟩, h2, rfl⟩ := List.forall₂_cons_left_iff.1 h1
    obtain ⟨_, _, ⟨_, rfl⟩, h3, rfl⟩ := List.forall₂_cons_left_iff.1 h2
    obtain ⟨_, _, ⟨_, rfl, _⟩, h4, rfl⟩ := List.forall₂_cons_left_iff.1 h3
    obtain ⟨_, _, ⟨_, rfl⟩, h5, rfl⟩ := List.forall₂_cons_left_iff.1 h4
    cases h5
    exact .inl ⟨_, rfl, ⟨_, rfl⟩⟩
  case if2 =>
    obtain ⟨_, _, ⟨_, rfl, _⟩, h1, rfl⟩ := List.forall₂_cons_left_iff.1 h
    obtain ⟨_, _, ⟨_, rfl, _⟩, h2, rfl⟩ := List.forall₂_cons_left_iff.1 h1
    obtain ⟨_, _, ⟨_, rfl⟩, h3, rfl⟩ := List.forall₂_cons_left_iff.1 h2
    obtain ⟨_, _, ⟨_, rfl, _⟩, h4, rfl⟩ := List.forall₂_cons_left_iff.1 h3
    obtain ⟨_, _, ⟨_, rfl⟩, h5, rfl⟩ := List.forall₂_cons_left_iff.1 h4
    obtain ⟨_, _, ⟨_, rfl, _⟩, h6, rfl⟩ := List.forall₂_cons_left_iff.1 h5
    obtain ⟨_, _, ⟨_, rfl⟩, h7, rfl⟩ := List.forall₂_cons_left_iff.1 h6
    cases h7
    exact .inl ⟨_, rfl, ⟨_, rfl⟩⟩
  case while_ =>
    obtain ⟨_, _, ⟨_, rfl, _⟩, h1, rfl⟩ := List.forall₂_cons_left_iff.1 h
    obtain ⟨_, _, ⟨_, rfl, _⟩, h2, rfl⟩ := List.forall₂_cons_left_iff.1 h1
    obtain ⟨_, _, ⟨_, rfl⟩, h3, rfl⟩ := List.forall₂_cons_left_iff.1 h2
    obtain ⟨_, _, ⟨_, rfl, _⟩, h4, rfl⟩ := List.forall₂_cons_left_iff.1 h3
    obtain ⟨_, _, ⟨_, rfl⟩, h5, rfl⟩ := List.forall₂_cons_left_iff.1 h4
    cases h5
    exact .inl ⟨_, rfl, ⟨_, rfl⟩⟩
  case doUntil =>
    obtain ⟨_, _, ⟨_, rfl, _⟩, h1, rfl⟩ := List.forall₂_cons_left_iff.1 h
    obtain ⟨_, _, ⟨_, rfl⟩, h2, rfl⟩ := List.forall₂_cons_left_iff.1 h1
    obtain ⟨_, _, ⟨_, rfl, _⟩, h3, rfl⟩ := List.forall₂_cons_left_iff.1 h2
    obtain ⟨_, _, ⟨_, rfl, _⟩, h4, rfl⟩ := List.forall₂_cons_left_iff.1 h3
    obtain ⟨_, _, ⟨_, rfl⟩, h5, rfl⟩ := List.forall₂_cons_left_iff.1 h4
    obtain ⟨_, _, ⟨_, rfl, _⟩, h6, rfl⟩ := List.forall₂_cons_left_iff.1 h5
    cases h6
    exact .inl ⟨_, rfl, ⟨_, rfl⟩⟩
  case for_ =>
    obtain ⟨_, _, ⟨_, rfl, _⟩, h1, rfl⟩ := List.forall₂_cons_left_iff.1 h
    obtain ⟨_, _, ⟨_, rfl, _⟩, h2, rfl⟩ := List.forall₂_cons_left_iff.1 h1
    obtain ⟨_, _, ⟨_, _, rfl⟩, h3, rfl⟩ := List.forall₂_cons_left_iff.1 h2
    obtain ⟨_, _, ⟨_, rfl, _⟩, h4, rfl⟩ := List.forall₂_cons_left_iff.1 h3
    obtain ⟨_, _, ⟨_, rfl⟩, h5, rfl⟩ := List.forall₂_cons_left_iff.1 h4
    obtain ⟨_, _, ⟨_, rfl, _⟩, h6, rfl⟩ := List.forall₂_cons_left_iff.1 h5
    obtain ⟨_, _, ⟨_, _, rfl⟩, h7, rfl⟩ := List.forall₂_cons_left_iff.1 h6
    obtain ⟨_, _, ⟨_, rfl, _⟩, h8, rfl⟩ := List.forall₂_cons_left_iff.1 h7
    obtain ⟨_, _, ⟨_, rfl⟩, h9, rfl⟩ := List.forall₂_cons_left_iff.1 h8
    cases h9
    exact .inl ⟨_, rfl, ⟨_, rfl⟩⟩
  case each1 =>
    obtain ⟨_, _, ⟨_, rfl, _⟩, h1, rfl⟩ := List.forall₂_cons_left_iff.1 h
    obtain ⟨_, _, ⟨_, rfl, _⟩, h2, rfl⟩ := List.forall₂_cons_left_iff.1 h1
    obtain ⟨_, _, ⟨_, _, rfl⟩, h3, rfl⟩ := List.forall₂_cons_left_iff.1 h2
    obtain ⟨_, _, ⟨_, rfl, _⟩, h4, rfl⟩ := List.forall₂_cons_left_iff.1 h3
    obtain ⟨_, _, ⟨_, rfl⟩, h5, rfl⟩ := List.forall₂_cons_left_iff.1 h4
    cases h5
    exact .inl ⟨_, rfl, ⟨_, rfl⟩⟩
  case each2 =>
    obtain ⟨_, _, ⟨_, rfl, _⟩, h1, rfl⟩ := List.forall₂_cons_left_iff.1 h
    obtain ⟨_, _, ⟨_, rfl, _⟩, h2, rfl⟩ := List.forall₂_cons_left_iff.1 h1
    obtain ⟨_, _, ⟨_, _, rfl⟩, h3, rfl⟩ := List.forall₂_cons_left_iff.1 h2
    obtain ⟨_, _, ⟨_, rfl, _⟩, h4, rfl⟩ := List.forall₂_cons_left_iff.1 h3
    obtain ⟨_, _, ⟨_, _, rfl⟩, h5, rfl⟩ := List.forall₂_cons_left_iff.1 h4
    obtain ⟨_, _, ⟨_, rfl, _⟩, h6, rfl⟩ := List.forall₂_cons_left_iff.1 h5
    obtain ⟨_, _, ⟨_, rfl⟩, h7, rfl⟩ := List.forall₂_cons_left_iff.1 h6
    cases h7
    exact flag_typed (flagOf_cases _ _ _)
  case pairStr =>
    obtain ⟨_, _, ⟨_, rfl, _⟩, h1, rfl⟩ := List.forall₂_cons_left_iff.1 h
    obtain ⟨_, _, ⟨_, rfl, _⟩, h2, rfl⟩ := List.forall₂_cons_left_iff.1 h1
    obtain ⟨_, _, ⟨_, rfl, _⟩, h3, rfl⟩ := List.forall₂_cons_left_iff.1 h2
    obtain ⟨_, _, ⟨_, rfl, _⟩, h4, rfl⟩ := List.forall₂_cons_left_iff.1 h3
    obtain ⟨_, _, ⟨_, _, rfl⟩, h5, rfl⟩ := List.forall₂_cons_left_iff.1 h4
    obtain ⟨_, _, ⟨_, rfl, _⟩, h6, rfl⟩ := List.forall₂_cons_left_iff.1 h5
    obtain ⟨_, _, ⟨_, rfl⟩, h7, rfl⟩ := List.forall₂_cons_left_iff.1 h6
    cases h7
    exact .inl ⟨_, rfl, ⟨_, rfl⟩⟩
  case pairRaw =>
    obtain ⟨_, _, ⟨_, rfl, _⟩, h1, rfl⟩ := List.forall₂_cons_left_iff.1 h
    obtain ⟨_, _, ⟨_, rfl, _⟩, h2, rfl⟩ := List.forall₂_cons_left_iff.1 h1
    obtain ⟨_, _, ⟨_, rfl, _⟩, h3, rfl⟩ := List.forall₂_cons_left_iff.1 h2
    obtain ⟨_, _, ⟨_, rfl, _⟩, h4, rfl⟩ := List.forall₂_cons_left_iff.1 h3
    obtain ⟨_, _, ⟨_, _, rfl⟩, h5, rfl⟩ := List.forall₂_cons_left_iff.1 h4
    obtain ⟨_, _, ⟨_, rfl, _⟩, h6, rfl⟩ := List.forall₂_cons_left_iff.1 h5
    obtain ⟨_, _, ⟨_, rfl⟩, h7, rfl⟩ := List.forall₂_cons_left_iff.1 h6
    cases h7
    exact .inl ⟨_, rfl, ⟨_, rfl⟩⟩
  case pairName =>
    obtain ⟨_, _, ⟨_, rfl, _⟩, h1, rfl⟩ := List.forall₂_cons_left_iff.1 h
    obtain ⟨_, _, ⟨_, rfl, _⟩, h2, rfl⟩ := List.forall₂_cons_left_iff.1 h1
    obtain ⟨_, _, ⟨_, rfl, _⟩, h3, rfl⟩ := List.forall₂_cons_left_iff.1 h2
    obtain ⟨_, _, ⟨_, rfl, _⟩, h4, rfl⟩ := List.forall₂_cons_left_iff.1 h3
    obtain ⟨_, _, ⟨_, _, rfl⟩, h5, rfl⟩ := List.forall₂_cons_left_iff.1 h4
    obtain ⟨_, _, ⟨_, rfl, _⟩, h6, rfl⟩ := List.forall₂_cons_left_iff.1 h5
    obtain ⟨_, _, ⟨_, rfl⟩, h7, rfl⟩ := List.forall₂_cons_left_iff.1 h6
    cases h7
    exact .inl ⟨_, rfl, ⟨_, rfl⟩⟩
  case asblock =>
    obtain ⟨_, _, ⟨_, rfl, _⟩, h1, rfl⟩ := List.forall₂_cons_left_iff.1 h
    obtain ⟨_, _, ⟨_, rfl, _⟩, h2, rfl⟩ := List.forall₂_cons_left_iff.1 h1
    obtain ⟨_, _, ⟨_, _, rfl⟩, h3, rfl⟩ := List.forall₂_cons_left_iff.1 h2
    obtain ⟨_, _, ⟨_, rfl, _⟩, h4, rfl⟩ := List.forall₂_cons_left_iff.1 h3
    obtain ⟨_, _, ⟨_, rfl⟩, h5, rfl⟩ := List.forall₂_cons_left_iff.1 h4
    cases h5
    exact .inl ⟨_, rfl, ⟨_, rfl⟩⟩
  case asblocks1 =>
    obtain ⟨_, _, ⟨_, rfl⟩, h1, rfl⟩ := List.forall₂_cons_left_iff.1 h
    cases h1
    exact .inl ⟨_, rfl, ⟨_, rfl⟩⟩
  case asblocksMore =>
    obtain ⟨_, _, ⟨_, rfl⟩, h1, rfl⟩ := List.forall₂_cons_left_iff.1 h
    obtain ⟨_, _, ⟨_, rfl⟩, h2, rfl⟩ := List.forall₂_cons_left_iff.1 h1
    cases h2
    exact .inl ⟨_, rfl, ⟨_, rfl⟩⟩
  case cast1 =>
    obtain ⟨_, _, ⟨_, rfl, _⟩, h1, rfl⟩ := List.forall₂_cons_left_iff.1 h
    obtain ⟨_, _, ⟨_, rfl, _⟩, h2, rfl⟩ := List.forall₂_cons_left_iff.1 h1
    obtain ⟨_, _, ⟨_, rfl⟩, h3, rfl⟩ := List.forall₂_cons_left_iff.1 h2
    obtain ⟨_, _, ⟨_, rfl, _⟩, h4, rfl⟩ := List.forall₂_cons_left_iff.1 h3
    obtain ⟨_, _, ⟨_, rfl, _⟩, h5, rfl⟩ := List.forall₂_cons_left_iff.1 h4
    obtain ⟨_, _, ⟨_, rfl⟩, h6, rfl⟩ := List.forall₂_cons_left_iff.1 h5
    obtain ⟨_, _, ⟨_, rfl, _⟩, h7, rfl⟩ := List.forall₂_cons_left_iff.1 h6
    cases h7
    exact .inl ⟨_, rfl, ⟨_, rfl⟩⟩
  case cast2 =>
    obtain ⟨_, _, ⟨_, rfl, _⟩, h1, rfl⟩ := List.forall₂_cons_left_iff.1 h
    obtain ⟨_, _, ⟨_, rfl, _⟩, h2, rfl⟩ := List.forall₂_cons_left_iff.1 h1
    obtain ⟨_, _, ⟨_, rfl⟩, h3, rfl⟩ := List.forall₂_cons_left_iff.1 h2
    obtain ⟨_, _, ⟨_, rfl, _⟩, h4, rfl⟩ := List.forall₂_cons_left_iff.1 h3
    obtain ⟨_, _, ⟨_, _, rfl⟩, h5, rfl⟩ := List.forall₂_cons_left_iff.1 h4
    obtain ⟨_, _, ⟨_, rfl, _⟩, h6, rfl⟩ := List.forall₂_cons_left_iff.1 h5
    obtain ⟨_, _, ⟨_, rfl, _⟩, h7, rfl⟩ := List.forall₂_cons_left_iff.1 h6
    obtain ⟨_, _, ⟨_, rfl⟩, h8, rfl⟩ := List.forall₂_cons_left_iff.1 h7
    obtain ⟨_, _, ⟨_, rfl, _⟩, h9, rfl⟩ := List.forall₂_cons_left_iff.1 h8
    cases h9
    exact flag_typed (flagOf_cases _ _ _)
  case ifnn1 =>
    obtain ⟨_, _, ⟨_, rfl, _⟩, h1, rfl⟩ := List.forall₂_cons_left_iff.1 h
    obtain ⟨_, _, ⟨_, rfl, _⟩, h2, rfl⟩ := List.forall₂_cons_left_iff.1 h1
    obtain ⟨_, _, ⟨_, rfl⟩, h3, rfl⟩ := List.forall₂_cons_left_iff.1 h2
    obtain ⟨_, _, ⟨_, rfl, _⟩, h4, rfl⟩ := List.forall₂_cons_left_iff.1 h3
    obtain ⟨_, _, ⟨_, rfl⟩, h5, rfl⟩ := List.forall₂_cons_left_iff.1 h4
    cases h5
    exact .inl ⟨_, rfl, ⟨_, rfl⟩⟩
  case ifnn2 =>
    obtain ⟨_, _, ⟨_, rfl, _⟩, h1, rfl⟩ := List.forall₂_cons_left_iff.1 h
    obtain ⟨_, _, ⟨_, rfl, _⟩, h2, rfl⟩ := List.forall₂_cons_left_iff.1 h1
    obtain ⟨_, _, ⟨_, rfl⟩, h3, rfl⟩ := List.forall₂_cons_left_iff.1 h2
    obtain ⟨_, _, ⟨_, rfl, _⟩, h4, rfl⟩ := List.forall₂_cons_left_iff.1 h3
    obtain ⟨_, _, ⟨_, rfl⟩, h5, rfl⟩ := List.forall₂_cons_left_iff.1 h4
    obtain ⟨_, _, ⟨_, rfl, _⟩, h6, rfl⟩ := List.forall₂_cons_left_iff.1 h5
    obtain ⟨_, _, ⟨_, rfl⟩, h7, rfl⟩ := List.forall₂_cons_left_iff.1 h6
    cases h7
    exact .inl ⟨_, rfl, ⟨_, rfl⟩⟩
  case unpack1 =>
    obtain ⟨_, _, ⟨_, rfl, _⟩, h1, rfl⟩ := List.forall₂_cons_left_iff.1 h
    obtain ⟨_, _, ⟨_, rfl, _⟩, h2, rfl⟩ := List.forall₂_cons_left_iff.1 h1
    obtain ⟨_, _, ⟨_, rfl⟩, h3, rfl⟩ := List.forall₂_cons_left_iff.1 h2
    obtain ⟨_, _, ⟨_, rfl, _⟩, h4, rfl⟩ := List.forall₂_cons_left_iff.1 h3
    obtain ⟨_, _, ⟨_, rfl⟩, h5, rfl⟩ := List.forall₂_cons_left_iff.1 h4
    obtain ⟨_, _, ⟨_, rfl, _⟩, h6, rfl⟩ := List.forall₂_cons_left_iff.1 h5
    obtain ⟨_, _, ⟨_, rfl⟩, h7, rfl⟩ := List.forall₂_cons_left_iff.1 h6
    cases h7
    exact .inl ⟨_, rfl, ⟨_, rfl⟩⟩
  case unpack2 =>
    obtain ⟨_, _, ⟨_, rfl, _⟩, h1, rfl⟩ := List.forall₂_cons_left_iff.1 h
    obtain ⟨_, _, ⟨_, rfl, _⟩, h2, rfl⟩ := List.forall₂_cons_left_iff.1 h1
    obtain ⟨_, _, ⟨_, rfl⟩, h3, rfl⟩ := List.forall₂_cons_left_iff.1 h2
    obtain ⟨_, _, ⟨_, rfl, _⟩, h4, rfl⟩ := List.forall₂_cons_left_iff.1 h3
    obtain ⟨_, _, ⟨_, rfl⟩, h5, rfl⟩ := List.forall₂_cons_left_iff.1 h4
    obtain ⟨_, _, ⟨_, rfl, _⟩, h6, rfl⟩ := List.forall₂_cons_left_iff.1 h5
    obtain ⟨_, _, ⟨_, rfl⟩, h7, rfl⟩ := List.forall₂_cons_left_iff.1 h6
    obtain ⟨_, _, ⟨_, rfl, _⟩, h8, rfl⟩ := List.forall₂_cons_left_iff.1 h7
    obtain ⟨_, _, ⟨_, rfl⟩, h9, rfl⟩ := List.forall₂_cons_left_iff.1 h8
    cases h9
    exact .inl ⟨_, rfl, ⟨_, rfl⟩⟩
  case try1 =>
    obtain ⟨_, _, ⟨_, rfl, _⟩, h1, rfl⟩ := List.forall₂_cons_left_iff.1 h
    obtain ⟨_, _, ⟨_, rfl⟩, h2, rfl⟩ := List.forall₂_cons_left_iff.1 h1
    cases h2
    exact .inl ⟨_, rfl, ⟨_, rfl⟩⟩
  case try2 =>
    obtain ⟨_, _, ⟨_, rfl, _⟩, h1, rfl⟩ := List.forall₂_cons_left_iff.1 h
    obtain ⟨_, _, ⟨_, rfl, _⟩, h2, rfl⟩ := List.forall₂_cons_left_iff.1 h1
    obtain ⟨_, _, ⟨_, rfl⟩, h3, rfl⟩ := List.forall₂_cons_left_iff.1 h2
    obtain ⟨_, _, ⟨_, rfl, _⟩, h4, rfl⟩ := List.forall₂_cons_left_iff.1 h3
    obtain ⟨_, _, ⟨_, rfl⟩, h5, rfl⟩ := List.forall₂_cons_left_iff.1 h4
    cases h5
    exact .inl ⟨_, rfl, ⟨_, rfl⟩⟩
  case try3 =>
    obtain ⟨_, _, ⟨_, rfl, _⟩, h1, rfl⟩ := List.forall₂_cons_left_iff.1 h
    obtain ⟨_, _, ⟨_, rfl, _⟩, h2, rfl⟩ := List.forall₂_cons_left_iff.1 h1
    obtain ⟨_, _, ⟨_, rfl⟩, h3, rfl⟩ := List.forall₂_cons_left_iff.1 h2
    obtain ⟨_, _, ⟨_, rfl, _⟩, h4, rfl⟩ := List.forall₂_cons_left_iff.1 h3
    obtain ⟨_, _, ⟨_, rfl⟩, h5, rfl⟩ := List.forall₂_cons_left_iff.1 h4
    cases h5
    exact .inl ⟨_, rfl, ⟨_, rfl⟩⟩
  case genSet =>
    obtain ⟨_, _, ⟨_, rfl⟩, h1, rfl⟩ := List.forall₂_cons_left_iff.1 h
    obtain ⟨_, _, ⟨_, rfl, _⟩, h2, rfl⟩ := List.forall₂_cons_left_iff.1 h1
    obtain ⟨_, _, ⟨_, rfl⟩, h3, rfl⟩ := List.forall₂_cons_left_iff.1 h2
    obtain ⟨_, _, ⟨_, rfl, _⟩, h4, rfl⟩ := List.forall₂_cons_left_iff.1 h3
    obtain ⟨_, _, ⟨_, rfl, _⟩, h5, rfl⟩ := List.forall₂_cons_left_iff.1 h4
    obtain ⟨_, _, ⟨_, rfl⟩, h6, rfl⟩ := List.forall₂_cons_left_iff.1 h5
    cases h6
    exact .inl ⟨_, rfl, ⟨_, rfl⟩⟩
  case assignment =>
    obtain ⟨_, _, ⟨_, rfl, _⟩, h1, rfl⟩ := List.forall₂_cons_left_iff.1 h
    obtain ⟨_, _, ⟨_, rfl, _⟩, h2, rfl⟩ := List.forall₂_cons_left_iff.1 h1
    obtain ⟨_, _, ⟨_, rfl⟩, h3, rfl⟩ := List.forall₂_cons_left_iff.1 h2
    cases h3
    exact .inl ⟨_, rfl, ⟨_, _, rfl⟩⟩
  case assigns1 =>
    obtain ⟨_, _, ⟨_, _, rfl⟩, h1, rfl⟩ := List.forall₂_cons_left_iff.1 h
    cases h1
    exact .inl ⟨_, rfl, ⟨_, _, rfl⟩⟩
  case assignsMore =>
    obtain ⟨_, _, ⟨_, _, rfl⟩, h1, rfl⟩ := List.forall₂_cons_left_iff.1 h
    obtain ⟨_, _, ⟨_, rfl, _⟩, h2, rfl⟩ := List.forall₂_cons_left_iff.1 h1
    obtain ⟨_, _, ⟨_, _, rfl⟩, h3, rfl⟩ := List.forall₂_cons_left_iff.1 h2
    cases h3
    exact .inl ⟨_, rfl, ⟨_, _, rfl⟩⟩
  case let_ =>
    obtain ⟨_, _, ⟨_, rfl, _⟩, h1, rfl⟩ := List.forall₂_cons_left_iff.1 h
    obtain ⟨_, _, ⟨_, _, rfl⟩, h2, rfl⟩ := List.forall₂_cons_left_iff.1 h1
    cases h2
    exact .inl ⟨_, rfl, ⟨_, rfl⟩⟩
  case set_ =>
    obtain ⟨_, _, ⟨_, _, rfl⟩, h1, rfl⟩ := List.forall₂_cons_left_iff.1 h
    cases h1
    exact .inl ⟨_, rfl, ⟨_, rfl⟩⟩
  case genGet =>
    obtain ⟨_, _, ⟨_, rfl⟩, h1, rfl⟩ := List.forall₂_cons_left_iff.1 h
    obtain ⟨_, _, ⟨_, rfl, _⟩, h2, rfl⟩ := List.forall₂_cons_left_iff.1 h1
    obtain ⟨_, _, ⟨_, rfl⟩, h3, rfl⟩ := List.forall₂_cons_left_iff.1 h2
    obtain ⟨_, _, ⟨_, rfl, _⟩, h4, rfl⟩ := List.forall₂_cons_left_iff.1 h3
    cases h4
    exact .inl ⟨_, rfl, ⟨_, rfl⟩⟩
  case get =>
    obtain ⟨_, _, ⟨_, rfl, _⟩, h1, rfl⟩ := List.forall₂_cons_left_iff.1 h
    obtain ⟨_, _, ⟨_, rfl, _⟩, h2, rfl⟩ := List.forall₂_cons_left_iff.1 h1
    obtain ⟨_, _, ⟨_, rfl⟩, h3, rfl⟩ := List.forall₂_cons_left_iff.1 h2
    obtain ⟨_, _, ⟨_, rfl, _⟩, h4, rfl⟩ := List.forall₂_cons_left_iff.1 h3
    cases h4
    exact .inl ⟨_, rfl, ⟨_, rfl⟩⟩
  case to1 =>
    obtain ⟨_, _, ⟨_, rfl, _⟩, h1, rfl⟩ := List.forall₂_cons_left_iff.1 h
    obtain ⟨_, _, ⟨_, rfl, _⟩, h2, rfl⟩ := List.forall₂_cons_left_iff.1 h1
    obtain ⟨_, _, ⟨_, rfl⟩, h3, rfl⟩ := List.forall₂_cons_left_iff.1 h2
    obtain ⟨_, _, ⟨_, rfl, _⟩, h4, rfl⟩ := List.forall₂_cons_left_iff.1 h3
    obtain ⟨_, _, ⟨_, rfl, _⟩, h5, rfl⟩ := List.forall₂_cons_left_iff.1 h4
    obtain ⟨_, _, ⟨_, rfl⟩, h6, rfl⟩ := List.forall₂_cons_left_iff.1 h5
    cases h6
    exact .inl ⟨_, rfl, ⟨_, rfl⟩⟩
  case to2 =>
    obtain ⟨_, _, ⟨_, rfl, _⟩, h1, rfl⟩ := List.forall₂_cons_left_iff.1 h
    obtain ⟨_, _, ⟨_, rfl, _⟩, h2, rfl⟩ := List.forall₂_cons_left_iff.1 h1
    obtain ⟨_, _, ⟨_, rfl⟩, h3, rfl⟩ := List.forall₂_cons_left_iff.1 h2
    obtain ⟨_, _, ⟨_, rfl, _⟩, h4, rfl⟩ := List.forall₂_cons_left_iff.1 h3
    obtain ⟨_, _, ⟨_, rfl, _⟩, h5, rfl⟩ := List.forall₂_cons_left_iff.1 h4
    obtain ⟨_, _, ⟨_, rfl⟩, h6, rfl⟩ := List.forall₂_cons_left_iff.1 h5
    cases h6
    exact .inl ⟨_, rfl, ⟨_, rfl⟩⟩
  case to3 =>
    obtain ⟨_, _, ⟨_, rfl, _⟩, h1, rfl⟩ := List.forall₂_cons_left_iff.1 h
    obtain ⟨_, _, ⟨_, rfl, _⟩, h2, rfl⟩ := List.forall₂_cons_left_iff.1 h1
    obtain ⟨_, _, ⟨_, rfl⟩, h3, rfl⟩ := List.forall₂_cons_left_iff.1 h2
    obtain ⟨_, _, ⟨_, rfl, _⟩, h4, rfl⟩ := List.forall₂_cons_left_iff.1 h3
    obtain ⟨_, _, ⟨_, rfl, _⟩, h5, rfl⟩ := List.forall₂_cons_left_iff.1 h4
    obtain ⟨_, _, ⟨_, rfl⟩, h6, rfl⟩ := List.forall₂_cons_left_iff.1 h5
    obtain ⟨_, _, ⟨_, rfl, _⟩, h7, rfl⟩ := List.forall₂_cons_left_iff.1 h6
    obtain ⟨_, _, ⟨_, rfl⟩, h8, rfl⟩ := List.forall₂_cons_left_iff.1 h7
    cases h8
    exact .inl ⟨_, rfl, ⟨_, rfl⟩⟩
  case to4 =>
    obtain ⟨_, _, ⟨_, rfl, _⟩, h1, rfl⟩ := List.forall₂_cons_left_iff.1 h
    obtain ⟨_, _, ⟨_, rfl, _⟩, h2, rfl⟩ := List.forall₂_cons_left_iff.1 h1
    obtain ⟨_, _, ⟨_, rfl⟩, h3, rfl⟩ := List.forall₂_cons_left_iff.1 h2
    cases h3
    exact .inl ⟨_, rfl, ⟨_, rfl⟩⟩
  case to5 =>
    obtain ⟨_, _, ⟨_, rfl, _⟩, h1, rfl⟩ := List.forall₂_cons_left_iff.1 h
    obtain ⟨_, _, ⟨_, rfl, _⟩, h2, rfl⟩ := List.forall₂_cons_left_iff.1 h1
    obtain ⟨_, _, ⟨_, rfl⟩, h3, rfl⟩ := List.forall₂_cons_left_iff.1 h2
    obtain ⟨_, _, ⟨_, rfl, _⟩, h4, rfl⟩ := List.forall₂_cons_left_iff.1 h3
    obtain ⟨_, _, ⟨_, rfl⟩, h5, rfl⟩ := List.forall₂_cons_left_iff.1 h4
    cases h5
    exact .inl ⟨_, rfl, ⟨_, rfl⟩⟩
  case enumSym =>
    obtain ⟨_, _, ⟨_, rfl, _⟩, h1, rfl⟩ := List.forall₂_cons_left_iff.1 h
    obtain ⟨_, _, ⟨_, rfl, _⟩, h2, rfl⟩ := List.forall₂_cons_left_iff.1 h1
    obtain ⟨_, _, ⟨_, rfl, _⟩, h3, rfl⟩ := List.forall₂_cons_left_iff.1 h2
    cases h3
    exact .inl ⟨_, rfl, ⟨_, rfl⟩⟩
  case sBlock =>
    obtain ⟨_, _, ⟨_, rfl⟩, h1, rfl⟩ := List.forall₂_cons_left_iff.1 h
    cases h1
    exact .inl ⟨_, rfl, ⟨_, rfl⟩⟩
  case sNumber =>
    obtain ⟨_, _, ⟨_, rfl, _⟩, h1, rfl⟩ := List.forall₂_cons_left_iff.1 h
    cases h1
    exact .inl ⟨_, rfl, ⟨_, rfl⟩⟩
  case sStr =>
    obtain ⟨_, _, ⟨_, rfl, _⟩, h1, rfl⟩ := List.forall₂_cons_left_iff.1 h
    cases h1
    exact .inl ⟨_, rfl, ⟨_, rfl⟩⟩
  case sRaw =>
    obtain ⟨_, _, ⟨_, rfl, _⟩, h1, rfl⟩ := List.forall₂_cons_left_iff.1 h
    cases h1
    exact .inl ⟨_, rfl, ⟨_, rfl⟩⟩
  case sName =>
    obtain ⟨_, _, ⟨_, rfl, _⟩, h1, rfl⟩ := List.forall₂_cons_left_iff.1 h
    cases h1
    exact .inl ⟨_, rfl, ⟨_, rfl⟩⟩
  case empty =>
    cases h
    exact .inl ⟨_, rfl, rfl⟩
  all_goals exact absurd hp (by decide)

mutual
/-- **No function meets anything unexpected**: the value of a derivation is what its symbol promises, or a PrettyPfaException. -/
theorem sem_defined : ∀ {t : T}, WF exprParser t → ofExpr (root exprParser t) = true →
    (∃ v, value t = .ok v ∧ Typed (root exprParser t) v) ∨ value t = .error pretty
  | .leaf k, _, _ => .inl ⟨_, rfl, k, rfl, rfl⟩
  | .node p ks, h, he => by
    obtain ⟨h1, h2⟩ := h
    have hr : ks.map (root exprParser) = rhs false p := h1
    rcases sems_defined h2 (fun k hk => ofExpr_rhs he _ (hr ▸ List.mem_map_of_mem hk)) with ⟨vs, h3, h4⟩ | h3
    · rw [hr] at h4
      have : value (.node p ks) = sem p vs := by simp [value, h3, andThen]
      rw [this]
      exact sem_typed he h4
    · exact .inr (by simp [value, h3, andThen])
theorem sems_defined : ∀ {ts : List T}, WFs exprParser ts → (∀ t ∈ ts, ofExpr (root exprParser t) = true) →
    (∃ vs, values ts = .ok vs ∧ List.Forall₂ Typed (ts.map (root exprParser)) vs) ∨ values ts = .error pretty
  | [], _, _ => .inl ⟨[], rfl, .nil⟩
  | t :: ts, h, he => by
    obtain ⟨h1, h2⟩ := h
    rcases sem_defined h1 (he t (by simp)) with ⟨v, h3, h4⟩ | h3
    · rcases sems_defined h2 (fun k hk => he k (by simp [hk])) with ⟨vs, h5, h6⟩ | h5
      · exact .inl ⟨v :: vs, by simp [values, h3, h5, andThen], .cons h4 h6⟩
      · exact .inr (by simp [values, h3, h5, andThen])
    · exact .inr (by simp [values, h3, andThen])
end

/-! ## Reading a text -/

/-- The expressions of a tree, 2129-2131. -/
def meaning (st : St) (t : T) : Res (List X) := andThen (value t) fun v => match v with
  | .minis ms => seq (ms.map (asExpr st))
  | _ => .error unreachable

/-- The line of the first of the tokens that are left. -/
def lineOf (ts : List (Tok × Nat)) (left : List Tok) : Nat := (ts[ts.length - left.length]?.map Prod.snd).getD 0

/-- `p_error`, 2097-2106 -/
def syntaxErr (cs : List Char) (ts : List (Tok × Nat)) (left : List Tok) : Err := if left.isEmpty then pretty else errAt (lineCount cs) (lineOf ts left)

/-- What `parse` (2111-2134) gives for a text of expressions: the tokens, the tree, and what it means. -/
inductive Reads (E : Lex.Env) (st : St) (cs : List Char) : Res (List X) → Prop where
  | unlexed {e} (h : lex E cs = .error e) : Reads E st cs (.error e)
  | refused {ts left} (h : lex E cs = .ok ts) (hf : Fails exprParser (ts.map Prod.fst) left) : Reads E st cs (.error (syntaxErr cs ts left))
  | read {ts t} (h : lex E cs = .ok ts) (hp : Parses exprParser (ts.map Prod.fst) t) : Reads E st cs (meaning st t)

/-- Every text has a result, and only one. -/
theorem reads_unique (E : Lex.Env) (st : St) (cs : List Char) : ∃ r, Reads E st cs r ∧ ∀ r', Reads E st cs r' → r' = r := by
  have hu : ∀ {r r'}, Reads E st cs r → Reads E st cs r' → r' = r := by
    intro r r' h h'
    cases h with
    | unlexed h =>
      cases h' with
      | unlexed h' => rw [h] at h'; injection h' with h'; rw [h']
      | refused h' _ => rw [h] at h'; cases h'
      | read h' _ => rw [h] at h'; cases h'
    | refused h hf =>
      cases h' with
      | unlexed h' => rw [h] at h'; cases h'
      | refused h' hf' =>
        rw [h] at h'
        injection h' with h'
        subst h'
        rw [hf.unique hf']
      | read h' hp =>
        rw [h] at h'
        injection h' with h'
        subst h'
        exact absurd hf hp.not_fails
    | read h hp =>
      cases h' with
      | unlexed h' => rw [h] at h'; cases h'
      | refused h' hf' =>
        rw [h] at h'
        injection h' with h'
        subst h'
        exact absurd hf' hp.not_fails
      | read h' hp' =>
        rw [h] at h'
        injection h' with h'
        subst h'
        rw [hp.unique hp']
  obtain ⟨r, hr⟩ : ∃ r, Reads E st cs r := by
    cases h : lex E cs with
    | error e => exact ⟨_, .unlexed h⟩
    | ok ts =>
      rcases expressions_end (ts.map Prod.fst) with ⟨t, ht⟩ | ⟨left, _, hf, _⟩
      · exact ⟨_, .read h ht⟩
      · exact ⟨_, .refused h hf⟩
  exact ⟨r, hr, fun r' h' => hu hr h'⟩

/-- What is read is a list of the parser's objects, or a PrettyPfaException: never an object of another class. -/
theorem reads_objects {inp : List Tok} {t : T} (h : Parses exprParser inp t) : (∃ ms, value t = .ok (.minis ms)) ∨ value t = .error pretty := by
  obtain ⟨h1, h2, _⟩ := expressions_sound h
  rcases sem_defined h1 (by rw [h2]; rfl) with ⟨v, h3, h4⟩ | h3
  · rw [h2] at h4
    obtain ⟨l, rfl⟩ := h4
    exact .inl ⟨l, h3⟩
  · exact .inr h3

/-- **What is written is read**: the text of some of the parser's objects is read as these objects. -/
theorem written_read {E : Lex.Env} (st : St) {ms : List Mini} (hne : ms ≠ []) (he : ms.all isE = true) (h : Cans E ms) :
    Reads E st (textOf E ms) (seq (ms.map (asExpr st))) := by
  have hf := Fine.exprs (((fines ms h).exprs he).imp fun _ _ h => h.stmt) hne
  obtain ⟨h1, h2, h3⟩ := hf
  have hp := expressions_read h1
  have hl := lex_written h3
  have e : seq (ms.map (asExpr st)) = meaning st (exprsT (trees ms)) := by simp [meaning, h2, andThen]
  rw [e]
  refine .read hl ?_
  rw [List.map_map]
  simpa [Function.comp_def] using hp

theorem seq_all {α : Type} {es : List α} : seq (es.map (fun e => (.ok e : Res α))) = .ok es := by
  induction es with
  | nil => rfl
  | cons e es ih => simp [seq, ih, andThen]

/-- **PFA expressions, written in PrettyPFA and read, are what they were.** -/
theorem written_means_partial {E : Lex.Env} {st : St} {es : List X} (hne : es ≠ []) (hs : ∀ e ∈ es, Say st e) (he : (minis es).all isE = true) (hc : Cans E (minis es)) :
    Reads E st (textOf E (minis es)) (.ok es) := by
  have := written_read st (ms := minis es) (by cases es <;> simp [minis] at hne ⊢) he hc
  rw [minis_eq, List.map_map] at this
  rw [show List.map (asExpr st ∘ mini) es = es.map (fun e => (.ok e : Res X)) from List.map_congr_left fun e he => asExpr_mini_partial (hs e he), seq_all] at this
  rwa [minis_eq]

end Verif.Pretty
