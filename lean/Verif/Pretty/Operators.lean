import Verif.Pretty.Grammar
import Verif.Pretty.Lex
/-! # The names of the operators (C97)

A binary operator of PrettyPFA becomes a call of the function whose name is the text of the operator (prettypfa.py 1683-1723, and the rules of the lexer 1302-1411); the only
exception is `idiv` (1221), because `//` begins a comment (1246-1248). -/

namespace Verif.Pretty.Lex
open Avro

/-- The text of an operator, if it is none of the names of functions. -/
def spelled (o : Bin) : List Char := if o = .idiv then ['i', 'd', 'i', 'v'] else o.name.toList

/-- The name of the function that an operator calls is the text of the operator. -/
theorem operator_text (E : Env) (o : Bin) : lex E (spelled o) = .ok [(⟨o.tm, .none, by cases o <;> decide⟩, 1)] := by
  cases o <;> rfl

/-- `idiv` calls `//`, which cannot be written. -/
theorem operator_idiv (E : Env) : Bin.name .idiv = "//" ∧ lex E (Bin.name .idiv).toList = .ok [] := ⟨rfl, rfl⟩

/-- Two operators never call the same function. -/
theorem operator_inj {o p : Bin} (h : o.name = p.name) : o = p := by
  revert h
  cases o <;> cases p <;> decide

example : spelled .rem = ['%', '%'] := by decide +kernel

/-- The name of a boolean. -/
def spelledBool (q : Bool) : String := if q then "true" else "false"

theorem flagOf_iff (k n : String) (v : Mini) (q : Bool) : flagOf k n v = .ok q ↔ n = k ∧ v = .dotName (spelledBool q) := by
  unfold flagOf
  by_cases hk : n = k
  · rw [if_neg (not_not.2 hk)]
    unfold flag
    split
    · cases q <;> simp [hk, spelledBool]
    · cases q <;> simp [hk, spelledBool]
    · next h1 h2 =>
      refine ⟨fun h => (by cases h), fun ⟨_, h⟩ => ?_⟩
      cases q with
      | true => exact absurd h h1
      | false => exact absurd h h2
  · rw [if_pos hk]
    exact ⟨fun h => (by cases h), fun h => absurd h.1 hk⟩

theorem andThen_ok {α β : Type} {r : Res α} {f : α → β} {y : β} : (andThen r fun x => .ok (f x)) = .ok y ↔ ∃ x, r = .ok x ∧ y = f x := by
  cases r with
  | error e => simp [andThen]
  | ok x => simp [andThen, eq_comm]

/-- The optional second parameter of `foreach` must be `seq: true` or `seq: false`, and it says what it says (prettypfa.py 1912-1920). -/
theorem foreach_flag (t1 t2 t3 t4 : V) (n k : String) (a v b : Mini) (r : V) :
    sem .each2 [t1, t2, .mini (.param n a), t3, .mini (.param k v), t4, .mini b] = .ok r ↔
      ∃ q, (k = "seq" ∧ v = .dotName (spelledBool q)) ∧ r = .mini (.foreach n a b q) := by
  have : sem .each2 [t1, t2, .mini (.param n a), t3, .mini (.param k v), t4, .mini b] =
    andThen (flagOf "seq" k v) fun q => .ok (.mini (.foreach n a b q)) := rfl
  rw [this, andThen_ok]
  simp only [flagOf_iff]

/-- The optional second parameter of `cast` must be `partial: true` or `partial: false` (1954-1962). -/
theorem cast_flag (t1 t2 t3 t4 t5 t6 : V) (k : String) (e v : Mini) (bs : List Mini) (r : V) :
    sem .cast2 [t1, t2, .mini e, t3, .mini (.param k v), t4, t5, .minis bs, t6] = .ok r ↔
      ∃ q, (k = "partial" ∧ v = .dotName (spelledBool q)) ∧ r = .mini (.cast e bs q) := by
  have : sem .cast2 [t1, t2, .mini e, t3, .mini (.param k v), t4, t5, .minis bs, t6] =
    andThen (flagOf "partial" k v) fun q => .ok (.mini (.cast e bs q)) := rfl
  rw [this, andThen_ok]
  simp only [flagOf_iff]

example (t : V) (a b : Mini) : sem .each2 [t, t, .mini (.param "x" a), t, .mini (.param "seq" (.dotName "false")), t, .mini b] = .ok (.mini (.foreach "x" a b false)) :=
  (foreach_flag ..).2 ⟨false, ⟨rfl, rfl⟩, rfl⟩

end Verif.Pretty.Lex
