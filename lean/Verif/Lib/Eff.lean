import Verif.Py.Basic
/-!
# Calls of user functions

A user function given to a library function may raise, and may read and change engine state
(cells, pools, emitted values, the log, the random generator).  `callfcn` (util.py 155-179)
binds the arguments in a fresh scope and runs the body; nothing of the caller's scope is
changed.  So a user function is modelled by `α → Eff σ β` for an arbitrary state type `σ`.
-/

namespace Verif.Lib

/-- A Python computation: starts in a state, ends in a value or an exception, and in a state. -/
abbrev Eff (σ α : Type _) := σ → Res α × σ

/-- A user function without effects. -/
def ret {σ α : Type _} (x : α) : Eff σ α := fun s => (.ok x, s)

variable {σ α β : Type _}

/-! ## Specification of call sequences -/

/-- `Chain f s tr s'`: starting in `s`, the calls listed in the trace `tr` (argument, result)
happen one after the other, each in the state the one before left, none raises, and the last
leaves `s'`. -/
inductive Chain (f : α → Eff σ β) : σ → List (α × β) → σ → Prop
  | nil (s : σ) : Chain f s [] s
  | cons {s a b s1 tr s2} : f a s = (.ok b, s1) → Chain f s1 tr s2 → Chain f s ((a, b) :: tr) s2

/-- The calls on a list of arguments either all succeed, or the first so many succeed and the
next raises. -/
theorem chain_or_fails (f : α → Eff σ β) (xs : List α) (s : σ) :
    (∃ tr s', tr.map Prod.fst = xs ∧ Chain f s tr s') ∨
    (∃ tr a rest s1 e s2, xs = tr.map Prod.fst ++ a :: rest ∧ Chain f s tr s1 ∧
      f a s1 = (.error e, s2)) := by
  induction xs generalizing s with
  | nil => exact .inl ⟨[], s, rfl, .nil s⟩
  | cons x xs ih =>
    rcases h : f x s with ⟨r, s1⟩
    cases r with
    | error e => exact .inr ⟨[], x, xs, s, e, s1, rfl, .nil s, h⟩
    | ok b =>
      rcases ih s1 with ⟨tr, s', h1, h2⟩ | ⟨tr, a, rest, s2, e, s3, h1, h2, h3⟩
      · exact .inl ⟨(x, b) :: tr, s', by simp [h1], .cons h h2⟩
      · exact .inr ⟨(x, b) :: tr, a, rest, s2, e, s3, by simp [h1], .cons h h2, h3⟩

/-- Call sequences are determined by their arguments. -/
theorem Chain.unique {f : α → Eff σ β} {s : σ} {tr tr' : List (α × β)} {s1 s2 : σ}
    (h : Chain f s tr s1) (h' : Chain f s tr' s2) (he : tr.map Prod.fst = tr'.map Prod.fst) :
    tr = tr' ∧ s1 = s2 := by
  induction h generalizing tr' s2 with
  | nil s => cases h' with
    | nil => exact ⟨rfl, rfl⟩
    | cons _ _ => simp at he
  | cons hf _ ih => cases h' with
    | nil => simp at he
    | cons hf' h2 =>
      simp only [List.map_cons, List.cons.injEq] at he
      obtain ⟨rfl, he⟩ := he
      rw [hf] at hf'
      cases hf'
      obtain ⟨rfl, rfl⟩ := ih h2 he
      exact ⟨rfl, rfl⟩

/-- Effect-free calls. -/
theorem chain_pure (g : α → β) (xs : List α) (s : σ) :
    Chain (fun a => ret (g a)) s (xs.map fun x => (x, g x)) s := by
  induction xs with
  | nil => exact .nil s
  | cons x xs ih => exact .cons rfl ih

theorem Chain.append {f : α → Eff σ β} {s s1 s2 : σ} {tr tr' : List (α × β)}
    (h : Chain f s tr s1) (h' : Chain f s1 tr' s2) : Chain f s (tr ++ tr') s2 := by
  induction h with
  | nil => exact h'
  | cons hf _ ih => exact .cons hf (ih h')

end Verif.Lib
