import Verif.Py.Basic
/-! # Call graph queries of an engine (genpy.py 1660-1743) -/

namespace Verif.CallGraph

abbrev Name := String

/-- `self.callGraph` (genpy.py 169-175): what each function, and "(begin)", "(action)", "(end)",
"(merge)", calls directly.  Sets of names are lists, used only through membership. -/
abbrev Graph := PyDict Name (List Name)

/-- How many functions of the graph are not in `exclude`: the recursion of `calledBy` and
`callDepth` terminates because this decreases. -/
def free (g : Graph) (exclude : List Name) : Nat :=
  (g.filter fun e => !exclude.contains e.1).length

theorem free_le (g : Graph) (exclude : List Name) (f : Name) :
    free g (f :: exclude) ≤ free g exclude := by
  unfold free
  rw [← List.countP_eq_length_filter, ← List.countP_eq_length_filter]
  apply List.countP_mono_left
  intro e _ h
  simp at h ⊢
  exact h.2

theorem free_lt {g : Graph} {exclude : List Name} {f : Name} {cs : List Name}
    (hf : ¬ exclude.contains f = true) (hg : PyDict.get? g f = some cs) :
    free g (f :: exclude) < free g exclude := by
  induction g with
  | nil => simp [PyDict.get?] at hg
  | cons e g ih =>
    have mono := free_le g exclude f
    by_cases he : e.1 = f
    · subst he
      have hf' : e.1 ∉ exclude := by simpa using hf
      simp only [free, List.filter_cons] at mono ⊢
      simp_all
      omega
    · have hg' : PyDict.get? g f = some cs := by
        obtain ⟨k, v⟩ := e
        simpa [PyDict.get?, he] using hg
      have := ih hg'
      simp only [free, List.filter_cons] at this ⊢
      by_cases h2 : e.1 ∈ exclude <;> simp_all

/-- genpy.py 1660-1683. -/
def calledBy (g : Graph) (exclude : List Name) (f : Name) : List Name :=
  if hx : exclude.contains f = true then []
  else match hg : PyDict.get? g f with
    | some cs => cs ++ cs.flatMap fun c => calledBy g (f :: exclude) c
    | none => []
termination_by free g exclude
decreasing_by exact free_lt hx hg

/-- The larger of two depths; `none` is `float("inf")` (genpy.py 1708-1709). -/
def deeper (deepest fdepth : Option Nat) : Option Nat :=
  match fdepth, deepest with
  | none, some _ => none
  | some a, some b => if b < a then some a else some b
  | _, none => none

/-- genpy.py 1685-1712. -/
def callDepth (g : Graph) (exclude : List Name) (start : Nat) (f : Name) : Option Nat :=
  if hx : exclude.contains f = true then none
  else match hg : PyDict.get? g f with
    | some cs =>
      cs.foldl (fun deepest c => deeper deepest (callDepth g (f :: exclude) (start + 1) c))
        (some start)
    | none => some start
termination_by free g exclude
decreasing_by exact free_lt hx hg

/-- genpy.py 1714-1722. -/
def isRecursive (g : Graph) (f : Name) : Bool := (calledBy g [] f).contains f

/-- genpy.py 1724-1732. -/
def hasRecursive (g : Graph) (f : Name) : Bool := (callDepth g [] 0 f).isNone

/-- genpy.py 1734-1743; the `desc` strings are pfaast.py 3648, 3897, 4000. -/
def hasSideEffects (g : Graph) (f : Name) : Bool :=
  let reach := calledBy g [] f
  reach.contains "cell-to" || reach.contains "pool-to" || reach.contains "pool-del"

end Verif.CallGraph
