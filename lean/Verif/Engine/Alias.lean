import Verif.Py.Basic
import Mathlib.Algebra.Order.Ring.Rat
/-! # A library function that mutates its argument defeats rollback (C13)

In `Verif.Engine.Model` values are immutable, which is what rollback of cells relies on: the
backup of a cell is a second reference to the same object (genpy.py 550-552).  Every library
function of titus builds new objects, except `model.reg.updateChi2`, modelled here with explicit
record objects. -/

namespace Verif.Alias

/-- A heap of record objects with numeric fields (exact rationals for Python floats). -/
structure Heap where
  obj : Nat → PyDict String Rat
  next : Nat

/-- A rollback cell: the references `value` and `oldvalue` (genpy.py 525-530). -/
structure Cell where
  value : Nat
  oldvalue : Nat

def Heap.write (h : Heap) (r : Nat) (d : PyDict String Rat) : Heap :=
  { h with obj := fun i => if i = r then d else h.obj i }

/-- Number stored under a key; the record type guarantees that it is there. -/
def field (d : PyDict String Rat) (k : String) : Rat := (PyDict.get? d k).getD 0

/-- `model.reg.updateChi2` for a number (lib/model/reg.py 486-503): assigns to the fields of the
record it was given and returns that same record. -/
def regUpdateChi2 (pull : Rat) (r : Nat) (h : Heap) : Nat × Heap :=
  let h := h.write r (PyDict.set (h.obj r) "chi2" (field (h.obj r) "chi2" + pull * pull))
  let h := h.write r (PyDict.set (h.obj r) "DOF" (field (h.obj r) "DOF" + 1))
  (r, h)

/-- `stat.test.updateChi2` for a number (lib/stat/pfatest.py 177-190): `dict(state_, ...)` is a new
record. -/
def testUpdateChi2 (pull : Rat) (r : Nat) (h : Heap) : Nat × Heap :=
  let d := PyDict.set (PyDict.set (h.obj r) "chi2" (field (h.obj r) "chi2" + pull * pull))
    "dof" (field (h.obj r) "dof" + 1)
  (h.next, { obj := fun i => if i = h.next then d else h.obj i, next := h.next + 1 })

/-- An action that updates the cell through `f` for each pull and then fails: backup, updates,
exception, restore (genpy.py 235-250, 538-556). -/
def failingAction (f : Rat → Nat → Heap → Nat × Heap) (pulls : List Rat) (c : Cell) (h : Heap) :
    Cell × Heap :=
  let c := { c with oldvalue := c.value }
  let (c, h) := pulls.foldl (fun (ch : Cell × Heap) p =>
    let (r, h) := f p ch.1.value ch.2
    ({ ch.1 with value := r }, h)) (c, h)
  ({ c with value := c.oldvalue }, h)

/-- What the user reads from the cell. -/
def contents (c : Cell) (h : Heap) : PyDict String Rat := h.obj c.value

/-- C13 fails for programs that use `model.reg.updateChi2`: after the failed action the rollback
cell holds the updated sums. -/
theorem regUpdateChi2_rollback_violation :
    ∃ (h : Heap) (c : Cell) (pull : Rat),
      contents (failingAction regUpdateChi2 [pull] c h).1 (failingAction regUpdateChi2 [pull] c h).2
        ≠ contents c h :=
  ⟨⟨fun _ => [("chi2", 0), ("DOF", 0)], 1⟩, ⟨0, 0⟩, 2, by decide +kernel⟩

/-- The function that replaced it keeps the rollback guarantee, for any number of updates. -/
theorem testUpdateChi2_rollback (pulls : List Rat) (c : Cell) (h : Heap) (hc : c.value < h.next) :
    contents (failingAction testUpdateChi2 pulls c h).1 (failingAction testUpdateChi2 pulls c h).2
      = contents c h := by
  have key : ∀ (pulls : List Rat) (c : Cell) (h : Heap), c.oldvalue < h.next →
      let r := pulls.foldl (fun (ch : Cell × Heap) p =>
        let (r, h) := testUpdateChi2 p ch.1.value ch.2
        ({ ch.1 with value := r }, h)) (c, h)
      r.2.obj r.1.oldvalue = h.obj c.oldvalue ∧ r.1.oldvalue = c.oldvalue := by
    intro pulls
    induction pulls with
    | nil => intro c h _; exact ⟨rfl, rfl⟩
    | cons p ps ih =>
      intro c h hlt
      simp only [List.foldl_cons]
      have := ih { c with value := (testUpdateChi2 p c.value h).1 } (testUpdateChi2 p c.value h).2
        (by simp only [testUpdateChi2]; omega)
      refine ⟨this.1.trans ?_, this.2⟩
      have hne : c.oldvalue ≠ h.next := by omega
      simp [testUpdateChi2, hne]
  have := key pulls { c with oldvalue := c.value } h hc
  simpa [failingAction, contents] using this.1

end Verif.Alias
