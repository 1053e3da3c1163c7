import Verif.Reader.Config
/-! # The printed sources of cells and pools (C81)

Cells and pools whose data are in the document are printed without a source, and the others with it (pfaast.py 1186-1204, 1286-1304). -/

namespace Verif.Reader
open Avro

/-- The source is printed exactly if the data are elsewhere. -/
theorem pool_source (pos : Pos) (c : PoolDef) : ∃ d, c.node pos = .dict d ∧ (c.source = "embedded" → PyDict.get? d "source" = none) ∧
    (c.source ≠ "embedded" → PyDict.get? d "source" = some (.str c.source)) := by
  refine ⟨_, rfl, fun h => ?_, fun h => ?_⟩
  · cases pos [] <;> simp [start, opt, h, PyDict.get?]
  · cases pos [] <;> simp [start, opt, h, PyDict.get?]

@[inherit_doc pool_source] theorem cell_source (load : String → String → Val) (pos : Pos) (c : CellDef) : ∃ d, c.node load pos = .dict d ∧ (c.source = "embedded" → PyDict.get? d "source" = none) ∧
    (c.source ≠ "embedded" → PyDict.get? d "source" = some (.str c.source)) := by
  refine ⟨_, rfl, fun h => ?_, fun h => ?_⟩
  · cases pos [] <;> simp [start, opt, h, PyDict.get?]
  · cases pos [] <;> simp [start, opt, h, PyDict.get?]

example : (PoolDef.node (fun _ => none) ⟨.str "int", [], false, false, "avro"⟩) =
    .dict [("type", .str "int"), ("init", .dict []), ("shared", .bool false), ("rollback", .bool false), ("source", .str "avro")] := by rfl

end Verif.Reader
