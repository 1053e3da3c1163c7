import Verif.Reader.Back
/-! # Keys that may be left out (C45)

Leaving out an optional key means the same as writing its documented default: `seq` true, `partial` false, an empty
path.  Leaving out `else`, `code`, `filter` or `namespace` gives a node without it. -/

namespace Verif.Reader
open Verif.Avro (Val)
open Verif.Ast

variable (ss : List (String × Slot)) (n : String) (a : X) (b : List X)

/-- `reader.py` 771-772. -/
theorem foreach_default (hn : PyDict.get? ss "foreach" = some (.str n)) (ha : PyDict.get? ss "in" = some (.expr a))
    (hb : PyDict.get? ss "do" = some (.elist b)) (hs : PyDict.get? ss "seq" = some (.bool true)) :
    build ss .foreach = build ss .foreachSeq := by
  simp [build, slot, hn, ha, hb, hs, Slot.str?, Slot.expr?, Slot.elist?, Slot.bool?]

theorem cast_default (ha : PyDict.get? ss "cast" = some (.expr a)) (hb : PyDict.get? ss "cases" = some (.elist b))
    (hs : PyDict.get? ss "partial" = some (.bool false)) : build ss .cast = build ss .castPartial := by
  simp [build, slot, ha, hb, hs, Slot.expr?, Slot.elist?, Slot.bool?]

theorem cell_default (hn : PyDict.get? ss "cell" = some (.str n)) (hb : PyDict.get? ss "path" = some (.elist [])) :
    build ss .cell = build ss .cellPath := by
  simp [build, slot, hn, hb, Slot.str?, Slot.elist?]

theorem cellTo_default (hn : PyDict.get? ss "cell" = some (.str n)) (hb : PyDict.get? ss "path" = some (.elist []))
    (ha : PyDict.get? ss "to" = some (.expr a)) : build ss .cellTo = build ss .cellPathTo := by
  simp [build, slot, hn, hb, ha, Slot.str?, Slot.elist?, Slot.expr?]

/-- The slots of `{"foreach": "i", "in": "xs", "do": [], "seq": true}`. -/
example : build [("foreach", .str "i"), ("in", .expr (.ref "xs")), ("do", .elist [.ref "i"]), ("seq", .bool true)] .foreach =
    build [("foreach", .str "i"), ("in", .expr (.ref "xs")), ("do", .elist [.ref "i"]), ("seq", .bool true)] .foreachSeq :=
  foreach_default _ "i" (.ref "xs") [.ref "i"] rfl rfl rfl rfl

end Verif.Reader
