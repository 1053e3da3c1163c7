import Verif.Reader.Back

/-!
# Where printing and reading fails

Expressions that do not come back (C45), and values whose reading raises something other than PFASyntaxException (C64).
-/

namespace Verif.Reader
open Avro Ast

@[simp] theorem app_error {α β : Type} (f : α → β) (e : Err) : Res.app f (.error e) = .error e := rfl

/-- No positions. -/
def bare : Pos := fun _ => none

/-! ## What was read and printed does not come back -/

theorem read_dotted : readArg 1 (.str "x.99999999999") = .ok (.attrGet (.ref "x") [.litInt (.int 99999999999)]) := by
  have h1 : '.' ∈ "x.99999999999".toList := by decide +kernel
  have h2 : words "x.99999999999".toList = [['x'], ['9','9','9','9','9','9','9','9','9','9','9']] := by decide +kernel
  have h3 : validSymbol (String.ofList ['x']) = true := by decide +kernel
  have h4 : Lib.Num.pyInt 10 ['9','9','9','9','9','9','9','9','9','9','9'] = some 99999999999 := by decide +kernel
  have h5 : String.ofList ['x'] = "x" := by decide +kernel
  simp only [readArg, readStep, readRef, if_pos h1, h2, if_pos h3, List.map, readWord, h4]
  simp [mk, made, isExpr, h5]

theorem reread_dotted : readArg 2 (node bare (.attrGet (.ref "x") [.litInt (.int 99999999999)])) =
    .ok (.attrGet (.ref "x") [.litLong (.int 99999999999)]) := by
  have h1 : '.' ∉ "x".toList := by decide +kernel
  have h3 : validSymbol "x" = true := by decide +kernel
  rw [node]
  refine read_obj 1 _ _ (by simp [PyDict.keys]) (ss := [("attr", .expr (.ref "x")), ("path", .elist [.litLong (.int 99999999999)])]) ?_ ?_
  · simp [readSlots, mapR, readKind, readExpr, readArg, readStep, node, nodes, readList, readRef, h1, h3, mk, made, pyInt?, isExpr]
  · simp [assemble, wrongName, build, slot, PyDict.keys, PyDict.get?, Slot.elist?, Slot.expr?, mk, made, isExpr, pyInt?]

/-- A number in a dotted name becomes a LiteralInt of any size, which is printed as a number and then read as a LiteralLong. -/
theorem dotted_violation : ∃ (v : Val) (e e' : X), readArg 1 v = .ok e ∧ readArg 2 (node bare e) = .ok e' ∧ e ≠ e' :=
  ⟨_, _, _, read_dotted, reread_dotted, by simp⟩

/-- Above 64 bits it cannot be read at all. -/
theorem dotted_big_violation : ∃ e : X, readArg 1 (.str "x.9223372036854775808") = .ok e ∧ readArg 2 (node bare e) = .error syn := by
  have h1 : '.' ∈ "x.9223372036854775808".toList := by decide +kernel
  have h2 : words "x.9223372036854775808".toList = [['x'], "9223372036854775808".toList] := by decide +kernel
  have h3 : validSymbol (String.ofList ['x']) = true := by decide +kernel
  have h4 : Lib.Num.pyInt 10 "9223372036854775808".toList = some 9223372036854775808 := by decide +kernel
  have h5 : String.ofList ['x'] = "x" := by decide +kernel
  have h6 : '.' ∉ "x".toList := by decide +kernel
  have h7 : validSymbol "x" = true := by decide +kernel
  refine ⟨.attrGet (.ref "x") [.litInt (.int 9223372036854775808)], ?_, ?_⟩
  · simp only [readArg, readStep, readRef, if_pos h1, h2, if_pos h3, List.map, readWord, h4]
    simp [mk, made, isExpr, h5]
  · simp [node, nodes, start, bare, Pos.sub, readArg, readStep, entries, readSlots, mapR, readKind, readExpr, readRef, h6, h7, mk, made, isExpr, readList]

theorem read_true : readArg 1 (.dict [("int", .bool true)]) = .ok (.litInt (.bool true)) := by
  refine read_obj 0 none _ (by simp [PyDict.keys]) (ss := [("int", .val (.bool true))]) ?_ ?_
  · simp [readSlots, mapR, readKind, readInt]
  · simp [assemble, wrongName, build, slot, PyDict.keys, PyDict.get?, Slot.val?, mk, made, pyInt?]

/-- `{"int": true}` is read as a LiteralInt, printed as `true`, and read as a LiteralBoolean. -/
theorem int_true_violation : ∃ (v : Val) (e e' : X), readArg 1 v = .ok e ∧ readArg 2 (node bare e) = .ok e' ∧ e ≠ e' :=
  ⟨_, _, .litBool true, read_true, by simp [node, readArg, readStep, mk, made], by simp⟩

/-! ## What was constructed does not come back

Every condition of `plain` is needed: an expression that the constructors accept and that breaks it. -/

/-- LiteralDouble(3) is printed as 3. -/
theorem double_int_violation : made (.litDouble (.int 3) : X) = true ∧ readArg 1 (node bare (.litDouble (.int 3))) = .ok (.litInt (.int 3)) := by
  simp [made, pyNum?, node, readArg, readStep, mk, pyInt?]

/-- LiteralFloat(3) is printed as `{"float": 3}`, which is read as 3.0. -/
theorem float_int_violation : made (.litFloat (.int 3) : X) = true ∧
    readArg 1 (node bare (.litFloat (.int 3))) = .ok (.litFloat (.flt (.fin 3))) := by
  refine ⟨rfl, ?_⟩
  rw [node]
  have h3 : intToFlt 3 = .ok (.fin 3) := by decide +kernel
  refine read_obj 0 _ _ (by simp [PyDict.keys]) (ss := [("float", .val (.flt (.fin 3)))]) ?_ ?_
  · simp [readSlots, mapR, readKind, readFloat, h3]
  · simp [assemble, wrongName, build, slot, PyDict.keys, PyDict.get?, Slot.val?, mk, made, pyNum?]

/-- The constructor of Ref takes any name. -/
theorem ref_violation : made (.ref "x.y" : X) = true ∧
    readArg 1 (node bare (.ref "x.y")) = .ok (.attrGet (.ref "x") [.litString "y"]) := by
  have h1 : '.' ∈ "x.y".toList := by decide +kernel
  have h2 : words "x.y".toList = [['x'], ['y']] := by decide +kernel
  have h3 : validSymbol (String.ofList ['x']) = true := by decide +kernel
  have h4 : Lib.Num.pyInt 10 ['y'] = none := by decide +kernel
  have h5 : String.ofList ['x'] = "x" := by decide +kernel
  have h6 : String.ofList ['y'] = "y" := by decide +kernel
  simp only [node, readArg, readStep, readRef, if_pos h1, h2, if_pos h3, List.map, readWord, h4]
  simp [mk, made, isExpr, h5, h6]

/-- A call of a function named `do` is printed as a block. -/
theorem call_violation : made (.call "do" [.litNull] : X) = true ∧ readArg 2 (node bare (.call "do" [.litNull])) = .ok (.do_ [.litNull]) := by
  refine ⟨rfl, ?_⟩
  rw [node]
  refine read_obj 1 _ _ (by simp [PyDict.keys]) (ss := [("do", .elist [.litNull])]) ?_ ?_
  · simp [readSlots, mapR, readKind, readBody, readExpr, nodes, node, readArg, readStep, mk, made, isExpr]
  · simp [assemble, wrongName, build, slot, PyDict.keys, PyDict.get?, Slot.elist?, mk, made, isExpr]

/-- A variable named `@` is dropped. -/
theorem at_violation : made (.let_ [("@", .litNull), ("x", .litNull)] : X) = true ∧
    readArg 2 (node bare (.let_ [("@", .litNull), ("x", .litNull)])) = .ok (.let_ [("x", .litNull)]) := by
  refine ⟨rfl, ?_⟩
  rw [node]
  refine read_obj 1 _ _ (by simp [PyDict.keys]) (ss := [("let", .emap [("x", .litNull)])]) ?_ ?_
  · simp [readSlots, mapR, readKind, readMap, entries, readExpr, nodesN, node, readArg, readStep, mk, made, isExpr]
  · simp [assemble, wrongName, build, slot, PyDict.keys, PyDict.get?, Slot.emap?, mk, made, isExpr, allN]

/-- A member named `@` inside the value of a Literal is dropped. -/
theorem literal_violation : made (.literal (.str "t") (.dict [("@", .null)]) : X) = true ∧
    readArg 1 (node bare (.literal (.str "t") (.dict [("@", .null)]))) = .ok (.literal (.str "t") (.dict [])) := by
  refine ⟨rfl, ?_⟩
  rw [node]
  refine read_obj 0 _ _ (by simp [PyDict.keys]) (ss := [("type", .ty (.str "t")), ("value", .val (.dict []))]) ?_ ?_
  · simp [readSlots, mapR, readKind, strip, stripD]
  · simp [assemble, wrongName, build, slot, PyDict.keys, PyDict.get?, Slot.ty?, Slot.val?, mk, made]

/-- Cond's constructor accepts branches with an else clause; the reader does not. -/
theorem cond_violation : made (.cond [.if_ .litNull [.litNull] [.litNull]] [] : X) = true ∧
    readArg 4 (node bare (.cond [.if_ .litNull [.litNull] [.litNull]] [])) = .error syn := by
  refine ⟨rfl, ?_⟩
  have h : readArg 3 (node (bare.sub 0 |>.sub 0) (.if_ .litNull [.litNull] [.litNull])) = .ok (.if_ .litNull [.litNull] [.litNull]) := by
    rw [node]
    refine read_obj 2 _ _ (by simp [PyDict.keys, opt]) (ss := [("if", .expr .litNull), ("then", .elist [.litNull]), ("else", .elist [.litNull])]) ?_ ?_
    · simp [opt, readSlots, mapR, readKind, readBody, readExpr, nodes, node, readArg, readStep, mk, made, isExpr]
    · simp [opt, assemble, wrongName, build, slot, PyDict.keys, PyDict.get?, Slot.elist?, Slot.expr?, mkElse, mk, made, isExpr]
  rw [node]
  simp only [nodes]
  rw [show (4 : Nat) = 3 + 1 from rfl, readArg]
  simp [start, bare, opt, readStep, entries, readSlots, mapR, readKind, readList, readExpr]
  rw [h]
  simp [isExpr, elseLess]

/-! ## Reading raises something else than PFASyntaxException (C64) -/

/-- `del` is missing in the list of reserved keys. -/
theorem del_violation : readArg 2 (.dict [("del", .null)]) = .error unbound := by
  have h : formOf ["del"] = none := by decide +kernel
  have h2 : "del" ∉ reserved := by decide +kernel
  have h3 : "del" ∈ List.map Prod.fst kinds := by decide +kernel
  have h4 : kindOf "del" = .expr := by decide +kernel
  simp [readArg, readStep, entries, readSlots, mapR, h4, readKind, readExpr, mk, made, isExpr, assemble, wrongName, PyDict.get?, PyDict.keys, h, h2]
  exact if_pos h3

/-- A branch of `cond` that has no else clause to look at. -/
theorem cond_null_violation : readArg 2 (.dict [("cond", .arr [.null])]) = .error (.py "AttributeError") := by
  simp [readArg, readStep, entries, readSlots, mapR, readKind, readList, readExpr, mk, made, isExpr, elseLess]

/-- An invalid name of a loop variable: the message is made with `data[keys]`. -/
theorem foreach_violation : readArg 2 (.dict [("foreach", .str "1"), ("in", .null), ("do", .null)]) = .error (.py "TypeError") := by
  have h : validSymbol "1" = false := by decide +kernel
  simp [readArg, readStep, entries, readSlots, mapR, readKind, readBody, readString, readExpr, mk, made, isExpr, assemble, wrongName, PyDict.get?, Slot.str?, h]

theorem fcn_violation : readArg 2 (.dict [("fcn", .str "1")]) = .error (.py "TypeError") := by
  have h : validFunction "1" = false := by decide +kernel
  simp [readArg, readStep, entries, readSlots, mapR, readKind, readString, assemble, wrongName, PyDict.get?, Slot.str?, h]

/-- An invalid name of a parameter. -/
theorem param_violation : readArg 2 (.dict [("params", .arr [.dict [("1", .null)]])]) = .error (.py "TypeError") := by
  have h : validSymbol "1" = false := by decide +kernel
  simp [readArg, readStep, entries, readSlots, mapR, readKind, readList, readParam, h]

/-- A parameter that is not an object. -/
theorem param_null_violation : readArg 2 (.dict [("params", .arr [.null])]) = .error unbound := by
  simp [readArg, readStep, entries, readSlots, mapR, readKind, readList, readParam]

/-- A case that is not an object. -/
theorem case_violation : readArg 2 (.dict [("cases", .arr [.null])]) = .error unbound := by
  simp [readArg, readStep, entries, readSlots, mapR, readKind, readList, readCase]

/-- Bad base64. -/
theorem base64_violation : readArg 1 (.dict [("base64", .str "A")]) = .error (.py "binascii.Error") := by
  have h : b64decode "A" = .error (.py "binascii.Error") := by rfl
  simp [readArg, readStep, entries, readSlots, mapR, readKind, readBase64, h]

/-- A whole number beyond the range of a double. -/
theorem float_violation : readArg 1 (.dict [("double", .int (10 ^ 400))]) = .error (.py "OverflowError") := by
  have h : intToFlt (10 ^ 400) = .error (.py "OverflowError") := by
    have : ¬ ((10 ^ 400 : Int).natAbs < dblLimit) := by decide +kernel
    rw [intToFlt, if_neg this]
  generalize (10 ^ 400 : Int) = i at h
  simp [readArg, readStep, entries, readSlots, mapR, readKind, readFloat, h]

/-! ## Expressions that meet the conditions of `read_node` -/

/-- A loop with a cast, a literal, a function argument and a conditional. -/
def sample : X := .do_ [.let_ [("x", .litInt (.int 3)), ("y", .litLong (.int 99999999999))],
  .foreach "z" (.ref "x") [.castBlock (.ref "z") [.castCase (.str "int") "i" [.ref "i"]] true] false,
  .cond [.if_ (.call ">" [.ref "x", .litDouble (.flt (.fin (1/2)))]) [.litNull] []] [.litString "a"],
  .call "a.map" [.literal (.str "int") (.int 1), .fcnDef [("w", .str "int")] (.str "int") [.ref "w"]],
  .error "bad" (some (-3)), .litBase64 [0, 255]]

theorem sample_ok : isArg sample = true ∧ Plain sample := by
  refine ⟨rfl, ?_⟩
  have key : ∀ e : X, made e = true → plain e = true → (∀ c, Child c e → Plain c) → Plain e := by
    intro e h1 h2 hc x hx
    cases hx with
    | refl => exact ⟨h1, h2⟩
    | step hx hy => exact hc _ hy x hx
  unfold sample
  repeat' first
    | (rename_i h; cases h)
    | (refine key _ (by decide +kernel) (by decide +kernel) ?_; intro c hc; cases hc)

theorem sample_deep : Deep 9 sample := by
  unfold sample
  repeat' first
    | (rename_i h; cases h)
    | (refine .node ?_; intro c hc; cases hc)

/-- So it comes back. -/
example : readArg 9 (node bare sample) = .ok sample := read_node 9 sample sample_deep sample_ok.1 sample_ok.2 bare

end Verif.Reader
