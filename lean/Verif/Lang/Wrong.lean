import Verif.Lang.Example
/-!
# Checked programs that go wrong (C42)

The check of the code (`Guard.all`) accepts programs that raise undeclared exceptions or return data of a
type other than the inferred one.  Each example here is an engine with one action; each breaks one of the
conditions of `strictGuard`.
-/

namespace Verif.Lang
open Avro Scope Path Sig Ast

/-- The engine passes the check, its state is right, and an action on some datum of the input type goes wrong: a
wrong type or an undeclared exception, which no choice of fuel can turn into a right one. -/
def GoesWrong (P : Prog) (cfg : Config) : Prop :=
  ∃ c, compile P Guard.all (walk P Guard.all 8) cfg = .ok c ∧ FunsOk P (walk P Guard.all 8) ∧
  ∃ st x, EngineOk P (Data P.env) cfg st ∧ Data P.env cfg.input x ∧
  ∃ ex, ¬ ResultOk (Data P.env) cfg c (.action x)
    (step cfg c (fun _ => false) (fun _ => false) (rtN P (walk P Guard.all 8) 5 ex smallLib 3) ⟨"", 0, .dict []⟩ st (.action x)).1

/-- A program without anything. -/
def bare : Prog where
  env := []
  cells := []
  pools := []
  funs := []
  version := ⟨0, 8, 1⟩
  decode := dec (fun _ => none) [] 3
  msg _ := ""
  floats := ⟨fun _ => .ok [], fun _ => .ok []⟩

/-- A map engine. -/
def oneAction (input output : AType) (action : List Ex) : Config := ⟨.map, input, output, none, [], action, [], none⟩

def bareState : EngineState := ⟨⟨[], [], 0, [], []⟩, .null, 0, 0⟩

theorem bare_state (i o : AType) (a : List Ex) : EngineOk bare (Data []) (oneAction i o a) bareState where
  world := ⟨fun c t h => (by cases h), fun p t h => (by cases h)⟩
  tally := fun h => by cases h
  finished := ⟨le_refl _, le_refl _⟩

theorem bare_funs : FunsOk bare (walk bare Guard.all 8) := fun _ _ _ _ h => by cases h

theorem notAllowed {s : String} (h : Err.py s ≠ recErr) (h' : s ≠ "unfinished") : ¬ Allowed (.py s) := by
  rintro (h1 | h1)
  · exact h h1
  · exact h' (by simpa [unfinished] using h1)

/-- An action of `bare` that raises an undeclared exception. -/
theorem bare_wrong {i o : AType} {a : List Ex} {x : Val} (hx : Data [] i x) {s : String} {ex : Nat → Bool}
    (h : ∃ c, compile bare Guard.all (walk bare Guard.all 8) (oneAction i o a) = .ok c ∧
      (step (oneAction i o a) c (fun _ => false) (fun _ => false) (rtN bare (walk bare Guard.all 8) 5 ex smallLib 3) ⟨"", 0, .dict []⟩ bareState (.action x)).1
        = .error (.py s)) (hs : Err.py s ≠ recErr ∧ s ≠ "unfinished") : GoesWrong bare (oneAction i o a) := by
  obtain ⟨c, h1, h2⟩ := h
  refine ⟨c, h1, bare_funs, bareState, x, bare_state i o a, hx, ex, ?_⟩
  rw [h2]
  exact notAllowed hs.1 hs.2

/-- An action of `bare` that returns what is not of the output type. -/
theorem bare_value {i o : AType} {a : List Ex} {x v : Val} (hx : Data [] i x)
    (h : ∃ c, compile bare Guard.all (walk bare Guard.all 8) (oneAction i o a) = .ok c ∧
      (step (oneAction i o a) c (fun _ => false) (fun _ => false) (rtN bare (walk bare Guard.all 8) 5 (fun _ => false) smallLib 3) ⟨"", 0, .dict []⟩ bareState (.action x)).1
        = .ok v) (hv : ¬ Data [] o v) : GoesWrong bare (oneAction i o a) := by
  obtain ⟨c, h1, h2⟩ := h
  refine ⟨c, h1, bare_funs, bareState, x, bare_state i o a, hx, fun _ => false, ?_⟩
  rw [h2]
  exact fun h => hv (h (by simp [oneAction]))

/-- A union whose members are all numbers is accepted as a double (datatype.py 206-287); its values are tagged. -/
theorem number_union_violation : GoesWrong bare (oneAction (.union [.int]) .double [.ref "input"]) :=
  bare_value (.union (t := .int) (v := .int 3) (by simp) (by simp) (.int (by decide) (by decide))) ⟨_, rfl, rfl⟩ (by intro h; cases h)

/-- Two variables of different scopes in one `set` (genpy.py 376, util.py 134-153). -/
theorem two_scopes_violation : GoesWrong bare (oneAction .int .null [.let_ [("x", .litInt (.int 1))],
    .if_ (.litBool true) [.let_ [("y", .litInt (.int 2))], .setVar [("x", .litInt (.int 3)), ("y", .litInt (.int 4))]] []]) :=
  bare_wrong (x := .int 3) (.int (by decide) (by decide)) (s := "RuntimeError") (ex := fun _ => false) ⟨_, rfl, rfl⟩ ⟨by decide, by decide⟩

/-- A number that does not fit (genpy.py 1102-1173): `struct.error`. -/
theorem pack_violation : GoesWrong bare (oneAction .int .bytes [.pack [("unsigned byte", .ref "input")]]) :=
  bare_wrong (x := .int 300) (.int (by decide) (by decide)) (s := "struct.error") (ex := fun _ => false) ⟨_, rfl, rfl⟩ ⟨by decide, by decide⟩

/-- Bytes cannot be logged (genpy.py 1302-1311). -/
theorem log_violation : GoesWrong bare (oneAction .bytes .null [.log [.ref "input"] none]) :=
  bare_wrong (x := .bytes [1]) (.bytes (by simp [Pack.Bytes])) (s := "TypeError") (ex := fun _ => false) ⟨_, rfl, rfl⟩ ⟨by decide, by decide⟩

/-- Literal bytes are text (reader.py 497, pfaast.py 2548), which cannot be unpacked. -/
theorem unpack_violation : GoesWrong bare (oneAction .int .int [.unpack (.litBase64 [65]) [("x", "byte")] [.ref "x"] [.litInt (.int 0)]]) :=
  bare_wrong (x := .int 3) (.int (by decide) (by decide)) (s := "TypeError") (ex := fun _ => false) ⟨_, rfl, rfl⟩ ⟨by decide, by decide⟩

/-- A timeout inside `try` with a filter (genpy.py 1280-1300): the exception has no `code`. -/
theorem filter_violation : GoesWrong bare (oneAction .int (.union [.int, .null])
    [.try_ [.while_ (.litBool true) [.litNull], .litInt (.int 1)] (some [.int 1])]) := by
  refine bare_wrong (x := .int 3) (.int (by decide) (by decide)) (s := "AttributeError") (ex := fun _ => true) ?_ ⟨by decide, by decide⟩
  exact ⟨_, rfl, rfl⟩

/-- Untagged values stand where a union is declared. -/
theorem untagged_violation : GoesWrong bare (oneAction .int (.union [.int, .null]) [.ref "input"]) :=
  bare_value (x := .int 3) (.int (by decide) (by decide)) ⟨_, rfl, rfl⟩ (by intro h; cases h)

/-- A `cast` from a union with a map: types are read back from their JSON form, where a map becomes an array
(datatype.py 804-805), so the name occurs twice (AvroException). -/
theorem cast_violation : GoesWrong bare (oneAction (.union [.array .int, .map .int]) .int
    [.castBlock (.ref "input") [.castCase (.array .int) "a" [.litInt (.int 1)], .castCase (.map .int) "m" [.litInt (.int 2)]] false]) := by
  refine ⟨_, rfl, bare_funs, bareState, .dict [("array", .arr [])], bare_state _ _ _, ?_, fun _ => false, ?_⟩
  · exact .union (t := .array .int) (by simp) (by simp) (.array (by simp))
  · change ¬ Allowed .avro
    rintro (h | h) <;> cases h

/-- The case of a map never runs. -/
theorem cast_mapcase_violation : GoesWrong bare (oneAction (.union [.int, .map .int]) .int
    [.castBlock (.ref "input") [.castCase .int "a" [.litInt (.int 1)], .castCase (.map .int) "m" [.litInt (.int 2)]] false]) := by
  refine bare_value (x := .dict [("map", .dict [])]) (v := .null) ?_ ⟨_, rfl, rfl⟩ (by intro h; cases h)
  exact .union (t := .map .int) (by simp) (by simp) (.map (d := []) List.nodup_nil (fun k x h => by cases h))

/-- The value of a type with a namespace stays tagged in `ifnotnull` (genpy.py 1035-1043). -/
theorem notnull_violation : GoesWrong bare (oneAction (.union [.null, .enum ⟨"com.x", "E"⟩ ["a"]]) (.enum ⟨"com.x", "E"⟩ ["a"])
    [.ifNotNull [("v", .ref "input")] [.ref "v"] [.error "null" none]]) := by
  refine bare_value (x := .dict [("E", .str "a")]) (v := .dict [("E", .str "a")]) ?_ ⟨_, rfl, rfl⟩ (by intro h; cases h)
  exact .union (t := .enum ⟨"com.x", "E"⟩ ["a"]) (by simp) (by simp) (.enum (by simp))

/-! ## With functions -/

/-- Two cells and a function of two parameters that returns the first; the library function `s.lower`. -/
def withFuns : Prog := { bare with
  cells := [("n", .int), ("s", .string)]
  funs := [("u.first", .user [("x", .int), ("y", .int)] .int [.ref "x"]),
    ("s.lower", .lib [⟨[("s", .string)], .string, ⟨none, none, none⟩⟩])] }

def cellState : EngineState := ⟨⟨[("n", .int 5), ("s", .str "A")], [], 0, [], []⟩, .null, 0, 0⟩

theorem cell_state (i o : AType) (a : List Ex) : EngineOk withFuns (Data []) (oneAction i o a) cellState where
  world := by
    refine ⟨fun c t h => ?_, fun p t h => by cases h⟩
    have hm := PyDict.mem_of_get? h
    simp only [withFuns, List.mem_cons, Prod.mk.injEq, List.not_mem_nil, or_false] at hm
    rcases hm with ⟨rfl, rfl⟩ | ⟨rfl, rfl⟩
    · exact ⟨_, rfl, .int (by decide) (by decide)⟩
    · exact ⟨_, rfl, .string _⟩
  tally := fun h => by cases h
  finished := ⟨le_refl _, le_refl _⟩

theorem funs_ok : FunsOk withFuns (walk withFuns Guard.all 8) := by
  intro name ps ret body h
  have hm := PyDict.mem_of_get? h
  simp only [withFuns, List.mem_cons, Prod.mk.injEq, List.not_mem_nil, or_false] at hm
  rcases hm with ⟨rfl, h1⟩ | ⟨rfl, h1⟩
  · cases h1; exact ⟨_, rfl⟩
  · cases h1

/-- The arguments in a function reference with fixed arguments are not checked (pfaast.py 1676-1739): a text is stored in a cell of
integers. -/
theorem fill_violation : GoesWrong withFuns (oneAction .int .int [.cellTo "n" [] (.fcnRefFill "u.first" [("x", .litString "no")]), .cellGet "n" []]) := by
  refine ⟨_, rfl, funs_ok, cellState, .int 3, cell_state _ _ _, .int (by decide) (by decide), fun _ => false, ?_⟩
  change ¬ (_ → Data [] .int (.str "no"))
  intro h
  have := h (by simp [oneAction])
  cases this

/-- A library function as the new value of a cell (genpy.py 709-715): it has no parameter names. -/
theorem libTo_violation : GoesWrong withFuns (oneAction .int .string [.cellTo "s" [] (.fcnRef "s.lower"), .cellGet "s" []]) := by
  refine ⟨_, rfl, funs_ok, cellState, .int 3, cell_state _ _ _, .int (by decide) (by decide), fun _ => false, ?_⟩
  change ¬ Allowed (.py "AttributeError")
  exact notAllowed (by decide) (by decide)

end Verif.Lang
