import Verif.Lang.Inst
/-!
# An engine that does not go wrong (C42)

A small library and an engine with cells, a function, loops, branches and a cast; it passes the
check with the conditions of `strictGuard`, so `engine_sound_partial` applies to it.
-/

namespace Verif.Lang
open Avro Scope Path Sig Ast

/-! ## A library -/

/-- `paramTypes[0]` of an integer call. -/
def itype : AType → Option Arith.IType
  | .int => some .int
  | .long => some .long
  | _ => none

/-- `[callfcn(state, scope, fcn, [x]) for x in a]` (lib/array.py 926) -/
def mapCalls (f : List Val → M Val) : List Val → M (List Val)
  | [] => pure []
  | x :: xs => do
    let y ← f [x]
    let ys ← mapCalls f xs
    pure (y :: ys)

/-- `+` (lib/core.py 62-68) and `<` (259-265) on integers, `a.map` (lib/array.py 921-926); calls with
other arguments are not modelled. -/
def smallLib (name : String) (paramTypes : Option (List CType)) (args : List Arg) : M Val :=
  match name, paramTypes, args with
  | "+", some (.avro t :: _), [.val (.int x), .val (.int y)] => match itype t with
    | some it => lift (Res.app .int (Arith.plus it x y))
    | none => raise (.py "not modelled")
  | "<", _, [.val (.int x), .val (.int y)] => pure (.bool (decide (x < y)))
  | "a.map", _, [.val (.arr vs), .fn _ f] => do
    let ys ← mapCalls f vs
    pure (.arr ys)
  | _, _, _ => raise (.py "not modelled")

theorem data_long {env : Env} {t : AType} {v : Val} (hs : sub .long t = true) (h : Data env t v) : ∃ i : Int, v = .int i := by
  cases sub_data hs h; exact ⟨_, rfl⟩

theorem mapCalls_ok {I : St → Prop} {Q R : Val → Prop} {f : List Val → M Val} (hf : ∀ v, Q v → Pres I R (f [v])) (vs : List Val) (hv : ∀ v ∈ vs, Q v) :
    Pres I (fun ys => ∀ y ∈ ys, R y) (mapCalls f vs) := by
  induction vs with
  | nil => exact Pres.pure (by simp)
  | cons x xs ih =>
    refine Pres.bind (hf x (hv x (List.mem_cons_self ..))) (fun y hy => Pres.bind (ih (fun v h => hv v (List.mem_cons_of_mem _ h))) (fun ys hys => Pres.pure ?_))
    intro z hz
    rcases List.mem_cons.1 hz with rfl | hz
    · exact hy
    · exact hys z hz

theorem smallLib_ok (env : Env) : LibOk (strictGuard env) (Data env) smallLib where
  call name tys ps r h I hI args ha := by
    simp only [strictGuard, libCall] at h
    split at h
    · next a b p q r' =>
      simp only [Bool.and_eq_true, Bool.or_eq_true, decide_eq_true_eq] at h
      obtain ⟨⟨⟨rfl, hp⟩, h1⟩, h2⟩ := h
      cases ha with
      | cons ha1 ha2 => cases ha2 with
        | cons ha2 ha3 =>
          cases ha3
          next x y =>
          cases x with
          | fn => exact ha1.elim
          | val x => cases y with
            | fn => exact ha2.elim
            | val y =>
              obtain ⟨x, rfl⟩ := data_long h1 ha1
              obtain ⟨y, rfl⟩ := data_long h2 ha2
              rcases hp with rfl | rfl
              · simp only [smallLib, itype, List.cons_append]
                refine Pres.lift ?_
                simp only [Arith.plus, Arith.checkForOverflow]
                by_cases ho : x + y < Arith.minVal .int ∨ x + y > Arith.maxVal .int
                · rw [if_pos ho]; trivial
                · rw [if_neg ho]
                  simp only [Arith.minVal, Arith.maxVal] at ho
                  exact Data.int (by omega) (by omega)
              · simp only [smallLib, itype, List.cons_append]
                refine Pres.lift ?_
                simp only [Arith.plus, Arith.checkForOverflow]
                by_cases ho : x + y < Arith.minVal .long ∨ x + y > Arith.maxVal .long
                · rw [if_pos ho]; trivial
                · rw [if_neg ho]
                  simp only [Arith.minVal, Arith.maxVal] at ho
                  exact Data.long (by omega) (by omega)
    · next a b =>
      simp only [Bool.and_eq_true] at h
      cases ha with
      | cons ha1 ha2 => cases ha2 with
        | cons ha2 ha3 =>
          cases ha3
          next x y =>
          cases x with
          | fn => exact ha1.elim
          | val x => cases y with
            | fn => exact ha2.elim
            | val y =>
              obtain ⟨x, rfl⟩ := data_long h.1 ha1
              obtain ⟨y, rfl⟩ := data_long h.2 ha2
              exact Pres.pure (Data.boolean _)
    · next a p b q =>
      simp only [Bool.and_eq_true] at h
      cases ha with
      | cons ha1 ha2 => cases ha2 with
        | cons ha2 ha3 =>
          cases ha3
          next x y =>
          cases x with
          | fn => exact ha1.elim
          | val x => cases y with
            | val => exact ha2.elim
            | fn l f =>
              cases ha1 with
              | array hvs =>
                refine Pres.bind (mapCalls_ok (R := Data env b) (fun v hv => ?_) _ hvs) (fun ys hys => Pres.pure (Data.array (fun y hy => sub_data h.2 (hys y hy))))
                exact ha2 [v] (.cons (sub_data h.1 hv) .nil)
    · cases h
  ref name ps r h := by cases h

/-! ## An engine -/

/-- Numbers. -/
def anyNum : Pat := .wild "A" (some [.int, .long, .float, .double])

def demoEnv : Env := [(⟨"", "Last"⟩, [{ name := "value", type := .union [.null, .int] }, { name := "seen", type := .array .int }])]

/-- The cell `n` counts; the cell `last` is a record with a union in it.  The function `u.twice` doubles a long. -/
def demoProg : Prog where
  env := demoEnv
  cells := [("n", .int), ("last", .record ⟨"", "Last"⟩)]
  pools := [("p", .array .int)]
  funs := [("u.twice", .user [("x", .long)] .long [.call "+" [.ref "x", .ref "x"]]),
    ("+", .lib [⟨[("x", anyNum), ("y", .wild "A" none)], .wild "A" none, ⟨none, none, none⟩⟩]),
    ("<", .lib [⟨[("x", .wild "A" none), ("y", .wild "A" none)], .boolean, ⟨none, none, none⟩⟩]),
    ("a.map", .lib [⟨[("a", .array (.wild "A" none)), ("fcn", .fcn [.wild "A" none] (.wild "B" none))], .array (.wild "B" none), ⟨none, none, none⟩⟩])]
  version := ⟨0, 8, 1⟩
  decode := dec (fun _ => none) demoEnv 1
  msg _ := ""
  floats := ⟨fun _ => .ok [], fun _ => .ok []⟩

/-- A fold engine: adds the doubled items of its input to the tally, and fails when the sum gets large. -/
def demo : Config where
  method := .fold
  input := .array .int
  output := .long
  version := some 3
  begin_ := [.cellTo "n" [] (.litInt (.int 0))]
  action := [
    .let_ [("total", .ref "tally")],
    .foreach "i" (.ref "input") [.setVar [("total", .call "+" [.ref "total", .call "u.twice" [.ref "i"]])]] true,
    .cellTo "n" [] (.fcnDef [("old", .int)] .int [.call "+" [.ref "old", .litInt (.int 1)]]),
    .let_ [("ys", .call "a.map" [.ref "input", .fcnDef [("x", .int)] .int [.call "+" [.ref "x", .cellGet "n" []]]])],
    .cellTo "last" [.litString "seen"] (.ref "ys"),
    .poolTo "p" [.litString "all"] (.ref "ys") (.newArray [] (.array .int)),
    .ifNotNull [("v", .cellGet "last" [.litString "value"])] [.setVar [("total", .call "+" [.ref "total", .ref "v"])]] [],
    .castBlock (.cellGet "last" [.litString "value"]) [.castCase .int "k" [.setVar [("total", .call "+" [.ref "total", .ref "k"])]], .castCase .null "z" [.litNull]] false,
    .if_ (.call "<" [.ref "total", .litLong (.int 1000000)]) [.ref "total"] [.error "too large" (some (-1))]]
  end_ := [.log [.cellGet "n" [], .ref "tally"] none]
  merge := some [.call "+" [.ref "tallyOne", .ref "tallyTwo"]]

def demoWorld : World where
  cells := [("n", .int 0), ("last", .dict [("value", .dict [("int", .int 7)]), ("seen", .arr [])])]
  pools := [("p", [])]

theorem demo_compiles : ∃ c, compile demoProg (strictGuard demoEnv) (walk demoProg (strictGuard demoEnv) 8) demo = .ok c := ⟨_, rfl⟩

theorem demo_funs : FunsOk demoProg (walk demoProg (strictGuard demoEnv) 8) := by
  intro name ps ret body h
  have hm := PyDict.mem_of_get? h
  simp only [demoProg, List.mem_cons, Prod.mk.injEq, List.not_mem_nil, or_false] at hm
  rcases hm with ⟨rfl, h1⟩ | ⟨rfl, h1⟩ | ⟨rfl, h1⟩ | ⟨rfl, h1⟩
  · cases h1; exact ⟨_, rfl⟩
  · cases h1
  · cases h1
  · cases h1

def demoState : EngineState := ⟨demoWorld, .int 0, 0, 0⟩

theorem demo_state : EngineOk demoProg (Data demoEnv) demo demoState where
  world := by
    refine ⟨fun c t hc => ?_, fun p t hp => ?_⟩
    · have hm := PyDict.mem_of_get? hc
      simp only [demoProg, List.mem_cons, Prod.mk.injEq, List.not_mem_nil, or_false] at hm
      rcases hm with ⟨rfl, rfl⟩ | ⟨rfl, rfl⟩
      · exact ⟨_, rfl, .int (by decide) (by decide)⟩
      · exact ⟨_, rfl, isData_data 3 (by decide +kernel)⟩
    · have hm := PyDict.mem_of_get? hp
      simp only [demoProg, List.mem_cons, Prod.mk.injEq, List.not_mem_nil, or_false] at hm
      obtain ⟨rfl, rfl⟩ := hm
      exact ⟨_, rfl, .map (d := []) List.nodup_nil (fun k x h => by cases h)⟩
  tally := fun _ => .long (by decide) (by decide)
  finished := ⟨le_refl _, le_refl _⟩

/-- The engine does not go wrong in fewer than 2⁶³ calls. -/
theorem demo_sound {c : Compiled} (hc : compile demoProg (strictGuard demoEnv) (walk demoProg (strictGuard demoEnv) 8) demo = .ok c) (fuel n : Nat)
    (ex : Nat → Bool) (rbC rbP : String → Bool) (xs : List Step) (hx : ∀ x ∈ xs, StepOk (Data demoEnv) demo x) (hN : xs.length < 2 ^ 63) :
    List.Forall₂ (ResultOk (Data demoEnv) demo c) xs
      (steps demo c rbC rbP (rtN demoProg (walk demoProg (strictGuard demoEnv) 8) fuel ex smallLib n) ⟨"demo", 0, .dict []⟩ demoState xs).1 :=
  (engine_sound_partial (fit (P := demoProg) (pf := fun _ => none) (n := 0) rfl) (N := 2 ^ 63 - 1) (fun n h1 h2 => .long (by omega) (by omega)) demo_funs hc
    (smallLib_ok demoEnv) fuel n ex (.int (by decide) (by decide)) (fun n h => by cases h; exact .int (by decide) (by decide))
    (.map (d := []) List.nodup_nil (fun k x h => by cases h)) rbC rbP xs hx demoState demo_state (by
      simp only [demoState]
      have : (xs.length : Int) < 2 ^ 63 := by exact_mod_cast hN
      omega)).1

/-- What it returns, to begin with. -/
def demoRun (xs : List Step) : Res (List (Res Val)) :=
  Res.app (fun c => (steps demo c (fun _ => false) (fun _ => false) (rtN demoProg (walk demoProg (strictGuard demoEnv) 8) 100 (fun _ => false) smallLib 3)
    ⟨"demo", 0, .dict []⟩ demoState xs).1) (compile demoProg (strictGuard demoEnv) (walk demoProg (strictGuard demoEnv) 8) demo)

example : demoRun [.begin_, .action (.arr [.int 1, .int 2]), .merge (.int 5) (.int 6), .action (.arr [.int 10]), .end_] =
    .ok [.ok (.int 0), .ok (.int 20), .ok (.int 11), .ok (.int 45), .ok .null] := by decide +kernel

end Verif.Lang
