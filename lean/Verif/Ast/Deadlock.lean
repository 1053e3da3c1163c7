import Verif.Ast.Theorems
import Verif.CallGraph.Theorems
/-! # The deadlock check at engine construction (genpy.py 1325-1358) -/

namespace Verif.Ast

open Verif.CallGraph Relation

variable {T : Type}

/-! ## Model -/

section
variable (syms : E T → List String)

/-- `callGraph`, genpy.py 169-175: keys "(begin)", "(action)", "(end)", "(merge)" and the names of
the user functions, which `EngineConfig.walk` prefixes with "u." (pfaast.py 901-1021). -/
def Engine.callGraph (c : Engine T) : Graph :=
  [("(begin)", callsL syms c.begin_), ("(action)", callsL syms c.action),
    ("(end)", callsL syms c.end_)] ++
  (match c.merge with
    | some m => [("(merge)", callsL syms m)]
    | none => []) ++
  c.fcns.map fun ke => ("u." ++ ke.1, calls syms ke.2)

/-- `WithFcnRef`, genpy.py 1331-1336: `some true` when the node raises. -/
def withFcnRef (g : Graph) : E T → Option Bool
  | .cellTo _ _ (.fcnRef n) => some (hasSideEffects g n)
  | .cellTo _ _ (.fcnRefFill n _) => some (hasSideEffects g n)
  | .poolTo _ _ (.fcnRef n) _ => some (hasSideEffects g n)
  | .poolTo _ _ (.fcnRefFill n _) _ => some (hasSideEffects g n)
  | _ => none

/-- `CellToOrPoolTo`, genpy.py 1339-1343. -/
def cellToOrPoolTo : E T → Option Bool
  | .cellTo _ _ _ => some true
  | .poolTo _ _ _ _ => some true
  | _ => none

/-- `SideEffectFunction`, genpy.py 1345-1349. -/
def sideEffectFunction (g : Graph) : E T → Option Bool
  | .call n _ => if hasSideEffects g n then some true else none
  | _ => none

/-- `WithFcnDef`, genpy.py 1351-1357. -/
def withFcnDef (g : Graph) : E T → Option Bool
  | .cellTo _ _ (.fcnDef _ _ body) =>
    some ((collectL cellToOrPoolTo body ++ collectL (sideEffectFunction g) body).contains true)
  | .poolTo _ _ (.fcnDef _ _ body) _ =>
    some ((collectL cellToOrPoolTo body ++ collectL (sideEffectFunction g) body).contains true)
  | _ => none

/-- `checkForDeadlock`, genpy.py 1325-1358: `true` when the engine is accepted. -/
def checkForDeadlock (c : Engine T) : Bool :=
  let g := c.callGraph syms
  !(c.collect (withFcnRef g)).contains true && !(c.collect (withFcnDef g)).contains true

end

/-! ## Specification -/

/-- A node that takes a lock: `cell-to` or `pool-to`. -/
def Updates : E T → Prop
  | .cellTo _ _ _ => True
  | .poolTo _ _ _ _ => True
  | _ => False

/-- `Mentions syms x f`: the node `x` calls `f` or hands it on to be called. -/
def Mentions (syms : E T → List String) : E T → String → Prop
  | .call n _, f => f = n
  | .fcnRef n, f => f = n
  | .fcnRefFill n _, f => f = n
  | .callUser n _, f => ∃ s ∈ syms n, f = "u." ++ s
  | _, _ => False

/-- The user function `f` can run an update. -/
inductive Touches (syms : E T → List String) (c : Engine T) : String → Prop where
  | here {k : String} {e x : E T} (hk : (k, e) ∈ c.fcns) (hx : Part x e) (hu : Updates x) :
      Touches syms c ("u." ++ k)
  | call {k f : String} {e x : E T} (hk : (k, e) ∈ c.fcns) (hx : Part x e)
      (hm : Mentions syms x f) (hf : Touches syms c f) : Touches syms c ("u." ++ k)

/-- Running `e` can run an update. -/
def CanUpdate (syms : E T → List String) (c : Engine T) (e : E T) : Prop :=
  ∃ x, Part x e ∧ (Updates x ∨ ∃ f, Mentions syms x f ∧ Touches syms c f)

/-- `to` is a function used by an update that is written in the engine. -/
inductive UpdatesWith (c : Engine T) : E T → Prop where
  | cell {n p r} (h : c.Part (.cellTo n p r)) : UpdatesWith c r
  | pool {n p r i} (h : c.Part (.poolTo n p r i)) : UpdatesWith c r

/-- The forms of a function (not of an expression evaluated before the lock is taken). -/
def IsFcn : E T → Prop
  | .fcnDef _ _ _ => True
  | .fcnRef _ => True
  | .fcnRefFill _ _ => True
  | _ => False

/-- C20 for one engine. -/
def NoNestedUpdate (syms : E T → List String) (c : Engine T) : Prop :=
  ∀ r, UpdatesWith c r → IsFcn r → ¬ CanUpdate syms c r

/-! ## The guards under which the check is sound -/

/-- Nothing in `a` updates or calls. -/
def Quiet (syms : E T → List String) (a : E T) : Prop :=
  ∀ x, Part x a → ¬ Updates x ∧ ∀ f, ¬ Mentions syms x f

/-- The subexpressions that `walk` leaves out of the call set are quiet. -/
def HidesNothing (syms : E T → List String) : E T → Prop
  | .attrGet a _ => Quiet syms a
  | .attrTo a _ _ => Quiet syms a
  | .poolTo _ _ _ i => Quiet syms i
  | .callUser n _ => Quiet syms n
  | .cond its _ => ∀ i ∈ its, ∃ p t, i = .if_ p t []
  | _ => True

/-- In an inline function, functions are only called by name; the filled-in arguments of a partial
application are quiet. -/
def PlainTo (syms : E T → List String) : E T → Prop
  | .fcnDef _ _ body => ∀ x, PartL x body →
      (∀ n, x ≠ .fcnRef n) ∧ (∀ n f, x ≠ .fcnRefFill n f) ∧ (∀ n a, x ≠ .callUser n a)
  | .fcnRefFill _ fill => ∀ k a, (k, a) ∈ fill → Quiet syms a
  | _ => True

/-! ## Proofs -/

section
variable {syms : E T → List String}

theorem mem_callsL {n : String} {es : List (E T)} :
    n ∈ callsL syms es ↔ ∃ e ∈ es, n ∈ calls syms e := by
  induction es with
  | nil => simp [callsL]
  | cons e es ih => simp [callsL, ih]

theorem mem_callsN {n : String} {es : List (String × E T)} :
    n ∈ callsN syms es ↔ ∃ k e, (k, e) ∈ es ∧ n ∈ calls syms e := by
  induction es with
  | nil => simp [callsN]
  | cons e es ih =>
    obtain ⟨k, e⟩ := e
    simp only [callsN, List.mem_append, ih, List.mem_cons, Prod.mk.injEq]
    constructor
    · rintro (h | ⟨k', e', h1, h2⟩)
      · exact ⟨k, e, .inl ⟨rfl, rfl⟩, h⟩
      · exact ⟨k', e', .inr h1, h2⟩
    · rintro ⟨k', e', ⟨rfl, rfl⟩ | h1, h2⟩
      · exact .inl h2
      · exact .inr ⟨k', e', h1, h2⟩

theorem mem_callsIfs {n : String} {p : E T} {t es : List (E T)} (h : .if_ p t [] ∈ es)
    (hn : n ∈ calls syms p ∨ n ∈ callsL syms t) : n ∈ callsIfs syms es := by
  induction es with
  | nil => simp at h
  | cons e es ih =>
    rcases List.mem_cons.1 h with rfl | h
    · simp only [callsIfs, List.mem_append]; exact .inl hn
    · have := ih h
      cases e <;> simp [callsIfs, this]

theorem calls_child {y e : E T} (hc : Child y e) (hh : HidesNothing syms e) {n : String}
    (hn : n ∈ calls syms y) (hif : n ≠ "if") : n ∈ calls syms e ∨ Quiet syms y := by
  cases hc
  case cond_if its el h =>
    obtain ⟨p, t, rfl⟩ := hh _ h
    left
    simp only [calls, callsL, List.mem_append, List.mem_singleton, List.not_mem_nil, or_false,
      hif] at hn ⊢
    exact .inl (.inl (mem_callsIfs h hn))
  case attrGet_expr => exact .inr hh
  case attrTo_expr => exact .inr hh
  case poolTo_init => exact .inr hh
  case callUser_name => exact .inr hh
  all_goals
    left
    simp only [calls, List.mem_append, List.mem_cons, mem_callsL, mem_callsN]
    first
      | (simp only [hn, true_or, or_true]; done)
      | (rename_i h; have h' : ∃ e ∈ _, n ∈ calls syms e := ⟨_, h, hn⟩; simp [h']; done)
      | (rename_i h; have h' := Exists.intro _ (Exists.intro _ (And.intro h hn)); simp [h']; done)
      | grind

theorem calls_part {x e : E T} (hx : Part x e) (hh : ∀ z, Part z e → HidesNothing syms z)
    (hq : Updates x ∨ ∃ f, Mentions syms x f) {n : String}
    (hn : n ∈ calls syms x) (hif : n ≠ "if") : n ∈ calls syms e := by
  induction hx with
  | refl => exact hn
  | step hx hy ih =>
    have h1 := ih fun z hz => hh z (.step hz hy)
    rcases calls_child hy (hh _ (.refl _)) h1 hif with h | h
    · exact h
    · rcases hq with hq | ⟨f, hq⟩
      · exact absurd hq (h _ hx).1
      · exact absurd hq ((h _ hx).2 f)

theorem updates_calls {x : E T} (h : Updates x) :
    "cell-to" ∈ calls syms x ∨ "pool-to" ∈ calls syms x := by
  cases x <;> simp [Updates] at h <;> simp [calls]

theorem mentions_calls {x : E T} {f : String} (h : Mentions syms x f) : f ∈ calls syms x := by
  cases x <;> simp [Mentions] at h <;> simp [calls, h]
  obtain ⟨s, hs, rfl⟩ := h
  exact .inl ⟨s, hs, rfl⟩

theorem u_append_ne_if (k : String) : "u." ++ k ≠ "if" := by
  intro h
  have := congrArg String.toList h
  simp at this

theorem u_append_inj {a b : String} (h : "u." ++ a = "u." ++ b) : a = b := by
  have := congrArg String.toList h
  simp only [String.toList_append, List.append_cancel_left_eq] at this
  exact String.toList_inj.1 this

theorem get?_fcns {fs : List (String × E T)} (hd : (fs.map Prod.fst).Nodup) {k : String} {e : E T}
    (hk : (k, e) ∈ fs) :
    PyDict.get? (fs.map fun ke => ("u." ++ ke.1, calls syms ke.2)) ("u." ++ k)
      = some (calls syms e) := by
  induction fs with
  | nil => simp at hk
  | cons a fs ih =>
    obtain ⟨k', e'⟩ := a
    simp only [List.map_cons, List.nodup_cons, List.mem_map, not_exists, not_and] at hd
    simp only [List.map_cons, PyDict.get?_cons]
    rcases List.mem_cons.1 hk with h | h
    · cases h; simp
    · rw [if_neg, ih hd.2 h]
      intro heq
      exact hd.1 (k, e) h (u_append_inj heq).symm

theorem get?_append_of_ne {g g' : Graph} {k : String} (h : ∀ ke ∈ g, ke.1 ≠ k) :
    PyDict.get? (g ++ g') k = PyDict.get? g' k := by
  induction g with
  | nil => rfl
  | cons a g ih =>
    obtain ⟨k', v⟩ := a
    simp only [List.cons_append, PyDict.get?_cons]
    rw [if_neg (h (k', v) (by simp)), ih fun ke hke => h ke (by simp [hke])]

theorem edge_of_call {c : Engine T} (hd : (c.fcns.map Prod.fst).Nodup) {k : String} {e : E T}
    (hk : (k, e) ∈ c.fcns) {n : String} (hn : n ∈ calls syms e) :
    Edge (c.callGraph syms) ("u." ++ k) n := by
  refine ⟨calls syms e, ?_, hn⟩
  have ne : ∀ s : String, s.toList.head? = some '(' → s ≠ "u." ++ k := by
    rintro s hs rfl
    simp at hs
  rw [Engine.callGraph, get?_append_of_ne, get?_fcns hd hk]
  intro ke hke
  apply ne
  cases hm : c.merge <;> simp [hm] at hke <;> rcases hke with rfl | rfl | rfl | rfl <;> simp

/-- The call graph shows the effects of functions that hide nothing. -/
theorem touches_reaches {c : Engine T} (hd : (c.fcns.map Prod.fst).Nodup)
    (hh : ∀ z, PartN z c.fcns → HidesNothing syms z) {f : String} (h : Touches syms c f) :
    TransGen (Edge (c.callGraph syms)) f "cell-to" ∨
    TransGen (Edge (c.callGraph syms)) f "pool-to" := by
  induction h with
  | @here k e x hk hx hu =>
    have hh' : ∀ z, Part z e → HidesNothing syms z := fun z hz => hh z ⟨k, e, hk, hz⟩
    rcases updates_calls (syms := syms) hu with h | h
    · exact .inl (.single (edge_of_call hd hk (calls_part hx hh' (.inl hu) h (by decide))))
    · exact .inr (.single (edge_of_call hd hk (calls_part hx hh' (.inl hu) h (by decide))))
  | @call k f e x hk hx hm hf ih =>
    have hh' : ∀ z, Part z e → HidesNothing syms z := fun z hz => hh z ⟨k, e, hk, hz⟩
    have hfu : f ≠ "if" := by cases hf <;> exact u_append_ne_if _
    have he := edge_of_call hd hk (calls_part hx hh' (.inr ⟨f, hm⟩) (mentions_calls hm) hfu)
    exact ih.imp (.head he) (.head he)

theorem touches_sideEffects {c : Engine T} (hd : (c.fcns.map Prod.fst).Nodup)
    (hh : ∀ z, PartN z c.fcns → HidesNothing syms z) {f : String} (h : Touches syms c f) :
    hasSideEffects (c.callGraph syms) f = true := by
  rw [hasSideEffects_exact]
  rcases touches_reaches hd hh h with h | h
  · exact .inl h
  · exact .inr (.inl h)

/-- C20 under the guards that the code needs: an accepted engine has no nested update, provided
that it has no merge section, that the function bodies hide nothing from `walk`, and that the
functions used by updates are plain.  Missing: each guard is necessary, see the violations below. -/
theorem deadlock_check_sound_partial (c : Engine T) (hd : (c.fcns.map Prod.fst).Nodup)
    (hm : c.merge = none) (hh : ∀ z, PartN z c.fcns → HidesNothing syms z)
    (hp : ∀ r, UpdatesWith c r → PlainTo syms r)
    (hok : checkForDeadlock syms c = true) : NoNestedUpdate syms c := by
  simp only [checkForDeadlock, Bool.and_eq_true, Bool.not_eq_true', List.contains_eq_mem,
    decide_eq_false_iff_not] at hok
  rw [engine_collect_partial _ c hm, engine_collect_partial _ c hm] at hok
  obtain ⟨h1, h2⟩ := hok
  -- what acceptance says about one update
  have ref : ∀ n, UpdatesWith c (.fcnRef n) →
      ¬ hasSideEffects (c.callGraph syms) n = true := by
    intro n hu hs
    cases hu with
    | cell h => exact h1 ⟨_, h, by simp [withFcnRef, hs]⟩
    | pool h => exact h1 ⟨_, h, by simp [withFcnRef, hs]⟩
  have fill : ∀ n fl, UpdatesWith c (.fcnRefFill n fl) →
      ¬ hasSideEffects (c.callGraph syms) n = true := by
    intro n fl hu hs
    cases hu with
    | cell h => exact h1 ⟨_, h, by simp [withFcnRef, hs]⟩
    | pool h => exact h1 ⟨_, h, by simp [withFcnRef, hs]⟩
  have inl : ∀ ps rt body, UpdatesWith c (.fcnDef ps rt body) →
      true ∉ collectL cellToOrPoolTo body ++
        collectL (sideEffectFunction (c.callGraph syms)) body := by
    intro ps rt body hu hs
    cases hu with
    | cell h => exact h2 ⟨_, h, by simpa [withFcnDef] using hs⟩
    | pool h => exact h2 ⟨_, h, by simpa [withFcnDef] using hs⟩
  rintro r hr hf ⟨x, hx, hxu⟩
  have hpr := hp r hr
  cases r <;> simp only [IsFcn] at hf
  case fcnRef n =>
    have : x = .fcnRef n := by
      cases hx with
      | refl => rfl
      | step _ hy => cases hy
    subst this
    rcases hxu with h | ⟨f, h, ht⟩
    · simp [Updates] at h
    · simp only [Mentions] at h; subst h
      exact ref _ hr (touches_sideEffects hd hh ht)
  case fcnRefFill n fl =>
    rw [part_fcnRefFill] at hx
    rcases hx with rfl | ⟨k, a, hk, hx⟩
    · rcases hxu with h | ⟨f, h, ht⟩
      · simp [Updates] at h
      · simp only [Mentions] at h; subst h
        exact fill _ _ hr (touches_sideEffects hd hh ht)
    · have := hpr k a hk x hx
      rcases hxu with h | ⟨f, h, -⟩
      · exact this.1 h
      · exact this.2 f h
  case fcnDef ps rt body =>
    rw [part_fcnDef] at hx
    rcases hx with rfl | hx
    · rcases hxu with h | ⟨f, h, -⟩
      · simp [Updates] at h
      · simp [Mentions] at h
    · have hno := inl _ _ _ hr
      simp only [List.mem_append, collectL_mem, not_or, not_exists, not_and] at hno
      have hpx := hpr x hx
      rcases hxu with h | ⟨f, h, ht⟩
      · refine hno.1 x hx ?_
        cases x <;> simp_all [Updates, cellToOrPoolTo]
      · have hs := touches_sideEffects hd hh ht
        cases x <;> simp_all [Mentions]
        exact hno.2 _ hx (by simp [sideEffectFunction, hs])

end

/-! ## The guards are necessary -/

/-- The function `u.bad` updates the cell `x`. -/
def bad : String × E Unit := ("bad", .fcnDef [("a", ())] () [.cellTo "x" [] (.litInt (.int 1)), .ref "a"])

def noSyms : E Unit → List String := fun _ => []

/-- The symbols of the enum used by `callUser (ref "which")` below. -/
def whichSyms : E Unit → List String := fun e => match e with
  | .ref "which" => ["bad"]
  | _ => []

theorem touches_bad (syms : E Unit → List String) (c : Engine Unit) (h : bad ∈ c.fcns) :
    Touches syms c "u.bad" :=
  .here (k := "bad") h (.step (.refl _) (.fcnDef (by simp))) (by simp [Updates] : Updates
    (.cellTo "x" [] (.litInt (.int 1)) : E Unit))

/-- C20 violated: an inline function passes `u.bad` to a library function; only the names of calls
are looked at. -/
theorem deadlock_fcnref_argument_violation : ∃ c : Engine Unit,
    (c.fcns.map Prod.fst).Nodup ∧ checkForDeadlock noSyms c = true ∧
      ¬ NoNestedUpdate noSyms c := by
  let r : E Unit := .fcnDef [("old", ())] () [.call "a.map" [.ref "xs", .fcnRef "u.bad"]]
  let c : Engine Unit := ⟨[], [.cellTo "x" [] r], [], [bad], none⟩
  refine ⟨c, by simp [c], by decide +kernel, fun h => ?_⟩
  refine h r (.cell (n := "x") (p := []) (.inr (.inl ⟨_, by simp [c], .refl _⟩))) trivial
    ⟨.fcnRef "u.bad", ?_, .inr ⟨"u.bad", rfl, touches_bad _ _ (by simp [c])⟩⟩
  exact .step (y := .call "a.map" [.ref "xs", .fcnRef "u.bad"])
    (.step (.refl _) (.call (by simp))) (.fcnDef (by simp))

/-- C20 violated: an inline function calls `u.bad` through `call`. -/
theorem deadlock_calluser_violation : ∃ c : Engine Unit,
    (c.fcns.map Prod.fst).Nodup ∧ checkForDeadlock whichSyms c = true ∧
      ¬ NoNestedUpdate whichSyms c := by
  let r : E Unit := .fcnDef [("old", ())] () [.callUser (.ref "which") [.ref "old"]]
  let c : Engine Unit := ⟨[], [.cellTo "x" [] r], [], [bad], none⟩
  refine ⟨c, by simp [c], by decide +kernel, fun h => ?_⟩
  refine h r (.cell (n := "x") (p := []) (.inr (.inl ⟨_, by simp [c], .refl _⟩))) trivial
    ⟨.callUser (.ref "which") [.ref "old"], ?_,
      .inr ⟨"u.bad", ⟨"bad", by simp [whichSyms], rfl⟩, touches_bad _ _ (by simp [c])⟩⟩
  exact .step (.refl _) (.fcnDef (by simp))

/-- C20 violated: the arguments filled into a partially applied function run inside the update
(genpy.py 314-325) and are not looked at. -/
theorem deadlock_fill_violation : ∃ c : Engine Unit,
    (c.fcns.map Prod.fst).Nodup ∧ checkForDeadlock noSyms c = true ∧
      ¬ NoNestedUpdate noSyms c := by
  let inner : E Unit := .cellTo "x" [] (.litInt (.int 1))
  let r : E Unit := .fcnRefFill "u.good" [("b", inner)]
  let good : String × E Unit := ("good", .fcnDef [("a", ()), ("b", ())] () [.ref "a"])
  let c : Engine Unit := ⟨[], [.cellTo "x" [] r], [], [good], none⟩
  refine ⟨c, by simp [c], by decide +kernel, fun h => ?_⟩
  refine h r (.cell (n := "x") (p := []) (.inr (.inl ⟨_, by simp [c], .refl _⟩))) trivial
    ⟨inner, ?_, .inl trivial⟩
  exact .step (.refl _) (.fcnRefFill (k := "b") (by simp))

/-- C20 violated: the call set of `attr` leaves out the expression it is applied to, so `u.mid`
does not show that it calls `u.bad`. -/
theorem deadlock_attr_violation : ∃ c : Engine Unit,
    (c.fcns.map Prod.fst).Nodup ∧ checkForDeadlock noSyms c = true ∧
      ¬ NoNestedUpdate noSyms c := by
  let mid : String × E Unit :=
    ("mid", .fcnDef [("a", ())] () [.attrGet (.call "u.bad" [.ref "a"]) [.litString "f"]])
  let r : E Unit := .fcnRef "u.mid"
  let c : Engine Unit := ⟨[], [.cellTo "x" [] r], [], [bad, mid], none⟩
  refine ⟨c, by simp [c, mid, bad], by decide +kernel, fun h => ?_⟩
  refine h r (.cell (n := "x") (p := []) (.inr (.inl ⟨_, by simp [c], .refl _⟩))) trivial
    ⟨r, .refl _, .inr ⟨"u.mid", rfl, ?_⟩⟩
  exact .call (k := "mid") (e := mid.2) (f := "u.bad") (x := .call "u.bad" [.ref "a"])
    (by simp [c, mid]) (.step (y := .attrGet (.call "u.bad" [.ref "a"]) [.litString "f"])
      (.step (.refl _) .attrGet_expr) (.fcnDef (by simp))) rfl
    (touches_bad _ _ (by simp [c]))

/-- C20 violated: the merge section is not checked. -/
theorem deadlock_merge_violation : ∃ c : Engine Unit,
    (c.fcns.map Prod.fst).Nodup ∧ checkForDeadlock noSyms c = true ∧
      ¬ NoNestedUpdate noSyms c := by
  let r : E Unit := .fcnRef "u.bad"
  let c : Engine Unit := ⟨[], [.ref "input"], [], [bad], some [.cellTo "x" [] r]⟩
  refine ⟨c, by simp [c], by decide +kernel, fun h => ?_⟩
  exact h r (.cell (n := "x") (p := [])
    (.inr (.inr (.inr (.inr ⟨_, rfl, _, List.mem_singleton.2 rfl, .refl _⟩))))) trivial
    ⟨r, .refl _, .inr ⟨"u.bad", rfl, touches_bad _ _ (by simp [c])⟩⟩

/-! ## Concrete cases -/

/-- The check rejects a nested update that is two calls deep. -/
example : checkForDeadlock noSyms ⟨[], [.cellTo "x" [] (.fcnRef "u.mid")], [],
    [bad, ("mid", .fcnDef [("a", ())] () [.call "u.bad" [.ref "a"]])], none⟩ = false := by
  decide +kernel

/-- An engine with an inline update and a named one that meets the hypotheses of
`deadlock_check_sound_partial`. -/
def okEngine : Engine Unit :=
  ⟨[], [.cellTo "x" [] (.fcnDef [("o", ())] () [.call "u.inc" [.ref "o"]]),
    .poolTo "p" [.litString "k"] (.fcnRef "u.inc") (.litInt (.int 0))], [],
    [("inc", .fcnDef [("a", ())] () [.call "+" [.ref "a", .litInt (.int 1)]])], none⟩

theorem okEngine_parts (x : E Unit) (h : okEngine.Part x) : x ∈ okEngine.collect some := by
  have := (engine_collect_partial (T := Unit) some okEngine rfl x).2 ⟨x, h, rfl⟩
  exact this

example : NoNestedUpdate noSyms okEngine := by
  apply deadlock_check_sound_partial okEngine (by simp [okEngine]) rfl
  · intro z hz
    have hz := okEngine_parts z (.inr (.inr (.inr (.inl hz))))
    simp [okEngine, Engine.collect, collectL, collectN, collect, here] at hz
    rcases hz with rfl | rfl | rfl | rfl | rfl | rfl | rfl | rfl | rfl | rfl | rfl | rfl <;>
      simp only [HidesNothing]
    all_goals
      intro x hx
      cases hx with
      | refl => simp [Updates, Mentions]
      | step _ hy => cases hy
  · intro r hr
    cases hr with
    | cell h =>
      have h := okEngine_parts _ h
      simp [okEngine, Engine.collect, collectL, collectN, collect, here] at h
      obtain ⟨rfl, rfl, rfl⟩ := h
      rintro x ⟨e, he, hx⟩
      simp only [List.mem_singleton] at he
      subst he
      cases hx with
      | refl => simp
      | step hx hy =>
        cases hy with
        | call hm =>
          simp only [List.mem_singleton] at hm
          subst hm
          cases hx with
          | refl => simp
          | step _ hy => cases hy
    | pool h =>
      have h := okEngine_parts _ h
      simp [okEngine, Engine.collect, collectL, collectN, collect, here] at h
      obtain ⟨rfl, rfl, rfl, rfl⟩ := h
      trivial
  · decide +kernel

end Verif.Ast
