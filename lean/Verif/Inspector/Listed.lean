import Verif.CallGraph.Theorems
import Verif.Cart.Rows
import Verif.Lib.Num
/-! # What the inspector says of functions, cells and pools (C111)

Models `titus/inspector/pfagadget.py` 310-342 (`userfcns`: what is said after the parameters), 380-381 (`calls`) and 445-473 (`cells`, `pools`), with the
queries of `titus/genpy.py` 1660-1743 (`Verif.CallGraph`).

Simplifications.  The parameters and the result of a function are left out.  The text of a type, which depends on where it begins, is a parameter;
so is the number of columns of a text. -/

namespace Verif.Inspector.Listed
open CallGraph Relation

/-- The lines about the calls of a function. -/
inductive Note where
  | recursive
  | canCallRecursive
  | depth (d : Nat)
  | canModify
  | calledBy (names : List Name)
  | bareNone
deriving DecidableEq

/-- Their text, 328-337. -/
def Note.text : Note → String
  | .recursive => "    recursive"
  | .canCallRecursive => "    can call a recursive function"
  | .depth d => "    call depth: " ++ String.ofList (Lib.Num.fmt 10 d)
  | .canModify => "    can modify a cell or pool"
  | .calledBy names => "    called by: " ++ String.intercalate ", " names
  | .bareNone => "(none)"

/-- The first of the lines, 326-331. -/
def kind (g : Graph) (f : Name) : Note :=
  if isRecursive g f then .recursive
  else match callDepth g [] 0 f with
    | none => .canCallRecursive
    | some d => .depth d

/-- The lines about the function `u.name`, 326-337.  In the last statement the conditional expression takes in the heading. -/
def notes (g : Graph) (f : Name) : List Note :=
  kind g f :: ((if hasSideEffects g f then [Note.canModify] else []) ++
    [if (Cart.sortedSet (calledBy g [] f)).length > 0 then .calledBy (Cart.sortedSet (calledBy g [] f)) else .bareNone])

/-- `userfcns`, 310-342: the functions with their lines; the message when there is none is left out. -/
def userfcns (g : Graph) (fcns : List Name) : List (String × List Note) := (Cart.sortedSet fcns).map fun n => ("u." ++ n, notes g ("u." ++ n))

/-- `calls`, 380-381. -/
def calls (g : Graph) : List (Name × List Name) := (Cart.sortedSet (PyDict.keys g)).map fun n => (n, Cart.sortedSet ((PyDict.get? g n).getD []))

/-- A cell or a pool of the engine configuration, with what `init` holds: text for a cell, a dict for a pool (`titus/pfaast.py` 1112-1134, 1213-1234), or a
function that gives it. -/
inductive Init where
  | text (elements : Nat)
  | dict (elements : Nat)
  | callable

structure Store (τ : Type) where
  type : τ
  shared : Bool
  rollback : Bool
  init : Init

/-- `json.dumps` of a boolean. -/
def flag (b : Bool) : String := if b then "true" else "false"

/-- `len(json.loads(obj.init))`, 454: text only can be loaded. -/
def elements : Init → Res Nat
  | .text n => .ok n
  | _ => .error (.py "TypeError")

/-- The beginning of a line, 450-454. -/
def preamble {τ : Type} (pools : Bool) (name : String) (s : Store τ) : Res String :=
  let start := name ++ ": shared=" ++ flag s.shared ++ " rollback=" ++ flag s.rollback
  if pools then match elements s.init with
    | .ok n => .ok (start ++ " elements=" ++ String.ofList (Lib.Num.fmt 10 n) ++ " type=")
    | .error e => .error e
  else .ok (start ++ " type=")

/-- The loop of `cells` and `pools`, 447-463. -/
def storeLines {τ : Type} (typeText : τ → Nat → String) (pools : Bool) (d : PyDict String (Store τ)) : List String → Res (List String)
  | [] => .ok []
  | n :: ns => match PyDict.get? d n with
    | none => .error (.py "KeyError")
    | some s => match preamble pools n s with
      | .error e => .error e
      | .ok p => match storeLines typeText pools d ns with
        | .error e => .error e
        | .ok r => .ok ((p ++ typeText s.type p.length) :: r)

/-- `cells` and `pools`, 440-466. -/
def stores {τ : Type} (typeText : τ → Nat → String) (pools : Bool) (d : PyDict String (Store τ)) : Res (List String) :=
  match Cart.sortedSet (PyDict.keys d) with
  | [] => .ok ["PFA document contains no " ++ if pools then "pools" else "cells"]
  | names => storeLines typeText pools d names

/-! ## Functions -/

/-- The first line is right: recursion, reaching recursion, or the length of the longest chain of calls. -/
theorem kind_spec (g : Graph) (f : Name) :
    (kind g f = .recursive ↔ Recursive g f) ∧ (kind g f = .canCallRecursive ↔ ¬ Recursive g f ∧ ReachesRecursive g f) ∧
    ∀ d, kind g f = .depth d ↔ Chain g d f ∧ ∀ n, Chain g n f → n ≤ d := by
  have hr := isRecursive_exact g f
  by_cases h : isRecursive g f = true
  · have hR := hr.1 h
    have hinf : callDepth g [] 0 f = none := (callDepth_inf_iff g f).2 ⟨f, .refl, hR⟩
    refine ⟨by simp [kind, h, hR], by simp [kind, h, hR], fun d => ?_⟩
    rw [← callDepth_longest, hinf]
    simp [kind, h]
  · have hR : ¬ Recursive g f := fun x => h (hr.2 x)
    cases hc : callDepth g [] 0 f with
    | none =>
      refine ⟨by simp [kind, h, hc, hR], by simp [kind, h, hc, hR, (callDepth_inf_iff g f).1 hc], fun d => ?_⟩
      rw [← callDepth_longest, hc]
      simp [kind, h, hc]
    | some d0 =>
      have hn : ¬ ReachesRecursive g f := fun x => by rw [(callDepth_inf_iff g f).2 x] at hc; cases hc
      refine ⟨by simp [kind, h, hc, hR], by simp [kind, h, hc, hn], fun d => ?_⟩
      rw [← callDepth_longest, hc]
      simp [kind, h, hc]

theorem kind_ne (g : Graph) (f : Name) : kind g f ≠ .canModify ∧ (∀ l, kind g f ≠ .calledBy l) ∧ kind g f ≠ .bareNone := by
  unfold kind
  split
  · simp
  · split <;> simp

/-- The line on cells and pools is there exactly when a change of a cell or pool can be reached. -/
theorem modify_spec (g : Graph) (f : Name) :
    .canModify ∈ notes g f ↔ TransGen (Edge g) f "cell-to" ∨ TransGen (Edge g) f "pool-to" ∨ TransGen (Edge g) f "pool-del" := by
  rw [← hasSideEffects_exact]
  obtain ⟨h1, _, _⟩ := kind_ne g f
  unfold notes
  simp only [List.mem_cons, List.mem_append, List.not_mem_nil, or_false]
  constructor
  · rintro (h | h | h)
    · exact absurd h.symm h1
    · by_contra hc
      rw [if_neg hc] at h
      cases h
    · split at h <;> cases h
  · intro h
    exact .inr (.inl (by simp [h]))

/-- What stands after `called by` is what the function calls, directly or through others, each once and sorted; not what calls it. -/
theorem called_by_partial (g : Graph) (f : Name) (names : List Name) (h : .calledBy names ∈ notes g f) :
    names.Nodup ∧ names.Pairwise Cart.TextLe ∧ ∀ x, x ∈ names ↔ TransGen (Edge g) f x := by
  obtain ⟨_, h2, _⟩ := kind_ne g f
  have hn : names = Cart.sortedSet (calledBy g [] f) := by
    unfold notes at h
    simp only [List.mem_cons, List.mem_append, List.not_mem_nil, or_false] at h
    rcases h with h | h | h
    · exact absurd h.symm (h2 _)
    · split at h <;> simp at h
    · split at h <;> simp at h
      exact h
  obtain ⟨a, b, c⟩ := Cart.sortedSet_spec (calledBy g [] f)
  subst hn
  exact ⟨a, c, fun x => by rw [b, calledBy_exact]⟩

/-- The bare `(none)` stands there exactly when the function calls nothing. -/
theorem bare_none (g : Graph) (f : Name) : .bareNone ∈ notes g f ↔ ∀ x, ¬ Edge g f x := by
  obtain ⟨_, _, h3⟩ := kind_ne g f
  obtain ⟨_, b, _⟩ := Cart.sortedSet_spec (calledBy g [] f)
  have key : ¬ (Cart.sortedSet (calledBy g [] f)).length > 0 ↔ ∀ x, ¬ Edge g f x := by
    rw [gt_iff_lt, List.length_pos_iff, not_not, List.eq_nil_iff_forall_not_mem]
    constructor
    · exact fun h x hx => h x ((b x).2 ((calledBy_exact g f x).2 (.single hx)))
    · intro h x hx
      obtain ⟨c, hc, _⟩ := TransGen.head'_iff.1 ((calledBy_exact g f x).1 ((b x).1 hx))
      exact h c hc
  rw [← key]
  unfold notes
  simp only [List.mem_cons, List.mem_append, List.not_mem_nil, or_false]
  constructor
  · rintro (h | h | h)
    · exact absurd h.symm h3
    · split at h <;> simp at h
    · intro hl
      rw [if_pos hl] at h
      cases h
  · intro hl
    exact .inr (.inr (by rw [if_neg hl]))

/-- `u.a` is called by `u.b`, and `u.b` by nobody: the line of `u.b` says that it is called by `u.a`, the line of `u.a` that there is none. -/
theorem called_by_violation : ∃ g : Graph, Edge g "u.b" "u.a" ∧ (∀ x, ¬ Edge g x "u.b") ∧ .bareNone ∈ notes g "u.a" ∧
    (∃ names, .calledBy names ∈ notes g "u.b" ∧ "u.a" ∈ names) ∧ Note.bareNone.text = "(none)" := by
  let g : Graph := [("u.a", []), ("u.b", ["u.a"])]
  have he : Edge g "u.b" "u.a" := ⟨["u.a"], rfl, by simp⟩
  refine ⟨g, he, ?_, (bare_none _ _).2 ?_, ?_, rfl⟩
  · rintro x ⟨cs, h1, h2⟩
    simp only [g, PyDict.get?] at h1
    split at h1
    · cases h1; simp at h2
    · split at h1
      · cases h1; simp at h2
      · cases h1
  · rintro x ⟨cs, h1, h2⟩
    cases h1
    simp at h2
  · obtain ⟨_, b, _⟩ := Cart.sortedSet_spec (calledBy g [] "u.b")
    have hm : "u.a" ∈ Cart.sortedSet (calledBy g [] "u.b") := (b _).2 ((calledBy_exact g _ _).2 (.single he))
    refine ⟨_, ?_, hm⟩
    unfold notes
    rw [if_pos (List.length_pos_of_mem hm)]
    simp

/-- The functions are listed once each, sorted, with the lines about them. -/
theorem userfcns_spec (g : Graph) (fcns : List Name) : ((userfcns g fcns).map Prod.fst) = (Cart.sortedSet fcns).map ("u." ++ ·) ∧
    ∀ n ns, ("u." ++ n, ns) ∈ userfcns g fcns ↔ n ∈ fcns ∧ ns = notes g ("u." ++ n) := by
  obtain ⟨_, b, _⟩ := Cart.sortedSet_spec fcns
  refine ⟨by simp [userfcns, Function.comp_def], fun n ns => ?_⟩
  unfold userfcns
  simp only [List.mem_map, Prod.mk.injEq, b]
  constructor
  · rintro ⟨m, hm, h1, h2⟩
    have : m = n := by
      have := congrArg String.toList h1
      simp only [String.toList_append, List.append_cancel_left_eq] at this
      exact String.toList_inj.1 this
    subst this
    exact ⟨hm, h2.symm⟩
  · rintro ⟨h1, rfl⟩
    exact ⟨n, h1, rfl, rfl⟩

/-- `calls` lists for each function what it calls directly. -/
theorem calls_spec (g : Graph) (f x : Name) : (∃ l, (f, l) ∈ calls g ∧ x ∈ l) ↔ Edge g f x := by
  unfold calls Edge
  simp only [List.mem_map, Prod.mk.injEq]
  constructor
  · rintro ⟨l, ⟨n, hn, rfl, rfl⟩, hx⟩
    have hx' := ((Cart.sortedSet_spec _).2.1 x).1 hx
    cases hg : PyDict.get? g n with
    | none => simp [hg] at hx'
    | some cs => simp only [hg, Option.getD_some] at hx'; exact ⟨cs, rfl, hx'⟩
  · rintro ⟨cs, hg, hx⟩
    have hk : f ∈ PyDict.keys g := (PyDict.get?_isSome_iff g f).1 (by simp [hg])
    exact ⟨_, ⟨f, ((Cart.sortedSet_spec _).2.1 f).2 hk, rfl, rfl⟩, ((Cart.sortedSet_spec _).2.1 x).2 (by simpa [hg] using hx)⟩

/-! ## Cells and pools -/

variable {τ : Type}

theorem storeLines_ok (typeText : τ → Nat → String) {d : PyDict String (Store τ)} {pools : Bool} : ∀ {ns : List String},
    (∀ n ∈ ns, ∃ s p, PyDict.get? d n = some s ∧ preamble pools n s = .ok p) →
    ∃ r, storeLines typeText pools d ns = .ok r ∧ r.length = ns.length ∧ ∀ (i : Nat) (n : String), ns[i]? = some n →
      ∃ s p, PyDict.get? d n = some s ∧ preamble pools n s = .ok p ∧ r[i]? = some (p ++ typeText s.type p.length)
  | [], _ => ⟨[], rfl, rfl, by simp⟩
  | n :: ns, h => by
    obtain ⟨s, p, h1, h2⟩ := h n (by simp)
    obtain ⟨r, e, hl, hr⟩ := storeLines_ok typeText (ns := ns) (fun m hm => h m (List.mem_cons_of_mem _ hm))
    refine ⟨_, by simp only [storeLines, h1, h2, e]; rfl, by simp [hl], fun i m hi => ?_⟩
    cases i with
    | zero => simp at hi; subst hi; exact ⟨s, p, h1, h2, by simp⟩
    | succ i => simp at hi; simpa using hr i m hi

/-- `cells` has a line for each cell, sorted by name, with what the cell is. -/
theorem cells_spec (typeText : τ → Nat → String) {d : PyDict String (Store τ)} (hd : d ≠ []) :
    ∃ (r names : List String), stores typeText false d = .ok r ∧ r.length = names.length ∧ names.Nodup ∧ names.Pairwise Cart.TextLe ∧ (∀ n, n ∈ names ↔ n ∈ PyDict.keys d) ∧
      ∀ (i : Nat) (n : String), names[i]? = some n → ∃ s, PyDict.get? d n = some s ∧
        r[i]? = some ((n ++ ": shared=" ++ (if s.shared then "true" else "false") ++ " rollback=" ++ (if s.rollback then "true" else "false") ++ " type=") ++
          typeText s.type (n ++ ": shared=" ++ (if s.shared then "true" else "false") ++ " rollback=" ++ (if s.rollback then "true" else "false") ++ " type=").length) := by
  obtain ⟨a, b, c⟩ := Cart.sortedSet_spec (PyDict.keys d)
  have hok : ∀ n ∈ Cart.sortedSet (PyDict.keys d), ∃ s p, PyDict.get? d n = some s ∧ preamble false n s = .ok p := fun n hn => by
    obtain ⟨s, hs⟩ := Option.isSome_iff_exists.1 ((PyDict.get?_isSome_iff d n).2 ((b n).1 hn))
    exact ⟨s, _, hs, rfl⟩
  obtain ⟨r, e, hl, hr⟩ := storeLines_ok typeText hok
  refine ⟨r, Cart.sortedSet (PyDict.keys d), ?_, hl, a, c, b, fun i n hi => ?_⟩
  · unfold stores
    split
    · next h =>
      obtain ⟨kv, d', rfl⟩ := List.exists_cons_of_ne_nil hd
      have : kv.1 ∈ Cart.sortedSet (PyDict.keys (kv :: d')) := (b _).2 (by simp [PyDict.keys])
      rw [h] at this
      simp at this
    · exact e
  · obtain ⟨s, p, h1, h2, h3⟩ := hr i n hi
    refine ⟨s, h1, ?_⟩
    rw [h3]
    have : p = n ++ ": shared=" ++ flag s.shared ++ " rollback=" ++ flag s.rollback ++ " type=" := by
      simp only [preamble, Bool.false_eq_true, if_false, Except.ok.injEq] at h2
      exact h2.symm
    rw [this]
    rfl

/-- `pools` raises a TypeError for every document that has a pool: what it takes for text is a dict or a function. -/
theorem pools_violation (typeText : τ → Nat → String) {d : PyDict String (Store τ)} (hd : d ≠ [])
    (hi : ∀ n s, PyDict.get? d n = some s → (∃ k, s.init = .dict k) ∨ s.init = .callable) : stores typeText true d = .error (.py "TypeError") := by
  obtain ⟨_, b, _⟩ := Cart.sortedSet_spec (PyDict.keys d)
  unfold stores
  split
  · next h =>
    obtain ⟨kv, d', rfl⟩ := List.exists_cons_of_ne_nil hd
    have : kv.1 ∈ Cart.sortedSet (PyDict.keys (kv :: d')) := (b _).2 (by simp [PyDict.keys])
    rw [h] at this
    simp at this
  · next names hne =>
    obtain ⟨n, ns, e⟩ := List.exists_cons_of_ne_nil hne
    rw [e]
    obtain ⟨s, hs⟩ := Option.isSome_iff_exists.1 ((PyDict.get?_isSome_iff d n).2 ((b n).1 (by rw [e]; simp)))
    simp only [storeLines, hs]
    rcases hi n s hs with ⟨k, hk⟩ | hk <;> simp [preamble, elements, hk]

/-- Without cells or pools that is said. -/
theorem stores_empty (typeText : τ → Nat → String) : stores typeText false [] = .ok ["PFA document contains no cells"] ∧
    stores typeText true [] = .ok ["PFA document contains no pools"] := by
  have h : Cart.sortedSet (PyDict.keys ([] : PyDict String (Store τ))) = [] := by
    rw [List.eq_nil_iff_forall_not_mem]
    intro x hx
    have := ((Cart.sortedSet_spec _).2.1 x).1 hx
    simp [PyDict.keys] at this
  unfold stores
  rw [h]
  exact ⟨rfl, rfl⟩

/-! ## An example -/

/-- In `CallGraph.sample`: a function that calls itself through another, one that reaches it, and one of depth 1. -/
theorem kind_example : kind sample "u.a" = .recursive ∧ kind sample "(action)" = .canCallRecursive ∧ kind sample "u.c" = .depth 1 := by
  refine ⟨?_, ?_, ?_⟩ <;> decide +kernel

end Verif.Inspector.Listed
