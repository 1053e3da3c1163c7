import Verif.Engine.Instances
/-! # Failed calls are invisible on the heap, and concrete cases for the engine theorems -/

namespace Verif.Engine
open Verif.Avro Verif.Path

/-- `failures_invisible` for the heap model: dropping the failed calls from any history of actions
and merges gives the same outcomes, cells, pools, tally and number of finished actions. -/
theorem failures_invisible_heap {L : Nat → Prop} {rbc rbp : String → Bool}
    (hrc : ∀ n, rbc n = true) (hrp : ∀ n, rbp n = true) (e : Def)
    (hne : ∀ a, NoEmit (e.action a)) (hnm : ∀ x y, NoEmit (e.merge x y))
    (hst : ∀ x n m f t, e.action ⟨x, n, f, t⟩ = e.action ⟨x, m, f, t⟩)
    (calls : List Call) (hg : ∀ c ∈ calls, Guarded c) {s : Inst} {w : World}
    (h : Ok L s rbc rbp w) :
    let full := history e calls s w
    let kept := (calls.zip full.1).filter fun cr => cr.2.isOk
    let part := history e (kept.map Prod.fst) s w
    part.1 = kept.map Prod.snd ∧
      (∀ n, cellContents part.2.1 part.2.2 n = cellContents full.2.1 full.2.2 n) ∧
      (∀ n, poolContents part.2.1 part.2.2 n = poolContents full.2.1 full.2.2 n) ∧
      part.2.1.tally = full.2.1.tally ∧ part.2.1.finished = full.2.1.finished := by
  intro full kept part
  have hf := (history_refines e calls h).1
  have hp := (history_refines e (kept.map Prod.fst) h).1
  have := failures_invisible hrc hrp e hne hnm hst calls hg (abs s w) (abs s w) rfl
  rw [hf] at this
  simp only at this
  rw [hp] at this
  obtain ⟨h1, h2⟩ := this
  simp only [Abs.settled, Prod.mk.injEq] at h2
  obtain ⟨h2, h3, h4⟩ := h2
  refine ⟨h1, fun n => ?_, fun n => ?_, h4, h3⟩
  · unfold cellContents; exact congrFun (congrArg Store.cells h2) n
  · unfold poolContents; exact congrFun (congrArg Store.pools h2) n

/-! ## A concrete document: a rollback cell, a private cell, a shared cell, a rollback pool -/

def exConfig : Config :=
  { cells := [⟨"r", .int 10, false, true⟩, ⟨"p", .int 20, false, false⟩, ⟨"s", .int 30, true, false⟩]
    pools := [⟨"q", [("a", .int 1)], false, true⟩]
    zero := .int 0 }

def exWorld : World :=
  ⟨fun _ => ⟨.null, none, false, false⟩, fun _ => ⟨0, none, false, false⟩, fun _ => [], 0, 0, 0,
    fun _ => []⟩

/-- Writes everywhere, then fails if the input is null. -/
def exDef : Def :=
  { method := .fold
    check := .ok
    action := fun a =>
      .cellTo "r" [] (fun _ => .ret a.input) fun _ =>
      .cellTo "p" [] (fun _ => .ret a.input) fun _ =>
      .cellTo "s" [] (fun _ => .ret a.input) fun _ =>
      .poolTo "q" "b" [] (fun _ => .ret a.input) .null fun _ =>
      .poolDel "q" "a" <|
      match a.input with
      | .null => .raise (.user "fail" none)
      | v => .ret (.arr [v, a.tally])
    merge := fun a b => .ret (.arr [a, b])
    begin := .ret .null
    «end» := fun _ _ _ => .ret .null }

theorem exConfig_valid : exConfig.Valid :=
  ⟨by decide, by decide, by decide, by decide⟩

def exSys : Sys := build exConfig ⟨[], []⟩ 2 exWorld

theorem exSys_ginv : GInv exConfig exSys :=
  (build_ok exConfig exConfig_valid ⟨[], []⟩ 2 exWorld
    (Shared.ok_empty _ ⟨fun _ h => absurd h (Nat.not_lt_zero _), fun _ _ h => absurd h (Nat.not_lt_zero _)⟩)).2.1

/-- A failing action on instance 0: rollback contents are back, the private cell without rollback
keeps the update, the shared cell shows it to instance 1. -/
example :
    let s := (exSys.call exDef 0 (.action .null)).2
    cellContents (s.inst 0) s.world "r" = some (.int 10) ∧
    cellContents (s.inst 0) s.world "p" = some .null ∧
    poolContents (s.inst 0) s.world "q" = some [("a", .int 1)] ∧
    cellContents (s.inst 1) s.world "s" = some .null ∧
    cellContents (s.inst 1) s.world "p" = some (.int 20) ∧
    (s.inst 0).started = 1 ∧ (s.inst 0).finished = 0 ∧ (s.inst 0).tally = .int 0 := by
  decide +kernel

/-- A history with a failure in the middle. -/
example :
    let out := exSys.history exDef
      [(0, .action (.int 1)), (1, .action (.int 2)), (0, .action .null), (0, .action (.int 3))]
    let s := out.2
    out.1 = [.ok (.arr [.int 1, .int 0]), .ok (.arr [.int 2, .int 0]),
      .error (.user "fail" none), .ok (.arr [.int 3, .arr [.int 1, .int 0]])] ∧
    (s.inst 0).started = 3 ∧ (s.inst 0).finished = 2 ∧
    (s.inst 0).tally = .arr [.int 3, .arr [.int 1, .int 0]] ∧
    poolContents (s.inst 0) s.world "q" = some [("b", .int 3)] ∧
    cellContents (s.inst 1) s.world "r" = some (.int 2) ∧
    cellContents (s.inst 1) s.world "s" = some (.int 3) := by
  decide +kernel

/-- The hypotheses of `failures_invisible_heap` are met by a document with rollback cells only. -/
def exDef2 : Def :=
  { exDef with
    action := fun a =>
      .cellTo "r" [] (fun v => .ret (.arr [v, a.input])) fun v =>
      if a.input = .null then .raise (.user "fail" none) else .ret v }

example : (∀ a, NoEmit (exDef2.action a)) ∧ (∀ x y, NoEmit (exDef2.merge x y)) ∧
    (∀ x n m f t, exDef2.action ⟨x, n, f, t⟩ = exDef2.action ⟨x, m, f, t⟩) := by
  refine ⟨?_, ?_, ?_⟩
  · rintro ⟨i, s, f, t⟩
    refine ⟨fun _ => trivial, fun v => ?_⟩
    show NoEmit (if i = .null then _ else _)
    split <;> trivial
  · intros; trivial
  · intros; rfl

/-- The hypotheses of `tally_fold` are met by a function that fails on some inputs. -/
example : ∃ (e : Def) (g : Val → Val → Res Val), e.method = .fold ∧
    (∀ a : ActionIn, e.action a =
      match g a.tally a.input with | .ok v => .ret v | .error err => .raise err) ∧
    g (.int 0) .null = .error (.user "no" none) ∧ g (.int 0) (.int 1) = .ok (.arr [.int 0, .int 1]) :=
  let g : Val → Val → Res Val := fun t i =>
    if i = .null then .error (.user "no" none) else .ok (.arr [t, i])
  ⟨{ exDef with action := fun a =>
      (match g a.tally a.input with | .ok v => .ret v | .error err => .raise err) }, g,
   rfl, fun _ => rfl, rfl, rfl⟩

end Verif.Engine
