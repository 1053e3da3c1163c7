import Verif.Engine.Refine
/-! # Theorems about one engine instance: rollback (C13), counters (C14), fold (C15) -/

namespace Verif.Engine
open Verif.Avro Verif.Path

/-- The observable state of instance `s` in heap `w`. -/
def abs (s : Inst) (w : World) : Abs := ⟨view s.cells s.pools s.out w, s.started, s.finished, s.tally⟩

/-- The instance is well formed: distinct names are distinct objects, distinct pools have distinct
dicts, and `rbc`, `rbp` say which names are declared `rollback`.  Every instance made by
`PFAEngine.fromAst` is, see `build_ok` in `Verif.Engine.Build`. -/
structure Ok (L : Nat → Prop) (s : Inst) (rbc rbp : String → Bool) (w : World) : Prop where
  own : Own L s.cells s.pools rbc rbp w
  live : Live L w

/-- One call on the heap is one call of the specification, leaves the objects of other instances
alone and keeps the instance well formed. -/
theorem call_refines {L : Nat → Prop} {rbc rbp : String → Bool} (e : Def) (c : Call) {s s' : Inst}
    {w w' : World} {r : Res Val} (h : Ok L s rbc rbp w) (hc : call e c s w = (r, s', w')) :
    scall rbc rbp e c (abs s w) = (r, abs s' w') ∧
      s'.cells = s.cells ∧ s'.pools = s.pools ∧ s'.out = s.out ∧
      Untouched L s.cells s.pools s.out w w' ∧ Ok L s' rbc rbp w' := by
  have hsep := h.own.sep h.live
  cases c with
  | begin =>
    simp only [call, begin_] at hc
    obtain ⟨hu, hl⟩ := run_untouched (o := s.out) e.begin h.own h.live
    have hr := run_refines s.cells s.pools s.out e.begin w hsep
    cases hrun : run s.cells s.pools s.out e.begin w with
    | mk r1 w1 =>
      rw [hrun] at hc hu hl hr
      cases r1 <;> simp only [Prod.mk.injEq] at hc <;> obtain ⟨rfl, rfl, rfl⟩ := hc <;>
        refine ⟨?_, rfl, rfl, rfl, hu, ⟨h.own.mono hu, hl⟩⟩ <;> simp [scall, abs, hr]
  | «end» =>
    simp only [call, end_] at hc
    obtain ⟨hu, hl⟩ := run_untouched (o := s.out) (e.end s.started s.finished s.tally) h.own h.live
    have hr := run_refines s.cells s.pools s.out (e.end s.started s.finished s.tally) w hsep
    cases hrun : run s.cells s.pools s.out (e.end s.started s.finished s.tally) w with
    | mk r1 w1 =>
      rw [hrun] at hc hu hl hr
      cases r1 <;> simp only [Prod.mk.injEq] at hc <;> obtain ⟨rfl, rfl, rfl⟩ := hc <;>
        refine ⟨?_, rfl, rfl, rfl, hu, ⟨h.own.mono hu, hl⟩⟩ <;> simp [scall, abs, hr]
  | merge x y =>
    simp only [call, merge] at hc
    cases hrun : run s.cells s.pools s.out (e.merge x y) (saveAll s.cells s.pools w) with
    | mk r1 w1 =>
      obtain ⟨st, hs, hok, herr⟩ := guarded_spec (o := s.out) (e.merge x y) h.own h.live hrun
      rw [hrun] at hc
      cases r1 with
      | ok v =>
        simp only [Prod.mk.injEq] at hc; obtain ⟨rfl, rfl, rfl⟩ := hc
        obtain ⟨hv, hu, hl⟩ := hok v rfl
        refine ⟨?_, rfl, rfl, rfl, hu, ⟨h.own.mono hu, hl⟩⟩
        simp [scall, abs, hs, hv]
      | error err =>
        simp only [Prod.mk.injEq] at hc; obtain ⟨rfl, rfl, rfl⟩ := hc
        obtain ⟨hv, hu, hl⟩ := herr err rfl
        refine ⟨?_, rfl, rfl, rfl, hu, ⟨h.own.mono hu, hl⟩⟩
        simp [scall, abs, hs, hv]
  | action input =>
    simp only [call, action] at hc
    cases hck : e.check input with
    | error err =>
      rw [hck] at hc
      simp only [Prod.mk.injEq] at hc; obtain ⟨rfl, rfl, rfl⟩ := hc
      refine ⟨by simp [scall, hck], rfl, rfl, rfl,
        ⟨fun _ _ => rfl, fun _ _ => rfl, fun _ _ _ => rfl, fun _ => ⟨rfl, rfl⟩, fun _ => ⟨rfl, rfl⟩,
          rfl, rfl, fun _ _ => rfl⟩, h⟩
    | ok x =>
      rw [hck] at hc
      simp only at hc
      cases hrun : run s.cells s.pools s.out (e.action ⟨x, s.started + 1, s.finished, s.tally⟩)
          (saveAll s.cells s.pools w) with
      | mk r1 w1 =>
        obtain ⟨st, hs, hok, herr⟩ := guarded_spec (o := s.out) _ h.own h.live hrun
        rw [hrun] at hc
        cases r1 with
        | ok v =>
          obtain ⟨hv, hu, hl⟩ := hok v rfl
          cases hm : e.method <;> rw [hm] at hc <;> simp only [Prod.mk.injEq] at hc <;>
            obtain ⟨rfl, rfl, rfl⟩ := hc <;>
            refine ⟨?_, rfl, rfl, rfl, hu, ⟨h.own.mono hu, hl⟩⟩ <;>
            simp [scall, abs, hs, hv, hck, hm]
        | error err =>
          simp only [Prod.mk.injEq] at hc; obtain ⟨rfl, rfl, rfl⟩ := hc
          obtain ⟨hv, hu, hl⟩ := herr err rfl
          refine ⟨?_, rfl, rfl, rfl, hu, ⟨h.own.mono hu, hl⟩⟩
          simp [scall, abs, hs, hv, hck]

/-- Every history of calls on the heap is the same history of the specification: same outcomes,
same observable state at the end. -/
theorem history_refines {L : Nat → Prop} {rbc rbp : String → Bool} (e : Def) (calls : List Call)
    {s : Inst} {w : World} (h : Ok L s rbc rbp w) :
    shistory rbc rbp e calls (abs s w) =
      ((history e calls s w).1, abs (history e calls s w).2.1 (history e calls s w).2.2) ∧
    Ok L (history e calls s w).2.1 rbc rbp (history e calls s w).2.2 := by
  induction calls generalizing s w with
  | nil => exact ⟨rfl, h⟩
  | cons c cs ih =>
    cases hc : call e c s w with
    | mk r p =>
      obtain ⟨s1, w1⟩ := p
      obtain ⟨h1, -, -, -, -, h6⟩ := call_refines e c h hc
      obtain ⟨h7, h8⟩ := ih h6
      simp only [history, hc, shistory, h1, h7]
      exact ⟨trivial, h8⟩

/-! ## C13 -/

/-- Contents of the cell called `n`. -/
def cellContents (s : Inst) (w : World) (n : String) : Option Val := (abs s w).store.cells n

/-- Contents of the pool called `n`. -/
def poolContents (s : Inst) (w : World) (n : String) : Option (PyDict String Val) :=
  (abs s w).store.pools n

/-- The calls that take and restore backups. -/
def Guarded : Call → Prop
  | .action _ | .merge _ _ => True
  | _ => False

/-- C13, first half: when `action` or `merge` raises, every rollback cell and pool has the contents
it had before the call, and the tally is unchanged; for any body and failure point. -/
theorem failure_restores {L : Nat → Prop} {rbc rbp : String → Bool} (e : Def) {c : Call}
    (hg : Guarded c) {s s' : Inst} {w w' : World} {err : Err} (h : Ok L s rbc rbp w)
    (hc : call e c s w = (.error err, s', w')) :
    (∀ n, rbc n = true → cellContents s' w' n = cellContents s w n) ∧
    (∀ n, rbp n = true → poolContents s' w' n = poolContents s w n) ∧
    s'.tally = s.tally ∧ s'.finished = s.finished := by
  obtain ⟨h1, -⟩ := call_refines e c h hc
  have e1 : s'.started = (abs s' w').started := rfl
  have e2 : s'.tally = (abs s' w').tally := rfl
  have e3 : s'.finished = (abs s' w').finished := rfl
  unfold cellContents poolContents
  rw [e2, e3]
  generalize abs s' w' = a' at h1
  cases c with
  | begin => exact hg.elim
  | «end» => exact hg.elim
  | merge x y =>
    simp only [scall] at h1
    split at h1
    · simp at h1
    · simp only [Prod.mk.injEq] at h1
      obtain ⟨-, rfl⟩ := h1
      refine ⟨fun n hn => ?_, fun n hn => ?_, rfl, rfl⟩ <;> simp [rolledBack, hn]
  | action input =>
    simp only [scall] at h1
    split at h1
    · simp only [Prod.mk.injEq] at h1
      obtain ⟨-, rfl⟩ := h1
      exact ⟨fun _ _ => rfl, fun _ _ => rfl, rfl, rfl⟩
    · split at h1
      · simp at h1
      · simp only [Prod.mk.injEq] at h1
        obtain ⟨-, rfl⟩ := h1
        refine ⟨fun n hn => ?_, fun n hn => ?_, rfl, rfl⟩ <;> simp [rolledBack, hn]

/-- The body a guarded call runs. -/
def bodyOf (e : Def) (s : Inst) : Call → Option Prog
  | .action input =>
    match e.check input with
    | .ok x => some (e.action ⟨x, s.started + 1, s.finished, s.tally⟩)
    | .error _ => none
  | .merge x y => some (e.merge x y)
  | _ => none

/-- C13, second half: the other cells and pools keep every update the body made before it failed
(`st` is the store at the point of failure), and nothing emitted is taken back. -/
theorem failure_keeps {L : Nat → Prop} {rbc rbp : String → Bool} (e : Def) {c : Call} {p : Prog}
    {s s' : Inst} {w w' : World} {err : Err} (h : Ok L s rbc rbp w) (hb : bodyOf e s c = some p)
    (hc : call e c s w = (.error err, s', w')) :
    ∃ st, srun p (abs s w).store = (.error err, st) ∧
      (∀ n, rbc n = false → cellContents s' w' n = st.cells n) ∧
      (∀ n, rbp n = false → poolContents s' w' n = st.pools n) ∧
      (abs s' w').store.emitted = st.emitted := by
  obtain ⟨h1, -⟩ := call_refines e c h hc
  unfold cellContents poolContents
  generalize abs s' w' = a' at h1
  cases c with
  | begin => simp [bodyOf] at hb
  | «end» => simp [bodyOf] at hb
  | merge x y =>
    simp only [bodyOf, Option.some.injEq] at hb
    subst hb
    simp only [scall] at h1
    split at h1
    · simp at h1
    · next st hst =>
      simp only [Prod.mk.injEq, Except.error.injEq] at h1
      obtain ⟨rfl, rfl⟩ := h1
      refine ⟨st, hst, fun n hn => ?_, fun n hn => ?_, rfl⟩ <;> simp [rolledBack, hn]
  | action input =>
    simp only [bodyOf] at hb
    simp only [scall] at h1
    split at h1
    · next hck => rw [hck] at hb; simp at hb
    · next x hck =>
      rw [hck] at hb
      simp only [Option.some.injEq] at hb
      subst hb
      split at h1
      · simp at h1
      · next st hst =>
        simp only [Prod.mk.injEq, Except.error.injEq] at h1
        obtain ⟨rfl, rfl⟩ := h1
        refine ⟨st, hst, fun n hn => ?_, fun n hn => ?_, rfl⟩ <;> simp [rolledBack, hn]

/-- The body never emits (only engines of method `emit` have the `emit` function). -/
def NoEmit : Prog → Prop
  | .ret _ => True
  | .raise _ => True
  | .cellGet _ _ k => ∀ v, NoEmit (k v)
  | .cellTo _ _ repl k => (∀ v, NoEmit (repl v)) ∧ ∀ v, NoEmit (k v)
  | .poolGet _ _ k => ∀ v, NoEmit (k v)
  | .poolTo _ _ _ repl _ k => (∀ v, NoEmit (repl v)) ∧ ∀ v, NoEmit (k v)
  | .poolDel _ _ k => NoEmit k
  | .tryCatch body _ k => NoEmit body ∧ ∀ v, NoEmit (k v)
  | .emit _ _ => False

theorem srun_noEmit (p : Prog) (hp : NoEmit p) (st : Store) :
    (srun p st).2.emitted = st.emitted := by
  induction p generalizing st with
  | ret v => rfl
  | raise e => rfl
  | cellGet name path k ih =>
    simp only [srun]
    split
    · rfl
    · split
      · exact ih _ (hp _) st
      · rfl
  | cellTo name path repl k ihr ihk =>
    simp only [srun]
    split
    · rfl
    · next c hc =>
      have := updateM_frame (fun (a b : Store) => b.emitted = a.emitted) (fun _ => rfl)
        (fun _ _ _ h1 h2 => h2.trans h1) (f := fun v => srun (repl v))
        (fun v s => ihr v (hp.1 v) s) 2006 2007 path c st
      split
      · next v st1 hu => rw [hu] at this; exact (ihk v (hp.2 v) _).trans this
      · next er st1 hu => rw [hu] at this; exact this
  | poolGet name path k ih =>
    simp only [srun]
    split
    · rfl
    · split
      · exact ih _ (hp _) st
      · rfl
  | poolTo name hd tl repl init k ihr ihk =>
    simp only [srun]
    split
    · rfl
    · next d hd' =>
      have h0 : (if PyDict.has d hd = true then st
          else st.setPool name (PyDict.set d hd init)).emitted = st.emitted := by split <;> rfl
      generalize (if PyDict.has d hd = true then st
        else st.setPool name (PyDict.set d hd init)) = st0 at h0
      have := updateM_frame (fun (a b : Store) => b.emitted = a.emitted) (fun _ => rfl)
        (fun _ _ _ h1 h2 => h2.trans h1) (f := fun v => srun (repl v))
        (fun v s => ihr v (hp.1 v) s) 2010 2011 tl ((PyDict.get? d hd).getD init) st0
      split
      · next v st1 hu => rw [hu] at this; exact (ihk v (hp.2 v) _).trans (this.trans h0)
      · next er st1 hu => rw [hu] at this; exact this.trans h0
  | poolDel name item k ih =>
    simp only [srun]
    split
    · rfl
    · exact (ih hp _).trans rfl
  | tryCatch body c k ihb ihk =>
    simp only [srun]
    have hb := ihb hp.1 st
    split
    · next v st1 hu => rw [hu] at hb; exact (ihk v (hp.2 v) st1).trans hb
    · next er st1 hu =>
      rw [hu] at hb
      split
      · exact (ihk _ (hp.2 _) st1).trans hb
      · exact hb
  | emit v k ih => exact hp.elim

/-- The observable state without the counter of started actions. -/
def Abs.settled (a : Abs) : Store × Nat × Val := (a.store, a.finished, a.tally)

/-- C13 over histories: if everything is declared rollback and the action does not look at
`actionsStarted`, then failed actions and merges are invisible: removing them from any history
leaves the same final cells, pools, tally and count of finished actions, and the same outcomes of
the calls that remain. -/
theorem failures_invisible {rbc rbp : String → Bool} (hrc : ∀ n, rbc n = true)
    (hrp : ∀ n, rbp n = true) (e : Def) (hne : ∀ a, NoEmit (e.action a))
    (hnm : ∀ x y, NoEmit (e.merge x y))
    (hst : ∀ x n m f t, e.action ⟨x, n, f, t⟩ = e.action ⟨x, m, f, t⟩)
    (calls : List Call) (hg : ∀ c ∈ calls, Guarded c) (a b : Abs) (hab : a.settled = b.settled) :
    let full := shistory rbc rbp e calls a
    let kept := (calls.zip full.1).filter fun cr => cr.2.isOk
    let part := shistory rbc rbp e (kept.map Prod.fst) b
    part.1 = kept.map Prod.snd ∧ part.2.settled = full.2.settled := by
  induction calls generalizing a b with
  | nil => simp [shistory, hab]
  | cons c cs ih =>
    have ih := fun a b hab => ih (fun c hc => hg c (List.mem_cons_of_mem _ hc)) a b hab
    have hgc := hg c List.mem_cons_self
    simp only [shistory]
    -- one call from `a`
    have key : (∀ err a1, scall rbc rbp e c a = (.error err, a1) → a1.settled = a.settled) ∧
        (∀ v a1, scall rbc rbp e c a = (.ok v, a1) →
          ∃ b1, scall rbc rbp e c b = (.ok v, b1) ∧ a1.settled = b1.settled) := by
      simp only [Abs.settled, Prod.mk.injEq] at hab
      obtain ⟨h1, h2, h3⟩ := hab
      have hroll : ∀ p, NoEmit p → rolledBack rbc rbp a.store (srun p a.store).2 = a.store := by
        intro p hp
        have := srun_noEmit p hp a.store
        simp [rolledBack, hrc, hrp, this]
      cases c with
      | begin => exact hgc.elim
      | «end» => exact hgc.elim
      | merge x y =>
        have hr := hroll _ (hnm x y)
        simp only [scall, h1] at hr ⊢
        constructor
        · intro err a1 ha
          split at ha
          · simp at ha
          · next st hs =>
            rw [hs] at hr
            simp only [Prod.mk.injEq] at ha
            rw [← ha.2]
            simp [Abs.settled, hr, h1]
        · intro v a1 ha
          split at ha
          · next v' st hs =>
            simp only [Prod.mk.injEq, Except.ok.injEq] at ha
            obtain ⟨rfl, rfl⟩ := ha
            exact ⟨_, rfl, by simp [Abs.settled, h2]⟩
          · simp at ha
      | action input =>
        simp only [scall]
        cases hck : e.check input with
        | error er =>
          simp only
          refine ⟨fun err a1 ha => ?_, fun v a1 ha => ?_⟩
          · simp only [Prod.mk.injEq] at ha; rw [← ha.2]
          · simp at ha
        | ok x =>
          simp only
          have hr := hroll _ (hne ⟨x, b.started + 1, b.finished, b.tally⟩)
          rw [hst x (a.started + 1) (b.started + 1), h2, h3]
          simp only [h1] at hr ⊢
          constructor
          · intro err a1 ha
            split at ha
            · simp at ha
            · next st hs =>
              rw [hs] at hr
              simp only [Prod.mk.injEq] at ha
              rw [← ha.2]
              simp [Abs.settled, hr, h1, h2, h3]
          · intro v a1 ha
            split at ha
            · next v' st hs =>
              simp only [Prod.mk.injEq, Except.ok.injEq] at ha
              obtain ⟨rfl, rfl⟩ := ha
              exact ⟨_, rfl, by simp [Abs.settled, h2]⟩
            · simp at ha
    cases hc : scall rbc rbp e c a with
    | mk r a1 =>
      cases r with
      | error err =>
        have := key.1 err a1 hc
        have := ih a1 b (by rw [this, hab])
        simpa [Except.isOk, Except.toBool] using this
      | ok v =>
        obtain ⟨b1, hb, hb'⟩ := key.2 v a1 hc
        have := ih a1 b1 hb'
        simpa [Except.isOk, Except.toBool, shistory, hb] using this

/-! ## C14 -/

/-- Was this call an action that returned normally? -/
def finishedOk : Call × Res Val → Bool
  | (.action _, .ok _) => true
  | _ => false

/-- Is this an action whose input passes the check? -/
def startsAction (e : Def) : Call → Bool
  | .action input => (e.check input).isOk
  | _ => false

/-- C14: `actionsStarted` counts the actions whose input passed the check, `actionsFinished` the
actions that returned normally, over every history. -/
theorem counters_count (e : Def) (calls : List Call) (s : Inst) (w : World) :
    (history e calls s w).2.1.started = s.started + calls.countP (startsAction e) ∧
    (history e calls s w).2.1.finished =
      s.finished + (calls.zip (history e calls s w).1).countP finishedOk := by
  induction calls generalizing s w with
  | nil => simp [history]
  | cons c cs ih =>
    cases hc : call e c s w with
    | mk r p =>
      obtain ⟨s1, w1⟩ := p
      have hone : s1.started = s.started + (if startsAction e c then 1 else 0) ∧
          s1.finished = s.finished + (if finishedOk (c, r) then 1 else 0) := by
        cases c with
        | begin =>
          simp only [call, begin_] at hc
          split at hc <;> simp only [Prod.mk.injEq] at hc <;> obtain ⟨rfl, rfl, rfl⟩ := hc <;>
            simp [startsAction, finishedOk]
        | «end» =>
          simp only [call, end_] at hc
          split at hc <;> simp only [Prod.mk.injEq] at hc <;> obtain ⟨rfl, rfl, rfl⟩ := hc <;>
            simp [startsAction, finishedOk]
        | merge x y =>
          simp only [call, merge] at hc
          split at hc <;> simp only [Prod.mk.injEq] at hc <;> obtain ⟨rfl, rfl, rfl⟩ := hc <;>
            simp [startsAction, finishedOk]
        | action input =>
          simp only [call, action] at hc
          cases hck : e.check input with
          | error er =>
            rw [hck] at hc
            simp only [Prod.mk.injEq] at hc; obtain ⟨rfl, rfl, rfl⟩ := hc
            simp [startsAction, finishedOk, hck, Except.isOk, Except.toBool]
          | ok x =>
            rw [hck] at hc
            simp only at hc
            split at hc
            · split at hc <;> simp only [Prod.mk.injEq] at hc <;> obtain ⟨rfl, rfl, rfl⟩ := hc <;>
                simp [startsAction, finishedOk, hck, Except.isOk, Except.toBool]
            · simp only [Prod.mk.injEq] at hc; obtain ⟨rfl, rfl, rfl⟩ := hc
              simp [startsAction, finishedOk, hck, Except.isOk, Except.toBool]
      obtain ⟨h1, h2⟩ := ih s1 w1
      simp only [history, hc, List.zip_cons_cons, List.countP_cons]
      rw [h1, h2, hone.1, hone.2]
      constructor <;> split <;> omega

/-- An action that returned normally had passed the check. -/
theorem finished_started (e : Def) (calls : List Call) (s : Inst) (w : World) :
    (calls.zip (history e calls s w).1).countP finishedOk ≤ calls.countP (startsAction e) := by
  induction calls generalizing s w with
  | nil => simp [history]
  | cons c cs ih =>
    cases hc : call e c s w with
    | mk r p =>
      obtain ⟨s1, w1⟩ := p
      have := ih s1 w1
      simp only [history, hc, List.zip_cons_cons, List.countP_cons]
      have hone : finishedOk (c, r) = true → startsAction e c = true := by
        cases c with
        | action input =>
          simp only [call, action] at hc
          cases hck : e.check input with
          | error er =>
            rw [hck] at hc
            simp only [Prod.mk.injEq] at hc
            rw [← hc.1]; simp [finishedOk]
          | ok x => intro _; simp [startsAction, hck, Except.isOk, Except.toBool]
        | _ => simp [finishedOk]
      split <;> split <;> first | omega | simp_all

/-- C14: `actionsFinished ≤ actionsStarted` always, starting from a new engine. -/
theorem finished_le_started (e : Def) (calls : List Call) (s : Inst) (w : World)
    (h : s.finished ≤ s.started) :
    (history e calls s w).2.1.finished ≤ (history e calls s w).2.1.started := by
  obtain ⟨h1, h2⟩ := counters_count e calls s w
  have := finished_started e calls s w
  omega

/-- C14: neither counter decreases when a history is extended. -/
theorem counters_mono (e : Def) (calls : List Call) (s : Inst) (w : World) :
    s.started ≤ (history e calls s w).2.1.started ∧
    s.finished ≤ (history e calls s w).2.1.finished := by
  obtain ⟨h1, h2⟩ := counters_count e calls s w
  omega

theorem history_append (e : Def) (c1 c2 : List Call) (s : Inst) (w : World) :
    history e (c1 ++ c2) s w =
      ((history e c1 s w).1 ++ (history e c2 (history e c1 s w).2.1 (history e c1 s w).2.2).1,
       (history e c2 (history e c1 s w).2.1 (history e c1 s w).2.2).2) := by
  induction c1 generalizing s w with
  | nil => rfl
  | cons c cs ih => simp only [List.cons_append, history, ih]

/-- C14: inside an action, `actionsStarted` is one more than the number of actions started before
and `actionsFinished` the number finished before: the outcome of an action called after any
history from a new engine is the outcome of its body given those numbers. -/
theorem counters_seen {L : Nat → Prop} {rbc rbp : String → Bool} (e : Def) (before : List Call)
    (input x : Val) (hx : e.check input = .ok x) (s : Inst) (w : World)
    (h0 : s.started = 0) (h1 : s.finished = 0) (h : Ok L s rbc rbp w) :
    let past := history e before s w
    let seen : ActionIn := ⟨x, before.countP (startsAction e) + 1,
      (before.zip past.1).countP finishedOk, past.2.1.tally⟩
    ((call e (.action input) past.2.1 past.2.2).1.toOption.isSome ↔
      (srun (e.action seen) (abs past.2.1 past.2.2).store).1.toOption.isSome) ∧
    (e.method ≠ .emit → (call e (.action input) past.2.1 past.2.2).1 =
      (srun (e.action seen) (abs past.2.1 past.2.2).store).1) := by
  intro past seen
  obtain ⟨c1, c2⟩ := counters_count e before s w
  have hok := (history_refines e before h).2
  cases hc : call e (.action input) past.2.1 past.2.2 with
  | mk r p =>
    obtain ⟨s1, w1⟩ := p
    obtain ⟨hr, -⟩ := call_refines e (.action input) hok hc
    have hseen : seen = ⟨x, (abs past.2.1 past.2.2).started + 1, (abs past.2.1 past.2.2).finished,
        (abs past.2.1 past.2.2).tally⟩ := by
      simp only [seen, abs, ActionIn.mk.injEq, true_and, and_true]
      refine ⟨?_, ?_⟩
      · rw [c1, h0]; omega
      · rw [c2, h1]; simp [past]
    rw [hseen]
    simp only [scall, hx] at hr
    constructor
    · split at hr <;> next hs =>
        rw [hs]; simp only [Prod.mk.injEq] at hr; simp [← hr.1, Except.toOption]
    · intro hm
      simp only [hm, if_false] at hr
      split at hr <;> next hs => rw [hs]; simp only [Prod.mk.injEq] at hr; exact hr.1.symm

/-! ## C15 -/

/-- The value of the last successful action or merge, or `zero`. -/
def lastSuccess (zero : Val) : List (Call × Res Val) → Val
  | [] => zero
  | (.action _, .ok v) :: rest => lastSuccess v rest
  | (.merge _ _, .ok v) :: rest => lastSuccess v rest
  | _ :: rest => lastSuccess zero rest

/-- C15: in a fold engine the tally is always the value returned by the last successful action or
merge; failing calls do not change it. -/
theorem tally_last (e : Def) (hf : e.method = .fold) (calls : List Call) (s : Inst) (w : World) :
    (history e calls s w).2.1.tally =
      lastSuccess s.tally (calls.zip (history e calls s w).1) := by
  induction calls generalizing s w with
  | nil => rfl
  | cons c cs ih =>
    cases hc : call e c s w with
    | mk r p =>
      obtain ⟨s1, w1⟩ := p
      simp only [history, hc, List.zip_cons_cons]
      rw [ih s1 w1]
      cases c with
      | begin =>
        simp only [call, begin_] at hc
        split at hc <;> simp only [Prod.mk.injEq] at hc <;> obtain ⟨rfl, rfl, rfl⟩ := hc <;>
          simp [lastSuccess]
      | «end» =>
        simp only [call, end_] at hc
        split at hc <;> simp only [Prod.mk.injEq] at hc <;> obtain ⟨rfl, rfl, rfl⟩ := hc <;>
          simp [lastSuccess]
      | merge x y =>
        simp only [call, merge] at hc
        split at hc <;> simp only [Prod.mk.injEq] at hc <;> obtain ⟨rfl, rfl, rfl⟩ := hc <;>
          simp [lastSuccess]
      | action input =>
        simp only [call, action] at hc
        split at hc
        · simp only [Prod.mk.injEq] at hc; obtain ⟨rfl, rfl, rfl⟩ := hc; simp [lastSuccess]
        · split at hc
          · rw [hf] at hc
            simp only [Prod.mk.injEq] at hc; obtain ⟨rfl, rfl, rfl⟩ := hc; simp [lastSuccess]
          · simp only [Prod.mk.injEq] at hc; obtain ⟨rfl, rfl, rfl⟩ := hc; simp [lastSuccess]

/-- C15: if the action computes `g tally input` (raising where `g` does), then after any list of
inputs the tally is the left fold of `g` over the inputs whose action succeeded, in order. -/
theorem tally_fold (e : Def) (hf : e.method = .fold) (g : Val → Val → Res Val)
    (hg : ∀ a : ActionIn, e.action a =
      match g a.tally a.input with | .ok v => .ret v | .error err => .raise err)
    (inputs : List Val) (s : Inst) (w : World) :
    let out := history e (inputs.map .action) s w
    let good := ((inputs.zip out.1).filter fun ir => ir.2.isOk).map Prod.fst
    (good.foldlM (fun t i => do let x ← e.check i; g t x) s.tally : Res Val) = .ok out.2.1.tally := by
  induction inputs generalizing s w with
  | nil => rfl
  | cons i is ih =>
    cases hc : call e (.action i) s w with
    | mk r p =>
      obtain ⟨s1, w1⟩ := p
      have ih := ih s1 w1
      simp only [List.map_cons, history, hc, List.zip_cons_cons, List.filter_cons] at ih ⊢
      simp only [call, action, hg] at hc
      cases hck : e.check i with
      | error er =>
        rw [hck] at hc
        simp only [Prod.mk.injEq] at hc; obtain ⟨rfl, rfl, rfl⟩ := hc
        simpa [Except.isOk, Except.toBool] using ih
      | ok x =>
        rw [hck] at hc
        simp only at hc
        cases hgx : g s.tally x with
        | error er =>
          rw [hgx] at hc
          simp only [run, Prod.mk.injEq] at hc; obtain ⟨rfl, rfl, rfl⟩ := hc
          simpa [Except.isOk, Except.toBool] using ih
        | ok v =>
          rw [hgx, hf] at hc
          simp only [run, Prod.mk.injEq] at hc; obtain ⟨rfl, rfl, rfl⟩ := hc
          simp only [Except.isOk, Except.toBool, if_true, List.map_cons, List.foldlM_cons, hck]
          simp only [bind, Except.bind, hgx] at ih ⊢
          exact ih

/-- C15, without reference to the outcomes: an input counts exactly when its check and `g` succeed
on the tally reached so far; every outcome is that of `g` on that tally. -/
theorem tally_fold_skip (e : Def) (hf : e.method = .fold) (g : Val → Val → Res Val)
    (hg : ∀ a : ActionIn, e.action a =
      match g a.tally a.input with | .ok v => .ret v | .error err => .raise err)
    (inputs : List Val) (s : Inst) (w : World) :
    let step : Val → Val → Res Val := fun t i => do let x ← e.check i; g t x
    let skip : Val → Val → Val := fun t i => ((step t i).toOption).getD t
    (history e (inputs.map .action) s w).2.1.tally = inputs.foldl skip s.tally ∧
    ∀ k i, inputs[k]? = some i → (history e (inputs.map .action) s w).1[k]? =
      some (step ((inputs.take k).foldl skip s.tally) i) := by
  intro step skip
  induction inputs generalizing s w with
  | nil => simp [history]
  | cons i is ih =>
    cases hc : call e (.action i) s w with
    | mk r p =>
      obtain ⟨s1, w1⟩ := p
      have hone : r = step s.tally i ∧ s1.tally = skip s.tally i := by
        simp only [call, action, hg] at hc
        simp only [skip, step]
        cases hck : e.check i with
        | error er =>
          rw [hck] at hc
          simp only [Prod.mk.injEq] at hc; obtain ⟨rfl, rfl, rfl⟩ := hc
          simp [bind, Except.bind, Except.toOption]
        | ok x =>
          rw [hck] at hc
          simp only at hc
          cases hgx : g s.tally x with
          | error er =>
            rw [hgx] at hc
            simp only [run, Prod.mk.injEq] at hc; obtain ⟨rfl, rfl, rfl⟩ := hc
            simp [bind, Except.bind, Except.toOption, hgx]
          | ok v =>
            rw [hgx, hf] at hc
            simp only [run, Prod.mk.injEq] at hc; obtain ⟨rfl, rfl, rfl⟩ := hc
            simp [bind, Except.bind, Except.toOption, hgx]
      obtain ⟨i1, i2⟩ := ih s1 w1
      simp only [List.map_cons, history, hc]
      refine ⟨by rw [i1, hone.2]; rfl, fun k j hk => ?_⟩
      cases k with
      | zero =>
        simp only [List.getElem?_cons_zero, Option.some.injEq] at hk
        subst hk
        simp [hone.1]
      | succ k =>
        simp only [List.getElem?_cons_succ] at hk ⊢
        rw [i2 k j hk, hone.2]
        rfl

end Verif.Engine
