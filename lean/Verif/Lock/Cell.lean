import Verif.Py.Basic
import Mathlib.Logic.Relation
/-! # Shared cells under every schedule: Cell.update with its lock (C18, C19)

Any number of threads, each with any list of updates to perform on one shared cell.  A thread
executes `Cell.update` (genpy.py 538-544) one step at a time; between two steps any other thread
may run. -/

namespace Verif.Lock

/-- An update: the `update(..., to, ...)` call, as a function of the old value; `none` is an
exception.  (The update function has no side effects: `checkForDeadlock`, genpy.py 1325-1358.) -/
abbrev Upd (V : Type) := V → Option V

/-- Where a thread is inside `Cell.update` (genpy.py 538-544). -/
inductive Pc (V : Type) where
  /-- between two updates -/
  | idle
  /-- after `self.lock.acquire()` (541) -/
  | locked (f : Upd V)
  /-- `self.value` was read as an argument of `update` (542) -/
  | hasRead (f : Upd V) (v : V)
  /-- `update` returned `v'` (542) -/
  | computed (f : Upd V) (v' : V)
  /-- `self.value = ...` was executed (542), `result = self.value` and `release` are left -/
  | written
  /-- the update raised: the exception left `Cell.update` between 541 and 544 -/
  | failed

structure Thread (V : Type) where
  todo : List (Upd V)
  pc : Pc V

structure State (V : Type) where
  /-- the thread that holds `self.lock` -/
  lock : Option Nat
  /-- `self.value` -/
  value : V
  thread : Nat → Thread V
  /-- bookkeeping: the updates that were written, in that order -/
  log : List (Nat × Upd V)

def State.setThread {V : Type} (s : State V) (t : Nat) (th : Thread V) : State V :=
  { s with thread := fun i => if i = t then th else s.thread i }

/-- One step of thread `t`. -/
inductive Step {V : Type} (t : Nat) : State V → State V → Prop where
  /-- `self.lock.acquire()`: blocks while another thread holds the lock -/
  | acquire (s : State V) (f : Upd V) (rest : List (Upd V)) (h : s.thread t = ⟨f :: rest, .idle⟩)
      (hl : s.lock = none) :
      Step t s { s.setThread t ⟨rest, .locked f⟩ with lock := some t }
  | read (s : State V) (f : Upd V) (rest : List (Upd V)) (h : s.thread t = ⟨rest, .locked f⟩) :
      Step t s (s.setThread t ⟨rest, .hasRead f s.value⟩)
  | compute (s : State V) (f : Upd V) (v v' : V) (rest : List (Upd V))
      (h : s.thread t = ⟨rest, .hasRead f v⟩) (hf : f v = some v') :
      Step t s (s.setThread t ⟨rest, .computed f v'⟩)
  /-- the exception propagates; nothing releases the lock -/
  | raise (s : State V) (f : Upd V) (v : V) (rest : List (Upd V))
      (h : s.thread t = ⟨rest, .hasRead f v⟩) (hf : f v = none) :
      Step t s (s.setThread t ⟨rest, .failed⟩)
  | write (s : State V) (f : Upd V) (v' : V) (rest : List (Upd V))
      (h : s.thread t = ⟨rest, .computed f v'⟩) :
      Step t s { s.setThread t ⟨rest, .written⟩ with value := v', log := s.log ++ [(t, f)] }
  /-- `self.lock.release()` -/
  | release (s : State V) (rest : List (Upd V)) (h : s.thread t = ⟨rest, .written⟩) :
      Step t s { s.setThread t ⟨rest, .idle⟩ with lock := none }

/-- Every interleaving: at each point any thread may take its next step. -/
def Reach {V : Type} : State V → State V → Prop :=
  Relation.ReflTransGen fun a b => ∃ t, Step t a b

/-- The start: lock free, every thread with its list of updates to do. -/
def start {V : Type} (v0 : V) (progs : Nat → List (Upd V)) : State V :=
  ⟨none, v0, fun t => ⟨progs t, .idle⟩, []⟩

/-! ## Specification -/

/-- Run updates one after another. -/
def runSeq {V : Type} : List (Upd V) → V → Option V
  | [], v => some v
  | f :: fs, v => match f v with
    | some v' => runSeq fs v'
    | none => none

/-- The thread has nothing left to do. -/
def Thread.Done {V : Type} (th : Thread V) : Prop := th = ⟨[], .idle⟩

/-! ## Invariant -/

/-- The updates of thread `t` in the order in which they were written. -/
def mine {V : Type} (t : Nat) (log : List (Nat × Upd V)) : List (Upd V) :=
  (log.filter fun x => x.1 == t).map Prod.snd

/-- Is the thread between acquire and release? -/
def Pc.inside {V : Type} : Pc V → Bool
  | .idle => false
  | _ => true

/-- The update in progress that is not yet written. -/
def Pc.pending {V : Type} : Pc V → List (Upd V)
  | .locked f => [f]
  | .hasRead f _ => [f]
  | .computed f _ => [f]
  | _ => []

def Pc.isFailed {V : Type} : Pc V → Bool
  | .failed => true
  | _ => false

structure Inv {V : Type} (v0 : V) (progs : Nat → List (Upd V)) (s : State V) : Prop where
  excl : ∀ t, (s.thread t).pc.inside = true ↔ s.lock = some t
  seq : runSeq (s.log.map Prod.snd) v0 = some s.value
  reading : ∀ t rest f v, s.thread t = ⟨rest, .hasRead f v⟩ → v = s.value
  computing : ∀ t rest f v', s.thread t = ⟨rest, .computed f v'⟩ → f s.value = some v'
  order : ∀ t, (s.thread t).pc.isFailed = false →
    progs t = mine t s.log ++ (s.thread t).pc.pending ++ (s.thread t).todo
  orderF : ∀ t, (s.thread t).pc.isFailed = true →
    ∃ f, f s.value = none ∧ progs t = mine t s.log ++ [f] ++ (s.thread t).todo

theorem runSeq_append {V : Type} (fs : List (Upd V)) (f : Upd V) (v0 v v' : V)
    (h : runSeq fs v0 = some v) (hf : f v = some v') : runSeq (fs ++ [f]) v0 = some v' := by
  induction fs generalizing v0 with
  | nil =>
    simp only [runSeq, Option.some.injEq] at h
    subst h
    simp [runSeq, hf]
  | cons g gs ih =>
    simp only [runSeq, List.cons_append] at h ⊢
    split at h
    · exact ih _ h
    · simp at h

theorem inv_start {V : Type} (v0 : V) (progs : Nat → List (Upd V)) :
    Inv v0 progs (start v0 progs) :=
  ⟨fun t => by simp [start, Pc.inside], rfl, fun t _ _ _ h => by simp [start] at h,
   fun t _ _ _ h => by simp [start] at h, fun t _ => by simp [start, mine, Pc.pending],
   fun t h => by simp [start, Pc.isFailed] at h⟩

@[simp] theorem setThread_same {V : Type} (s : State V) (t : Nat) (th : Thread V) :
    (s.setThread t th).thread t = th := by simp [State.setThread]

@[simp] theorem setThread_log {V : Type} (s : State V) (t : Nat) (th : Thread V) :
    (s.setThread t th).log = s.log := rfl

@[simp] theorem setThread_value {V : Type} (s : State V) (t : Nat) (th : Thread V) :
    (s.setThread t th).value = s.value := rfl

theorem setThread_ne {V : Type} (s : State V) {t u : Nat} (th : Thread V) (h : u ≠ t) :
    (s.setThread t th).thread u = s.thread u := by simp [State.setThread, h]

theorem mine_append_self {V : Type} (t : Nat) (log : List (Nat × Upd V)) (f : Upd V) :
    mine t (log ++ [(t, f)]) = mine t log ++ [f] := by
  simp [mine, List.filter_append]

theorem mine_append_ne {V : Type} {t u : Nat} (h : u ≠ t) (log : List (Nat × Upd V)) (f : Upd V) :
    mine u (log ++ [(t, f)]) = mine u log := by
  have : (t == u) = false := by simpa using fun e => h e.symm
  simp [mine, List.filter_append, this]

theorem inv_step {V : Type} {v0 : V} {progs : Nat → List (Upd V)} {s s' : State V} {t : Nat}
    (h : Inv v0 progs s) (hs : Step t s s') : Inv v0 progs s' := by
  -- a thread inside the critical section is the lock owner, so all others are idle
  have others : s.lock = some t → ∀ u, u ≠ t → (s.thread u).pc.inside = false := by
    intro hl u hu
    cases hin : (s.thread u).pc.inside with
    | false => rfl
    | true =>
      have := (h.excl u).1 hin
      rw [hl] at this
      exact absurd (Option.some.inj this).symm hu
  cases hs with
  | acquire f rest ht hl =>
    have hidle : ∀ u, (s.thread u).pc.inside = false := by
      intro u
      cases hin : (s.thread u).pc.inside with
      | false => rfl
      | true => have := (h.excl u).1 hin; rw [hl] at this; simp at this
    refine ⟨?_, h.seq, ?_, ?_, ?_, ?_⟩
    · intro u
      by_cases hu : u = t
      · subst hu; simp [Pc.inside]
      · have hu' : ¬ t = u := fun e => hu e.symm
        simp [setThread_ne _ _ hu, hidle u, hu']
    · intro u rest' g v hg
      by_cases hu : u = t
      · subst hu; simp at hg
      · simp only [setThread_ne _ _ hu] at hg
        exact h.reading u rest' g v hg
    · intro u rest' g v hg
      by_cases hu : u = t
      · subst hu; simp at hg
      · simp only [setThread_ne _ _ hu] at hg
        exact h.computing u rest' g v hg
    · intro u hf
      by_cases hu : u = t
      · subst hu
        have := h.order u (by rw [ht]; rfl)
        rw [ht] at this
        simpa [Pc.pending] using this
      · simp only [setThread_ne _ _ hu] at hf ⊢
        exact h.order u hf
    · intro u hf
      by_cases hu : u = t
      · subst hu; simp [Pc.isFailed] at hf
      · simp only [setThread_ne _ _ hu] at hf ⊢
        exact h.orderF u hf
  | read f rest ht =>
    have hl : s.lock = some t := (h.excl t).1 (by rw [ht]; rfl)
    refine ⟨?_, h.seq, ?_, ?_, ?_, ?_⟩
    · intro u
      by_cases hu : u = t
      · subst hu; simp [Pc.inside, State.setThread, hl]
      · simp only [setThread_ne _ _ hu]; exact h.excl u
    · intro u rest' g v hg
      by_cases hu : u = t
      · subst hu
        simp only [setThread_same, Thread.mk.injEq, Pc.hasRead.injEq] at hg
        exact hg.2.2.symm
      · simp only [setThread_ne _ _ hu] at hg
        exact h.reading u rest' g v hg
    · intro u rest' g v hg
      by_cases hu : u = t
      · subst hu; simp at hg
      · simp only [setThread_ne _ _ hu] at hg
        exact h.computing u rest' g v hg
    · intro u hf
      by_cases hu : u = t
      · subst hu
        have := h.order u (by rw [ht]; rfl)
        rw [ht] at this
        simpa [Pc.pending] using this
      · simp only [setThread_ne _ _ hu] at hf ⊢
        exact h.order u hf
    · intro u hf
      by_cases hu : u = t
      · subst hu; simp [Pc.isFailed] at hf
      · simp only [setThread_ne _ _ hu] at hf ⊢
        exact h.orderF u hf
  | compute f v v' rest ht hf' =>
    have hl : s.lock = some t := (h.excl t).1 (by rw [ht]; rfl)
    refine ⟨?_, h.seq, ?_, ?_, ?_, ?_⟩
    · intro u
      by_cases hu : u = t
      · subst hu; simp [Pc.inside, State.setThread, hl]
      · simp only [setThread_ne _ _ hu]; exact h.excl u
    · intro u rest' g v hg
      by_cases hu : u = t
      · subst hu; simp at hg
      · simp only [setThread_ne _ _ hu] at hg
        exact h.reading u rest' g v hg
    · intro u rest' g x hg
      by_cases hu : u = t
      · subst hu
        simp only [setThread_same, Thread.mk.injEq, Pc.computed.injEq] at hg
        obtain ⟨-, rfl, rfl⟩ := hg
        have := h.reading u rest f v ht
        subst this
        exact hf'
      · simp only [setThread_ne _ _ hu] at hg
        exact h.computing u rest' g x hg
    · intro u hf
      by_cases hu : u = t
      · subst hu
        have := h.order u (by rw [ht]; rfl)
        rw [ht] at this
        simpa [Pc.pending] using this
      · simp only [setThread_ne _ _ hu] at hf ⊢
        exact h.order u hf
    · intro u hf
      by_cases hu : u = t
      · subst hu; simp [Pc.isFailed] at hf
      · simp only [setThread_ne _ _ hu] at hf ⊢
        exact h.orderF u hf
  | raise f v rest ht hf' =>
    have hl : s.lock = some t := (h.excl t).1 (by rw [ht]; rfl)
    refine ⟨?_, h.seq, ?_, ?_, ?_, ?_⟩
    · intro u
      by_cases hu : u = t
      · subst hu; simp [Pc.inside, State.setThread, hl]
      · simp only [setThread_ne _ _ hu]; exact h.excl u
    · intro u rest' g v hg
      by_cases hu : u = t
      · subst hu; simp at hg
      · simp only [setThread_ne _ _ hu] at hg
        exact h.reading u rest' g v hg
    · intro u rest' g x hg
      by_cases hu : u = t
      · subst hu; simp at hg
      · simp only [setThread_ne _ _ hu] at hg
        exact h.computing u rest' g x hg
    · intro u hf
      by_cases hu : u = t
      · subst hu; simp [Pc.isFailed] at hf
      · simp only [setThread_ne _ _ hu] at hf ⊢
        exact h.order u hf
    · intro u hf
      by_cases hu : u = t
      · subst hu
        have h1 := h.order u (by rw [ht]; rfl)
        have h2 := h.reading u rest f v ht
        subst h2
        rw [ht] at h1
        exact ⟨f, hf', by simpa [Pc.pending] using h1⟩
      · simp only [setThread_ne _ _ hu] at hf ⊢
        exact h.orderF u hf
  | write f v' rest ht =>
    have hl : s.lock = some t := (h.excl t).1 (by rw [ht]; rfl)
    have ho := others hl
    have hne : ∀ u, u ≠ t → ∀ rest' pc, s.thread u = ⟨rest', pc⟩ → pc.inside = false := by
      intro u hu rest' pc hp
      have := ho u hu
      rw [hp] at this; exact this
    refine ⟨?_, ?_, ?_, ?_, ?_, ?_⟩
    · intro u
      by_cases hu : u = t
      · subst hu; simp [Pc.inside, State.setThread, hl]
      · simp only [setThread_ne _ _ hu]; exact h.excl u
    · simp only [List.map_append, List.map_cons, List.map_nil]
      exact runSeq_append _ _ _ _ _ h.seq (h.computing t rest f v' ht)
    · intro u rest' g v hg
      by_cases hu : u = t
      · subst hu; simp at hg
      · simp only [setThread_ne _ _ hu] at hg
        have := hne u hu _ _ hg
        simp [Pc.inside] at this
    · intro u rest' g x hg
      by_cases hu : u = t
      · subst hu; simp at hg
      · simp only [setThread_ne _ _ hu] at hg
        have := hne u hu _ _ hg
        simp [Pc.inside] at this
    · intro u hf
      by_cases hu : u = t
      · subst hu
        have := h.order u (by rw [ht]; rfl)
        rw [ht] at this
        simpa [Pc.pending, mine_append_self] using this
      · simp only [setThread_ne _ _ hu, mine_append_ne hu] at hf ⊢
        exact h.order u hf
    · intro u hf
      by_cases hu : u = t
      · subst hu; simp [Pc.isFailed] at hf
      · simp only [setThread_ne _ _ hu] at hf
        have := ho u hu
        revert hf this
        cases (s.thread u).pc <;> simp [Pc.isFailed, Pc.inside]
  | release rest ht =>
    have hl : s.lock = some t := (h.excl t).1 (by rw [ht]; rfl)
    have ho := others hl
    refine ⟨?_, h.seq, ?_, ?_, ?_, ?_⟩
    · intro u
      by_cases hu : u = t
      · subst hu; simp [Pc.inside]
      · simp [setThread_ne _ _ hu, ho u hu]
    · intro u rest' g v hg
      by_cases hu : u = t
      · subst hu; simp at hg
      · simp only [setThread_ne _ _ hu] at hg
        exact h.reading u rest' g v hg
    · intro u rest' g x hg
      by_cases hu : u = t
      · subst hu; simp at hg
      · simp only [setThread_ne _ _ hu] at hg
        exact h.computing u rest' g x hg
    · intro u hf
      by_cases hu : u = t
      · subst hu
        have := h.order u (by rw [ht]; rfl)
        rw [ht] at this
        simpa [Pc.pending] using this
      · simp only [setThread_ne _ _ hu] at hf ⊢
        exact h.order u hf
    · intro u hf
      by_cases hu : u = t
      · subst hu; simp [Pc.isFailed] at hf
      · simp only [setThread_ne _ _ hu] at hf ⊢
        exact h.orderF u hf

theorem inv_reach {V : Type} {v0 : V} {progs : Nat → List (Upd V)} {s : State V}
    (h : Reach (start v0 progs) s) : Inv v0 progs s := by
  induction h with
  | refl => exact inv_start v0 progs
  | tail _ hs ih => obtain ⟨t, hs⟩ := hs; exact inv_step ih hs

/-! ## C18 -/

/-- C18: under every schedule, the value of a shared cell is at any moment the result of running
the updates written so far one after another, and each thread's updates occur in that order in
its program order, none missing and none twice; in particular, once every thread is done, the
final value is that of a sequential execution of exactly all updates. -/
theorem cell_updates_atomic {V : Type} {v0 : V} {progs : Nat → List (Upd V)} {s : State V}
    (h : Reach (start v0 progs) s) :
    ∃ order : List (Nat × Upd V), runSeq (order.map Prod.snd) v0 = some s.value ∧
      (∀ t, (order.filter fun x => x.1 == t).map Prod.snd <+: progs t) ∧
      (∀ t, (s.thread t).Done → (order.filter fun x => x.1 == t).map Prod.snd = progs t) := by
  have hi := inv_reach h
  refine ⟨s.log, hi.seq, fun t => ?_, fun t ht => ?_⟩
  · cases hf : (s.thread t).pc.isFailed with
    | false =>
      exact ⟨_, by rw [hi.order t hf, List.append_assoc]; rfl⟩
    | true =>
      obtain ⟨f, -, hp⟩ := hi.orderF t hf
      exact ⟨_, by rw [hp, List.append_assoc]; rfl⟩
  · have := hi.order t (by rw [ht]; rfl)
    rw [ht] at this
    simpa [Pc.pending, mine] using this.symm

/-- Two threads are never both inside the update. -/
theorem cell_mutual_exclusion {V : Type} {v0 : V} {progs : Nat → List (Upd V)} {s : State V}
    (h : Reach (start v0 progs) s) {t u : Nat} (ht : (s.thread t).pc.inside = true)
    (hu : (s.thread u).pc.inside = true) : t = u := by
  have hi := inv_reach h
  have h1 := (hi.excl t).1 ht
  have h2 := (hi.excl u).1 hu
  rw [h1] at h2
  exact Option.some.inj h2

/-- If no update raises, no schedule gets stuck: while a thread has work left, some thread can take
a step. -/
theorem cell_no_deadlock {V : Type} {v0 : V} {progs : Nat → List (Upd V)} {s : State V}
    (h : Reach (start v0 progs) s) (hok : ∀ t, ∀ f ∈ progs t, ∀ v, (f v).isSome)
    {t : Nat} (ht : ¬ (s.thread t).Done) : ∃ u s', Step u s s' := by
  have hi := inv_reach h
  cases hl : s.lock with
  | none =>
    have hin : (s.thread t).pc.inside = false := by
      cases hin : (s.thread t).pc.inside with
      | false => rfl
      | true => have := (hi.excl t).1 hin; rw [hl] at this; simp at this
    cases hth : s.thread t with
    | mk todo pc =>
      rw [hth] at hin ht
      cases pc with
      | idle =>
        cases todo with
        | nil => exact absurd rfl ht
        | cons f rest => exact ⟨t, _, .acquire s f rest hth hl⟩
      | _ => simp [Pc.inside] at hin
  | some u =>
    have hin := (hi.excl u).2 hl
    cases hth : s.thread u with
    | mk todo pc =>
      rw [hth] at hin
      cases pc with
      | idle => simp [Pc.inside] at hin
      | locked f => exact ⟨u, _, .read s f todo hth⟩
      | hasRead f v =>
        have hmem : f ∈ progs u := by
          have := hi.order u (by rw [hth]; rfl)
          rw [hth] at this
          rw [this]; simp [Pc.pending]
        obtain ⟨v', hv'⟩ := Option.isSome_iff_exists.1 (hok u f hmem v)
        exact ⟨u, _, .compute s f v v' todo hth hv'⟩
      | computed f v' => exact ⟨u, _, .write s f v' todo hth⟩
      | written => exact ⟨u, _, .release s todo hth⟩
      | failed =>
        obtain ⟨f, hf, hp⟩ := hi.orderF u (by rw [hth]; rfl)
        have := hok u f (by rw [hp]; simp) s.value
        rw [hf] at this; simp at this

/-! ## C19 -/

/-- C19 fails: once an update of thread `t` has raised, no other thread ever completes another
update, whatever the schedule: the cell keeps its value for ever. -/
theorem cell_failed_update_blocks {V : Type} {v0 : V} {progs : Nat → List (Upd V)} {s s' : State V}
    (h : Reach (start v0 progs) s) {t : Nat} (ht : (s.thread t).pc.isFailed = true)
    (h' : Reach s s') : s' = s := by
  have hi := inv_reach h
  have hl : s.lock = some t := by
    apply (hi.excl t).1
    revert ht
    cases (s.thread t).pc <;> simp [Pc.isFailed, Pc.inside]
  have stuck : ∀ u x, ¬ Step u s x := by
    intro u x hs
    by_cases hu : u = t
    · subst hu
      cases hs with
      | acquire f rest hh _ => rw [hh] at ht; simp [Pc.isFailed] at ht
      | read f rest hh => rw [hh] at ht; simp [Pc.isFailed] at ht
      | compute f v v' rest hh _ => rw [hh] at ht; simp [Pc.isFailed] at ht
      | raise f v rest hh _ => rw [hh] at ht; simp [Pc.isFailed] at ht
      | write f v' rest hh => rw [hh] at ht; simp [Pc.isFailed] at ht
      | release rest hh => rw [hh] at ht; simp [Pc.isFailed] at ht
    · have hno : (s.thread u).pc.inside = false := by
        cases hin : (s.thread u).pc.inside with
        | false => rfl
        | true =>
          have := (hi.excl u).1 hin
          rw [hl] at this
          exact absurd (Option.some.inj this).symm hu
      cases hs with
      | acquire f rest hh hl' => rw [hl] at hl'; simp at hl'
      | read f rest hh => rw [hh] at hno; simp [Pc.inside] at hno
      | compute f v v' rest hh _ => rw [hh] at hno; simp [Pc.inside] at hno
      | raise f v rest hh _ => rw [hh] at hno; simp [Pc.inside] at hno
      | write f v' rest hh => rw [hh] at hno; simp [Pc.inside] at hno
      | release rest hh => rw [hh] at hno; simp [Pc.inside] at hno
  rcases Relation.ReflTransGen.cases_head h' with rfl | ⟨x, ⟨u, hs⟩, -⟩
  · rfl
  · exact absurd hs (stuck u x)

/-- C19 violated, concretely: thread 0 fails once, thread 1 wants to add one; after thread 0 has
failed thread 1 can never perform its update. -/
theorem cell_lock_not_released_violation :
    ∃ (v0 : Nat) (progs : Nat → List (Upd Nat)) (s : State Nat),
      Reach (start v0 progs) s ∧ (s.thread 1).todo ≠ [] ∧
      ∀ s', Reach s s' → ¬ (s'.thread 1).Done := by
  let progs : Nat → List (Upd Nat) := fun t =>
    if t = 0 then [fun _ => none] else if t = 1 then [fun v => some (v + 1)] else []
  let s0 := start 7 progs
  let s1 : State Nat := { s0.setThread 0 ⟨[], .locked fun _ => none⟩ with lock := some 0 }
  let s2 : State Nat := s1.setThread 0 ⟨[], .hasRead (fun _ => none) 7⟩
  let s3 : State Nat := s2.setThread 0 ⟨[], .failed⟩
  have r1 : Step 0 s0 s1 := .acquire s0 (fun _ => none) [] rfl rfl
  have r2 : Step 0 s1 s2 := .read s1 (fun _ => none) [] rfl
  have r3 : Step 0 s2 s3 := .raise s2 (fun _ => none) 7 [] rfl rfl
  have hr : Reach s0 s3 := ((Relation.ReflTransGen.refl.tail ⟨0, r1⟩).tail ⟨0, r2⟩).tail ⟨0, r3⟩
  have htodo : (s3.thread 1).todo ≠ [] := by simp [s3, s2, s1, s0, State.setThread, start, progs]
  refine ⟨7, progs, s3, hr, htodo, fun s' hs' hd => ?_⟩
  have := cell_failed_update_blocks hr (t := 0) rfl hs'
  subst this
  exact htodo (by rw [hd])

/-- The hypotheses of `cell_updates_atomic` are met by an execution of two threads that both
finish: 0 becomes 6 by adding one and multiplying, in some order. -/
example : ∃ s : State Nat, Reach (start 5 fun t =>
    if t = 0 then [fun v => some (v + 1)] else if t = 1 then [fun v => some (v * 2)] else []) s ∧
    s.value = 11 ∧ (∀ t, (s.thread t).Done) := by
  let p0 : Upd Nat := fun v => some (v + 1)
  let p1 : Upd Nat := fun v => some (v * 2)
  let progs : Nat → List (Upd Nat) := fun t => if t = 0 then [p0] else if t = 1 then [p1] else []
  let s0 := start 5 progs
  let s1 : State Nat := { s0.setThread 1 ⟨[], .locked p1⟩ with lock := some 1 }
  let s2 := s1.setThread 1 ⟨[], .hasRead p1 5⟩
  let s3 := s2.setThread 1 ⟨[], .computed p1 10⟩
  let s4 : State Nat := { s3.setThread 1 ⟨[], .written⟩ with value := 10, log := [(1, p1)] }
  let s5 : State Nat := { s4.setThread 1 ⟨[], .idle⟩ with lock := none }
  let s6 : State Nat := { s5.setThread 0 ⟨[], .locked p0⟩ with lock := some 0 }
  let s7 := s6.setThread 0 ⟨[], .hasRead p0 10⟩
  let s8 := s7.setThread 0 ⟨[], .computed p0 11⟩
  let s9 : State Nat := { s8.setThread 0 ⟨[], .written⟩ with value := 11, log := [(1, p1), (0, p0)] }
  let s10 : State Nat := { s9.setThread 0 ⟨[], .idle⟩ with lock := none }
  have r : Reach s0 s10 :=
    (((((((((Relation.ReflTransGen.refl.tail
      ⟨1, (.acquire s0 p1 [] rfl rfl : Step 1 s0 s1)⟩).tail
      ⟨1, (.read s1 p1 [] rfl : Step 1 s1 s2)⟩).tail
      ⟨1, (.compute s2 p1 5 10 [] rfl rfl : Step 1 s2 s3)⟩).tail
      ⟨1, (.write s3 p1 10 [] rfl : Step 1 s3 s4)⟩).tail
      ⟨1, (.release s4 [] rfl : Step 1 s4 s5)⟩).tail
      ⟨0, (.acquire s5 p0 [] rfl rfl : Step 0 s5 s6)⟩).tail
      ⟨0, (.read s6 p0 [] rfl : Step 0 s6 s7)⟩).tail
      ⟨0, (.compute s7 p0 10 11 [] rfl rfl : Step 0 s7 s8)⟩).tail
      ⟨0, (.write s8 p0 11 [] rfl : Step 0 s8 s9)⟩).tail
      ⟨0, (.release s9 [] rfl : Step 0 s9 s10)⟩
  refine ⟨s10, r, rfl, fun t => ?_⟩
  by_cases h0 : t = 0
  · subst h0; rfl
  · by_cases h1 : t = 1
    · subst h1; rfl
    · simp [s10, s9, s8, s7, s6, s5, s4, s3, s2, s1, s0, start, progs, State.setThread, h0, h1,
        Thread.Done]

end Verif.Lock
