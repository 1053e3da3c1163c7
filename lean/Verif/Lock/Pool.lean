import Verif.Lock.Cell
/-! # Shared pools under every schedule: Pool.update with its two levels of locks (C18, C19)

Any number of threads, each with any list of updates of keys of one shared pool, executing
`Pool.update` (genpy.py 573-600, the `shared` branch) one step at a time. -/

namespace Verif.Lock.P

variable {K V : Type} [DecidableEq K]

/-- One call of `Pool.update`: the key (`head`), `init`, and the update function (`none` is an
exception). -/
structure Op (K V : Type) where
  key : K
  init : V
  f : V → Option V

/-- Where a thread is inside `Pool.update`. -/
inductive Pc (K V : Type) where
  | idle
  /-- after `self.locklock.acquire()` (579) -/
  | gate (o : Op K V)
  /-- after `self.locks[head].acquire()` (581 or 584) -/
  | both (o : Op K V)
  /-- after `self.locklock.release()` (585) -/
  | keyed (o : Op K V)
  /-- after the insertion of `init` where it was missing (587-588) -/
  | ensured (o : Op K V)
  /-- `self.value[head]` was read as an argument of `update` (589) -/
  | hasRead (o : Op K V) (v : V)
  /-- `update` returned (589) -/
  | computed (o : Op K V) (v' : V)
  /-- `self.value[head] = ...` was executed (589) -/
  | written (o : Op K V)
  /-- the update raised; the exception left `Pool.update` with `locks[head]` held -/
  | failed (o : Op K V)

structure Thread (K V : Type) where
  todo : List (Op K V)
  pc : Pc K V

structure State (K V : Type) where
  /-- the thread that holds `self.locklock` -/
  locklock : Option Nat
  /-- `self.locks`: `none` if the key has no lock yet, else the lock with its holder -/
  locks : K → Option (Option Nat)
  /-- `self.value` (order of the keys not modelled) -/
  value : K → Option V
  thread : Nat → Thread K V
  /-- bookkeeping: the updates that were written, in that order -/
  log : List (Nat × Op K V)

def upd {A B : Type} [DecidableEq A] (m : A → B) (k : A) (b : B) : A → B :=
  fun x => if x = k then b else m x

def State.setThread (s : State K V) (t : Nat) (th : Thread K V) : State K V :=
  { s with thread := upd s.thread t th }

/-- One step of thread `t` (genpy.py 578-592). -/
inductive Step (t : Nat) : State K V → State K V → Prop where
  | enter (s : State K V) (o : Op K V) (rest : List (Op K V))
      (h : s.thread t = ⟨o :: rest, .idle⟩) (hl : s.locklock = none) :
      Step t s { s.setThread t ⟨rest, .gate o⟩ with locklock := some t }
  /-- `if head in self.locks: self.locks[head].acquire()`: blocks while it is held -/
  | acquire (s : State K V) (o : Op K V) (rest : List (Op K V))
      (h : s.thread t = ⟨rest, .gate o⟩) (hl : s.locks o.key = some none) :
      Step t s { s.setThread t ⟨rest, .both o⟩ with locks := upd s.locks o.key (some (some t)) }
  /-- `else: self.locks[head] = threading.Lock(); self.locks[head].acquire()` -/
  | create (s : State K V) (o : Op K V) (rest : List (Op K V))
      (h : s.thread t = ⟨rest, .gate o⟩) (hl : s.locks o.key = none) :
      Step t s { s.setThread t ⟨rest, .both o⟩ with locks := upd s.locks o.key (some (some t)) }
  | leave (s : State K V) (o : Op K V) (rest : List (Op K V))
      (h : s.thread t = ⟨rest, .both o⟩) :
      Step t s { s.setThread t ⟨rest, .keyed o⟩ with locklock := none }
  /-- `if head not in self.value: self.value[head] = init` -/
  | ensure (s : State K V) (o : Op K V) (rest : List (Op K V))
      (h : s.thread t = ⟨rest, .keyed o⟩) :
      Step t s { s.setThread t ⟨rest, .ensured o⟩ with
        value := match s.value o.key with
          | none => upd s.value o.key (some o.init)
          | some _ => s.value }
  | read (s : State K V) (o : Op K V) (v : V) (rest : List (Op K V))
      (h : s.thread t = ⟨rest, .ensured o⟩) (hv : s.value o.key = some v) :
      Step t s (s.setThread t ⟨rest, .hasRead o v⟩)
  | compute (s : State K V) (o : Op K V) (v v' : V) (rest : List (Op K V))
      (h : s.thread t = ⟨rest, .hasRead o v⟩) (hf : o.f v = some v') :
      Step t s (s.setThread t ⟨rest, .computed o v'⟩)
  | raise (s : State K V) (o : Op K V) (v : V) (rest : List (Op K V))
      (h : s.thread t = ⟨rest, .hasRead o v⟩) (hf : o.f v = none) :
      Step t s (s.setThread t ⟨rest, .failed o⟩)
  | write (s : State K V) (o : Op K V) (v' : V) (rest : List (Op K V))
      (h : s.thread t = ⟨rest, .computed o v'⟩) :
      Step t s { s.setThread t ⟨rest, .written o⟩ with
        value := upd s.value o.key (some v'), log := s.log ++ [(t, o)] }
  | release (s : State K V) (o : Op K V) (rest : List (Op K V))
      (h : s.thread t = ⟨rest, .written o⟩) :
      Step t s { s.setThread t ⟨rest, .idle⟩ with locks := upd s.locks o.key (some none) }

def Reach : State K V → State K V → Prop :=
  Relation.ReflTransGen fun a b => ∃ t, Step t a b

def start (v0 : K → Option V) (progs : Nat → List (Op K V)) : State K V :=
  ⟨none, fun _ => none, v0, fun t => ⟨progs t, .idle⟩, []⟩

/-! ## Specification -/

/-- One update done alone: the old item, or `init` where there is none, is replaced. -/
def seqOp (o : Op K V) (m : K → Option V) : Option (K → Option V) :=
  (o.f ((m o.key).getD o.init)).map fun v' => fun k => if k = o.key then some v' else m k

/-- Updates done one after another. -/
def runSeq : List (Op K V) → (K → Option V) → Option (K → Option V)
  | [], m => some m
  | o :: os, m => match seqOp o m with
    | some m' => runSeq os m'
    | none => none

def Thread.Done (th : Thread K V) : Prop := th = ⟨[], .idle⟩

/-! ## Invariant -/

def mine (t : Nat) (log : List (Nat × Op K V)) : List (Op K V) :=
  (log.filter fun x => x.1 == t).map Prod.snd

/-- Does a thread at this point hold `locklock`? -/
def Pc.holdsGate : Pc K V → Bool
  | .gate _ => true
  | .both _ => true
  | _ => false

/-- The key whose lock a thread at this point holds. -/
def Pc.holdsKey : Pc K V → Option K
  | .idle => none
  | .gate _ => none
  | .both o => some o.key
  | .keyed o => some o.key
  | .ensured o => some o.key
  | .hasRead o _ => some o.key
  | .computed o _ => some o.key
  | .written o => some o.key
  | .failed o => some o.key

def Pc.pending : Pc K V → List (Op K V)
  | .gate o => [o]
  | .both o => [o]
  | .keyed o => [o]
  | .ensured o => [o]
  | .hasRead o _ => [o]
  | .computed o _ => [o]
  | .failed o => [o]
  | _ => []

/-- What is in the pool at the held key, given the committed item `c`. -/
def Pc.expect : Pc K V → Option V → Option V
  | .ensured o, c => some (c.getD o.init)
  | .hasRead o _, c => some (c.getD o.init)
  | .computed o _, c => some (c.getD o.init)
  | .failed o, c => some (c.getD o.init)
  | _, c => c

/-- What the thread knows about its key. -/
def Pc.knows : Pc K V → Option V → Prop
  | .hasRead _ v, x => x = some v
  | .computed o v', x => ∃ v, x = some v ∧ o.f v = some v'
  | .failed o, x => ∃ v, x = some v ∧ o.f v = none
  | _, _ => True

structure Inv (v0 : K → Option V) (progs : Nat → List (Op K V)) (s : State K V) : Prop where
  gate : ∀ t, (s.thread t).pc.holdsGate = true ↔ s.locklock = some t
  key : ∀ t k, (s.thread t).pc.holdsKey = some k ↔ s.locks k = some (some t)
  order : ∀ t, progs t = mine t s.log ++ (s.thread t).pc.pending ++ (s.thread t).todo
  seq : ∃ c, runSeq (s.log.map Prod.snd) v0 = some c ∧
    (∀ k, (∀ t, s.locks k ≠ some (some t)) → s.value k = c k) ∧
    (∀ k t, s.locks k = some (some t) → s.value k = (s.thread t).pc.expect (c k))
  knows : ∀ t k, (s.thread t).pc.holdsKey = some k → (s.thread t).pc.knows (s.value k)

omit [DecidableEq K] in
theorem mine_append_self (t : Nat) (log : List (Nat × Op K V)) (f : Op K V) :
    mine t (log ++ [(t, f)]) = mine t log ++ [f] := by
  simp [mine, List.filter_append]

omit [DecidableEq K] in
theorem mine_append_ne {t u : Nat} (h : u ≠ t) (log : List (Nat × Op K V)) (f : Op K V) :
    mine u (log ++ [(t, f)]) = mine u log := by
  have : (t == u) = false := by simpa using fun e => h e.symm
  simp [mine, List.filter_append, this]

theorem runSeq_append (os : List (Op K V)) (o : Op K V) (m m' m'' : K → Option V)
    (h : runSeq os m = some m') (ho : seqOp o m' = some m'') :
    runSeq (os ++ [o]) m = some m'' := by
  induction os generalizing m with
  | nil =>
    simp only [runSeq, Option.some.injEq] at h
    subst h
    simp [runSeq, ho]
  | cons p ps ih =>
    simp only [runSeq, List.cons_append] at h ⊢
    split at h
    · exact ih _ h
    · simp at h

theorem upd_same {A B : Type} [DecidableEq A] (m : A → B) (k : A) (b : B) : upd m k b k = b := by
  simp [upd]

theorem upd_ne {A B : Type} [DecidableEq A] (m : A → B) {k x : A} (b : B) (h : x ≠ k) :
    upd m k b x = m x := by
  simp [upd, h]

theorem inv_start (v0 : K → Option V) (progs : Nat → List (Op K V)) :
    Inv v0 progs (start v0 progs) :=
  ⟨fun t => by simp [start, Pc.holdsGate], fun t k => by simp [start, Pc.holdsKey],
   fun t => by simp [start, mine, Pc.pending],
   ⟨v0, rfl, fun k _ => rfl, fun k t h => by simp [start] at h⟩,
   fun t k h => by simp [start, Pc.holdsKey] at h⟩

/-- A step in which only the program counter of the key holder `t` changes (and maybe the pool at
the held key): every clause about other threads carries over. -/
theorem inv_local {v0 : K → Option V} {progs : Nat → List (Op K V)} {s : State K V} {t : Nat}
    (h : Inv v0 progs s) {rest : List (Op K V)} {pc pc' : Pc K V} {o : Op K V}
    (ht : s.thread t = ⟨rest, pc⟩) (hk : pc.holdsKey = some o.key)
    (hk' : pc'.holdsKey = some o.key) (hg : pc'.holdsGate = pc.holdsGate)
    (hp : pc'.pending = pc.pending) (value' : K → Option V)
    (hv : ∀ k, k ≠ o.key → value' k = s.value k)
    (he : ∀ c, s.value o.key = pc.expect c → value' o.key = pc'.expect c)
    (hn : pc'.knows (value' o.key)) :
    Inv v0 progs { s.setThread t ⟨rest, pc'⟩ with value := value' } := by
  have hl : s.locks o.key = some (some t) := (h.key t o.key).1 (by rw [ht]; exact hk)
  obtain ⟨c, hc, hfree, hheld⟩ := h.seq
  refine ⟨?_, ?_, ?_, ⟨c, hc, ?_, ?_⟩, ?_⟩
  · intro u
    by_cases hu : u = t
    · subst hu
      have := h.gate u
      rw [ht] at this
      simpa [State.setThread, upd, hg] using this
    · simpa [State.setThread, upd, hu] using h.gate u
  · intro u k
    by_cases hu : u = t
    · subst hu
      have := h.key u k
      rw [ht] at this
      simp only [hk] at this
      simpa [State.setThread, upd, hk'] using this
    · simpa [State.setThread, upd, hu] using h.key u k
  · intro u
    by_cases hu : u = t
    · subst hu
      have := h.order u
      rw [ht] at this
      simpa [State.setThread, upd, hp] using this
    · simpa [State.setThread, upd, hu] using h.order u
  · intro k hk0
    have hne : k ≠ o.key := by
      intro e; subst e; exact hk0 t hl
    show value' k = c k
    rw [hv k hne]
    exact hfree k hk0
  · intro k u hku
    change s.locks k = some (some u) at hku
    show value' k = Pc.expect (upd s.thread t ⟨rest, pc'⟩ u).pc (c k)
    by_cases hko : k = o.key
    · subst hko
      rw [hl] at hku
      have hut : u = t := by simpa using hku.symm
      subst hut
      rw [upd_same]
      apply he
      have := hheld o.key u hl
      rw [ht] at this
      exact this
    · have hut : u ≠ t := by
        intro e
        subst e
        have := (h.key u k).2 hku
        rw [ht] at this
        simp only [hk, Option.some.injEq] at this
        exact hko this.symm
      rw [upd_ne _ _ hut, hv k hko]
      exact hheld k u hku
  · intro u k huk
    change Pc.holdsKey (upd s.thread t ⟨rest, pc'⟩ u).pc = some k at huk
    show Pc.knows (upd s.thread t ⟨rest, pc'⟩ u).pc (value' k)
    by_cases hu : u = t
    · subst hu
      rw [upd_same] at huk ⊢
      simp only [hk', Option.some.injEq] at huk
      subst huk
      exact hn
    · rw [upd_ne _ _ hu] at huk ⊢
      have hlk := (h.key u k).1 huk
      have hne : k ≠ o.key := by
        intro e; subst e
        rw [hl] at hlk
        exact hu (by simpa using hlk.symm)
      rw [hv k hne]
      exact h.knows u k huk

theorem inv_step {v0 : K → Option V} {progs : Nat → List (Op K V)} {s s' : State K V} {t : Nat}
    (h : Inv v0 progs s) (hs : Step t s s') : Inv v0 progs s' := by
  obtain ⟨c, hc, hfree, hheld⟩ := h.seq
  -- taking the lock of a key nobody holds
  have take : ∀ (o : Op K V) (rest : List (Op K V)), s.thread t = ⟨rest, .gate o⟩ →
      (∀ u, s.locks o.key ≠ some (some u)) →
      Inv v0 progs { s.setThread t ⟨rest, .both o⟩ with
        locks := upd s.locks o.key (some (some t)) } := by
    intro o rest ht hl
    refine ⟨?_, ?_, ?_, ⟨c, hc, ?_, ?_⟩, ?_⟩
    · intro u
      by_cases hu : u = t
      · subst hu
        have := h.gate u
        rw [ht] at this
        simpa [State.setThread, upd, Pc.holdsGate] using this
      · simpa [State.setThread, upd, hu] using h.gate u
    · intro u k
      show Pc.holdsKey (upd s.thread t ⟨rest, .both o⟩ u).pc = some k ↔
        upd s.locks o.key (some (some t)) k = some (some u)
      by_cases hu : u = t
      · subst hu
        have h1 := h.key u k
        rw [ht] at h1
        rw [upd_same]
        by_cases hk : k = o.key
        · subst hk; simp [Pc.holdsKey, upd_same]
        · rw [upd_ne _ _ hk]
          have hk' : ¬ o.key = k := fun e => hk e.symm
          simp only [Pc.holdsKey, Option.some.injEq, hk', false_iff]
          simp only [Pc.holdsKey, false_iff, reduceCtorEq] at h1
          exact h1
      · rw [upd_ne _ _ hu]
        have h1 := h.key u k
        by_cases hk : k = o.key
        · subst hk
          rw [upd_same]
          simp only [Option.some.injEq, fun e => hu (Eq.symm e : u = t), iff_false]
          constructor
          · intro e; exact absurd (h1.1 e) (hl u)
          · intro e; exact absurd e.symm hu
        · rw [upd_ne _ _ hk]; exact h1
    · intro u
      by_cases hu : u = t
      · subst hu
        have := h.order u
        rw [ht] at this
        simpa [State.setThread, upd, Pc.pending] using this
      · simpa [State.setThread, upd, hu] using h.order u
    · intro k hk
      have hne : k ≠ o.key := by
        intro e; subst e; exact hk t (by simp [upd])
      apply hfree k
      intro u hu
      exact hk u (by show upd _ _ _ _ = _; rw [upd_ne _ _ hne]; exact hu)
    · intro k u hku
      change upd s.locks o.key (some (some t)) k = some (some u) at hku
      show s.value k = Pc.expect (upd s.thread t ⟨rest, .both o⟩ u).pc (c k)
      by_cases hk : k = o.key
      · subst hk
        rw [upd_same] at hku
        have hut : u = t := by simpa using hku.symm
        subst hut
        rw [upd_same]
        exact hfree o.key hl
      · rw [upd_ne _ _ hk] at hku
        have hut : u ≠ t := by
          intro e; subst e
          have := (h.key u k).2 hku
          rw [ht] at this
          simp [Pc.holdsKey] at this
        rw [upd_ne _ _ hut]
        exact hheld k u hku
    · intro u k huk
      change Pc.holdsKey (upd s.thread t ⟨rest, .both o⟩ u).pc = some k at huk
      show Pc.knows (upd s.thread t ⟨rest, .both o⟩ u).pc (s.value k)
      by_cases hu : u = t
      · subst hu; rw [upd_same]; trivial
      · rw [upd_ne _ _ hu] at huk ⊢
        exact h.knows u k huk
  cases hs with
  | enter o rest ht hl =>
    refine ⟨?_, ?_, ?_, ⟨c, hc, hfree, ?_⟩, ?_⟩
    · intro u
      by_cases hu : u = t
      · subst hu; simp [State.setThread, upd, Pc.holdsGate]
      · have h1 := h.gate u
        rw [hl] at h1
        have h2 : ¬ t = u := fun e => hu e.symm
        simpa [State.setThread, upd, hu, h2] using h1
    · intro u k
      by_cases hu : u = t
      · subst hu
        have := h.key u k
        rw [ht] at this
        simpa [State.setThread, upd, Pc.holdsKey] using this
      · simpa [State.setThread, upd, hu] using h.key u k
    · intro u
      by_cases hu : u = t
      · subst hu
        have := h.order u
        rw [ht] at this
        simpa [State.setThread, upd, Pc.pending] using this
      · simpa [State.setThread, upd, hu] using h.order u
    · intro k u hku
      change s.locks k = some (some u) at hku
      show s.value k = Pc.expect (upd s.thread t ⟨rest, .gate o⟩ u).pc (c k)
      have hut : u ≠ t := by
        intro e; subst e
        have := (h.key u k).2 hku
        rw [ht] at this
        simp [Pc.holdsKey] at this
      rw [upd_ne _ _ hut]
      exact hheld k u hku
    · intro u k huk
      change Pc.holdsKey (upd s.thread t ⟨rest, .gate o⟩ u).pc = some k at huk
      show Pc.knows (upd s.thread t ⟨rest, .gate o⟩ u).pc (s.value k)
      by_cases hu : u = t
      · subst hu; rw [upd_same]; trivial
      · rw [upd_ne _ _ hu] at huk ⊢
        exact h.knows u k huk
  | acquire o rest ht hl => exact take o rest ht (fun u => by rw [hl]; simp)
  | create o rest ht hl => exact take o rest ht (fun u => by rw [hl]; simp)
  | leave o rest ht =>
    have hg : s.locklock = some t := (h.gate t).1 (by rw [ht]; rfl)
    refine ⟨?_, ?_, ?_, ⟨c, hc, hfree, ?_⟩, ?_⟩
    · intro u
      by_cases hu : u = t
      · subst hu; simp [State.setThread, upd, Pc.holdsGate]
      · have h1 := h.gate u
        rw [hg] at h1
        have h2 : ¬ t = u := fun e => hu e.symm
        simpa [State.setThread, upd, hu, h2] using h1
    · intro u k
      by_cases hu : u = t
      · subst hu
        have := h.key u k
        rw [ht] at this
        simpa [State.setThread, upd, Pc.holdsKey] using this
      · simpa [State.setThread, upd, hu] using h.key u k
    · intro u
      by_cases hu : u = t
      · subst hu
        have := h.order u
        rw [ht] at this
        simpa [State.setThread, upd, Pc.pending] using this
      · simpa [State.setThread, upd, hu] using h.order u
    · intro k u hku
      change s.locks k = some (some u) at hku
      show s.value k = Pc.expect (upd s.thread t ⟨rest, .keyed o⟩ u).pc (c k)
      have h1 := hheld k u hku
      by_cases hut : u = t
      · subst hut
        rw [upd_same]
        rw [ht] at h1
        exact h1
      · rw [upd_ne _ _ hut]
        exact h1
    · intro u k huk
      change Pc.holdsKey (upd s.thread t ⟨rest, .keyed o⟩ u).pc = some k at huk
      show Pc.knows (upd s.thread t ⟨rest, .keyed o⟩ u).pc (s.value k)
      by_cases hu : u = t
      · subst hu; rw [upd_same]; trivial
      · rw [upd_ne _ _ hu] at huk ⊢
        exact h.knows u k huk
  | ensure o rest ht =>
    refine inv_local (pc' := .ensured o) h ht rfl rfl rfl rfl _ ?_ ?_ trivial
    · intro k hk
      cases s.value o.key with
      | none => exact upd_ne _ _ hk
      | some v => rfl
    · intro c' he
      simp only [Pc.expect] at he ⊢
      cases hv : s.value o.key with
      | none =>
        rw [hv] at he
        subst he
        simp [upd_same]
      | some v =>
        rw [hv] at he
        subst he
        simp [hv]
  | read o v rest ht hv =>
    exact inv_local (pc' := .hasRead o v) h ht rfl rfl rfl rfl s.value (fun _ _ => rfl)
      (fun _ he => he) hv
  | compute o v v' rest ht hf =>
    have hkn := h.knows t o.key (by rw [ht]; rfl)
    rw [ht] at hkn
    exact inv_local (pc' := .computed o v') h ht rfl rfl rfl rfl s.value (fun _ _ => rfl)
      (fun _ he => he) ⟨v, hkn, hf⟩
  | raise o v rest ht hf =>
    have hkn := h.knows t o.key (by rw [ht]; rfl)
    rw [ht] at hkn
    exact inv_local (pc' := .failed o) h ht rfl rfl rfl rfl s.value (fun _ _ => rfl)
      (fun _ he => he) ⟨v, hkn, hf⟩
  | write o v' rest ht =>
    have hkn := h.knows t o.key (by rw [ht]; rfl)
    rw [ht] at hkn
    obtain ⟨v, hv, hf⟩ := hkn
    have hl : s.locks o.key = some (some t) := (h.key t o.key).1 (by rw [ht]; rfl)
    have hce := hheld o.key t hl
    rw [ht] at hce
    simp only [Pc.expect] at hce
    have hcv : (c o.key).getD o.init = v := by
      rw [hv] at hce
      simpa using hce.symm
    have hseq : seqOp o c = some (fun k => if k = o.key then some v' else c k) := by
      simp [seqOp, hcv, hf]
    refine ⟨?_, ?_, ?_, ⟨fun k => if k = o.key then some v' else c k, ?_, ?_, ?_⟩, ?_⟩
    · intro u
      by_cases hu : u = t
      · subst hu
        have := h.gate u
        rw [ht] at this
        simpa [State.setThread, upd, Pc.holdsGate] using this
      · simpa [State.setThread, upd, hu] using h.gate u
    · intro u k
      by_cases hu : u = t
      · subst hu
        have := h.key u k
        rw [ht] at this
        simpa [State.setThread, upd, Pc.holdsKey] using this
      · simpa [State.setThread, upd, hu] using h.key u k
    · intro u
      by_cases hu : u = t
      · subst hu
        have := h.order u
        rw [ht] at this
        simpa [State.setThread, upd, Pc.pending, mine_append_self] using this
      · simpa [State.setThread, upd, hu, mine_append_ne hu] using h.order u
    · simp only [List.map_append, List.map_cons, List.map_nil]
      exact runSeq_append _ _ _ _ _ hc hseq
    · intro k hk
      have hne : k ≠ o.key := by
        intro e; subst e; exact hk t hl
      show upd s.value o.key (some v') k = _
      simp only [upd_ne _ _ hne, hne, if_false]
      exact hfree k hk
    · intro k u hku
      change s.locks k = some (some u) at hku
      show upd s.value o.key (some v') k =
        Pc.expect (upd s.thread t ⟨rest, .written o⟩ u).pc (if k = o.key then some v' else c k)
      by_cases hk : k = o.key
      · subst hk
        rw [hl] at hku
        have hut : u = t := by simpa using hku.symm
        subst hut
        simp [upd_same, Pc.expect]
      · have hut : u ≠ t := by
          intro e; subst e
          have := (h.key u k).2 hku
          rw [ht] at this
          simp only [Pc.holdsKey, Option.some.injEq] at this
          exact hk this.symm
        rw [upd_ne _ _ hut, upd_ne _ _ hk]
        simp only [hk, if_false]
        exact hheld k u hku
    · intro u k huk
      change Pc.holdsKey (upd s.thread t ⟨rest, .written o⟩ u).pc = some k at huk
      show Pc.knows (upd s.thread t ⟨rest, .written o⟩ u).pc (upd s.value o.key (some v') k)
      by_cases hu : u = t
      · subst hu; rw [upd_same]; trivial
      · rw [upd_ne _ _ hu] at huk ⊢
        have hne : k ≠ o.key := by
          intro e; subst e
          have := (h.key u o.key).1 huk
          rw [hl] at this
          exact hu (by simpa using this.symm)
        rw [upd_ne _ _ hne]
        exact h.knows u k huk
  | release o rest ht =>
    have hl : s.locks o.key = some (some t) := (h.key t o.key).1 (by rw [ht]; rfl)
    refine ⟨?_, ?_, ?_, ⟨c, hc, ?_, ?_⟩, ?_⟩
    · intro u
      by_cases hu : u = t
      · subst hu
        have := h.gate u
        rw [ht] at this
        simpa [State.setThread, upd, Pc.holdsGate] using this
      · simpa [State.setThread, upd, hu] using h.gate u
    · intro u k
      show Pc.holdsKey (upd s.thread t ⟨rest, .idle⟩ u).pc = some k ↔
        upd s.locks o.key (some none) k = some (some u)
      have h1 := h.key u k
      by_cases hu : u = t
      · subst hu
        rw [upd_same]
        rw [ht] at h1
        by_cases hk : k = o.key
        · subst hk; simp [Pc.holdsKey, upd_same]
        · rw [upd_ne _ _ hk, ← h1]
          have hk' : ¬ o.key = k := fun e => hk e.symm
          simp [Pc.holdsKey, hk']
      · rw [upd_ne _ _ hu, h1]
        by_cases hk : k = o.key
        · subst hk
          rw [upd_same, hl]
          have hu' : ¬ t = u := fun e => hu e.symm
          simp [hu']
        · rw [upd_ne _ _ hk]
    · intro u
      by_cases hu : u = t
      · subst hu
        have := h.order u
        rw [ht] at this
        simpa [State.setThread, upd, Pc.pending] using this
      · simpa [State.setThread, upd, hu] using h.order u
    · intro k hk
      by_cases hko : k = o.key
      · subst hko
        have h1 := hheld o.key t hl
        rw [ht] at h1
        exact h1
      · apply hfree k
        intro u hu
        exact hk u (by show upd _ _ _ _ = _; rw [upd_ne _ _ hko]; exact hu)
    · intro k u hku
      change upd s.locks o.key (some none) k = some (some u) at hku
      show s.value k = Pc.expect (upd s.thread t ⟨rest, .idle⟩ u).pc (c k)
      have hko : k ≠ o.key := by
        intro e; subst e; rw [upd_same] at hku; simp at hku
      rw [upd_ne _ _ hko] at hku
      have hut : u ≠ t := by
        intro e; subst e
        have := (h.key u k).2 hku
        rw [ht] at this
        simp only [Pc.holdsKey, Option.some.injEq] at this
        exact hko this.symm
      rw [upd_ne _ _ hut]
      exact hheld k u hku
    · intro u k huk
      change Pc.holdsKey (upd s.thread t ⟨rest, .idle⟩ u).pc = some k at huk
      show Pc.knows (upd s.thread t ⟨rest, .idle⟩ u).pc (s.value k)
      by_cases hu : u = t
      · subst hu; rw [upd_same]; trivial
      · rw [upd_ne _ _ hu] at huk ⊢
        exact h.knows u k huk

theorem inv_reach {v0 : K → Option V} {progs : Nat → List (Op K V)} {s : State K V}
    (h : Reach (start v0 progs) s) : Inv v0 progs s := by
  induction h with
  | refl => exact inv_start v0 progs
  | tail _ hs ih => obtain ⟨t, hs⟩ := hs; exact inv_step ih hs

/-! ## C18 -/

/-- C18 for pools: under every schedule there is one order of the updates written so far, each
thread's updates being in its program order with none missing and none twice, such that the pool
agrees with the sequential execution at every key that nobody is updating; once all threads are
done, every thread's updates are all in it and the whole pool agrees. -/
theorem pool_updates_atomic {v0 : K → Option V} {progs : Nat → List (Op K V)} {s : State K V}
    (h : Reach (start v0 progs) s) :
    ∃ (order : List (Nat × Op K V)) (m : K → Option V),
      runSeq (order.map Prod.snd) v0 = some m ∧
      (∀ t, (order.filter fun x => x.1 == t).map Prod.snd <+: progs t) ∧
      (∀ t, (s.thread t).Done → (order.filter fun x => x.1 == t).map Prod.snd = progs t) ∧
      ((∀ t, (s.thread t).Done) → s.value = m) := by
  have hi := inv_reach h
  obtain ⟨c, hc, hfree, -⟩ := hi.seq
  refine ⟨s.log, c, hc, fun t => ?_, fun t ht => ?_, fun hall => ?_⟩
  · exact ⟨_, by rw [hi.order t, List.append_assoc]; rfl⟩
  · have := hi.order t
    rw [ht] at this
    simpa [Pc.pending, mine] using this.symm
  · funext k
    apply hfree k
    intro t ht
    have := (hi.key t k).2 ht
    rw [hall t] at this
    simp [Pc.holdsKey] at this

/-- If no update raises, no schedule gets stuck. -/
theorem pool_no_deadlock {v0 : K → Option V} {progs : Nat → List (Op K V)} {s : State K V}
    (h : Reach (start v0 progs) s) (hok : ∀ t, ∀ o ∈ progs t, ∀ v, (o.f v).isSome)
    {t : Nat} (ht : ¬ (s.thread t).Done) : ∃ u s', Step u s s' := by
  have hi := inv_reach h
  -- a thread holding a key lock but not the gate can always go on
  have keyed : ∀ u k, (s.thread u).pc.holdsKey = some k → ∃ u s', Step u s s' := by
    intro u k hk
    obtain ⟨c, -, -, hheld⟩ := hi.seq
    have hord := hi.order u
    have hkn := hi.knows u k hk
    have hex := hheld k u ((hi.key u k).1 hk)
    cases hth : s.thread u with
    | mk todo pc =>
      rw [hth] at hk hord hkn hex
      cases pc with
      | idle => simp [Pc.holdsKey] at hk
      | gate o => simp [Pc.holdsKey] at hk
      | both o => exact ⟨u, _, .leave s o todo hth⟩
      | keyed o => exact ⟨u, _, .ensure s o todo hth⟩
      | ensured o =>
        have hk' : o.key = k := by simpa [Pc.holdsKey] using hk
        subst hk'
        exact ⟨u, _, .read s o _ todo hth hex⟩
      | hasRead o v =>
        obtain ⟨v', hv'⟩ := Option.isSome_iff_exists.1
          (hok u o (by rw [hord]; simp [Pc.pending]) v)
        exact ⟨u, _, .compute s o v v' todo hth hv'⟩
      | computed o v' => exact ⟨u, _, .write s o v' todo hth⟩
      | written o => exact ⟨u, _, .release s o todo hth⟩
      | failed o =>
        obtain ⟨v, -, hf⟩ := hkn
        have := hok u o (by rw [hord]; simp [Pc.pending]) v
        rw [hf] at this; simp at this
  -- the thread at the gate waits for a key holder at worst
  have gated : ∀ u, (s.thread u).pc.holdsGate = true → ∃ u s', Step u s s' := by
    intro u hg
    cases hth : s.thread u with
    | mk todo pc =>
      rw [hth] at hg
      cases pc with
      | gate o =>
        cases hl : s.locks o.key with
        | none => exact ⟨u, _, .create s o todo hth hl⟩
        | some w =>
          cases w with
          | none => exact ⟨u, _, .acquire s o todo hth hl⟩
          | some w => exact keyed w o.key ((hi.key w o.key).2 hl)
      | both o => exact ⟨u, _, .leave s o todo hth⟩
      | _ => simp [Pc.holdsGate] at hg
  cases hk : (s.thread t).pc.holdsKey with
  | some k => exact keyed t k hk
  | none =>
    cases hl : s.locklock with
    | some u => exact gated u ((hi.gate u).2 hl)
    | none =>
      cases hth : s.thread t with
      | mk todo pc =>
        rw [hth] at hk ht
        cases pc with
        | idle =>
          cases todo with
          | nil => exact absurd rfl ht
          | cons o rest => exact ⟨t, _, .enter s o rest hth hl⟩
        | gate o => exact gated t (by rw [hth]; rfl)
        | _ => simp [Pc.holdsKey] at hk

/-! ## C19 -/

/-- The invariant that keeps a key blocked: a failed thread stays failed and keeps the lock. -/
theorem failed_step {s s' : State K V} {t u : Nat} {o : Op K V} {rest : List (Op K V)}
    (hf : s.thread t = ⟨rest, .failed o⟩) (hs : Step u s s') : s'.thread t = ⟨rest, .failed o⟩ := by
  by_cases hu : u = t
  · subst hu
    cases hs <;> simp_all
  · have hu' : ¬ t = u := fun e => hu e.symm
    cases hs <;> simp [State.setThread, upd, hu', hf]

theorem failed_reach {s s' : State K V} {t : Nat} {o : Op K V} {rest : List (Op K V)}
    (hf : s.thread t = ⟨rest, .failed o⟩) (h : Reach s s') : s'.thread t = ⟨rest, .failed o⟩ := by
  induction h with
  | refl => exact hf
  | tail _ hs ih => obtain ⟨u, hs⟩ := hs; exact failed_step ih hs

/-- C19 fails for pools: after an update of key `k` raised, no other thread ever completes an update
of that key: whatever follows, its lock stays with the failed thread. -/
theorem pool_failed_update_blocks_key {v0 : K → Option V} {progs : Nat → List (Op K V)}
    {s s' : State K V} (h : Reach (start v0 progs) s) {t : Nat} {o : Op K V}
    {rest : List (Op K V)} (ht : s.thread t = ⟨rest, .failed o⟩) (h' : Reach s s') :
    s'.locks o.key = some (some t) ∧
    ∀ u, u ≠ t → (s'.thread u).pc.holdsKey ≠ some o.key := by
  have hi := inv_reach (h.trans h')
  have hk := (hi.key t o.key).1 (by rw [failed_reach ht h']; rfl)
  refine ⟨hk, fun u hu hku => ?_⟩
  have := (hi.key u o.key).1 hku
  rw [hk] at this
  exact hu (by simpa using this.symm)

/-- Worse, a thread that waits for the blocked key holds `locklock`, so no thread ever starts an
update of any key of the pool again. -/
theorem pool_waiter_blocks_pool {v0 : K → Option V} {progs : Nat → List (Op K V)}
    {s s' : State K V} (h : Reach (start v0 progs) s) {t u : Nat} {o p : Op K V}
    {rest rest' : List (Op K V)} (ht : s.thread t = ⟨rest, .failed o⟩)
    (hu : s.thread u = ⟨rest', .gate p⟩) (hp : p.key = o.key) (h' : Reach s s')
    {w : Nat} {q : Op K V} {qs : List (Op K V)} (hw : s.thread w = ⟨q :: qs, .idle⟩) :
    s'.thread w = ⟨q :: qs, .idle⟩ := by
  -- `u` stays at the gate and `w` stays idle
  have key : s'.thread u = ⟨rest', .gate p⟩ ∧ s'.thread w = ⟨q :: qs, .idle⟩ := by
    induction h' with
    | refl => exact ⟨hu, hw⟩
    | @tail x y hx hs ih =>
      obtain ⟨ihu, ihw⟩ := ih
      obtain ⟨z, hs⟩ := hs
      have hi := inv_reach (h.trans hx)
      have hgate : x.locklock = some u := (hi.gate u).1 (by rw [ihu]; rfl)
      have hlock : x.locks p.key = some (some t) := by
        rw [hp]
        exact (hi.key t o.key).1 (by rw [failed_reach ht hx]; rfl)
      have hzu : z ≠ u := by
        intro e; subst e
        cases hs with
        | acquire o' r hh hl =>
          rw [ihu] at hh
          obtain ⟨-, rfl⟩ : rest' = r ∧ p = o' := by simpa using hh
          rw [hlock] at hl; simp at hl
        | create o' r hh hl =>
          rw [ihu] at hh
          obtain ⟨-, rfl⟩ : rest' = r ∧ p = o' := by simpa using hh
          rw [hlock] at hl; simp at hl
        | enter o' r hh _ => rw [ihu] at hh; simp at hh
        | leave o' r hh => rw [ihu] at hh; simp at hh
        | ensure o' r hh => rw [ihu] at hh; simp at hh
        | read o' v r hh _ => rw [ihu] at hh; simp at hh
        | compute o' v v' r hh _ => rw [ihu] at hh; simp at hh
        | raise o' v r hh _ => rw [ihu] at hh; simp at hh
        | write o' v' r hh => rw [ihu] at hh; simp at hh
        | release o' r hh => rw [ihu] at hh; simp at hh
      have hzw : z ≠ w := by
        intro e; subst e
        cases hs with
        | enter o' r hh hl => rw [hgate] at hl; simp at hl
        | acquire o' r hh hl => rw [ihw] at hh; simp at hh
        | create o' r hh hl => rw [ihw] at hh; simp at hh
        | leave o' r hh => rw [ihw] at hh; simp at hh
        | ensure o' r hh => rw [ihw] at hh; simp at hh
        | read o' v r hh _ => rw [ihw] at hh; simp at hh
        | compute o' v v' r hh _ => rw [ihw] at hh; simp at hh
        | raise o' v r hh _ => rw [ihw] at hh; simp at hh
        | write o' v' r hh => rw [ihw] at hh; simp at hh
        | release o' r hh => rw [ihw] at hh; simp at hh
      have h1 : ¬ u = z := fun e => hzu e.symm
      have h2 : ¬ w = z := fun e => hzw e.symm
      cases hs <;> simp [State.setThread, upd, h1, h2, ihu, ihw]
  exact key.2

/-- C19 violated for pools, concretely: thread 0 fails on key 0, thread 1 then waits for key 0, and
thread 2, which wants to update key 5, can never start. -/
theorem pool_lock_not_released_violation :
    ∃ (v0 : Nat → Option Nat) (progs : Nat → List (Op Nat Nat)) (s : State Nat Nat),
      Reach (start v0 progs) s ∧ (s.thread 2).todo ≠ [] ∧
      (∀ o ∈ progs 2, o.key ≠ 0) ∧
      ∀ s', Reach s s' → (s'.thread 2).todo = progs 2 := by
  let bad : Op Nat Nat := ⟨0, 0, fun _ => none⟩
  let good : Op Nat Nat := ⟨0, 0, fun v => some (v + 1)⟩
  let other : Op Nat Nat := ⟨5, 0, fun v => some (v + 1)⟩
  let progs : Nat → List (Op Nat Nat) := fun t =>
    if t = 0 then [bad] else if t = 1 then [good] else if t = 2 then [other] else []
  let s0 := start (fun _ => none) progs
  let s1 : State Nat Nat := { s0.setThread 0 ⟨[], .gate bad⟩ with locklock := some 0 }
  let s2 : State Nat Nat := { s1.setThread 0 ⟨[], .both bad⟩ with
    locks := upd s1.locks bad.key (some (some 0)) }
  let s3 : State Nat Nat := { s2.setThread 0 ⟨[], .keyed bad⟩ with locklock := none }
  let s4 : State Nat Nat := { s3.setThread 0 ⟨[], .ensured bad⟩ with
    value := upd s3.value bad.key (some bad.init) }
  let s5 : State Nat Nat := s4.setThread 0 ⟨[], .hasRead bad 0⟩
  let s6 : State Nat Nat := s5.setThread 0 ⟨[], .failed bad⟩
  let s7 : State Nat Nat := { s6.setThread 1 ⟨[], .gate good⟩ with locklock := some 1 }
  have hr : Reach s0 s7 :=
    ((((((Relation.ReflTransGen.refl.tail
      ⟨0, (.enter s0 bad [] rfl rfl : Step 0 s0 s1)⟩).tail
      ⟨0, (.create s1 bad [] rfl rfl : Step 0 s1 s2)⟩).tail
      ⟨0, (.leave s2 bad [] rfl : Step 0 s2 s3)⟩).tail
      ⟨0, (.ensure s3 bad [] rfl : Step 0 s3 s4)⟩).tail
      ⟨0, (.read s4 bad 0 [] rfl rfl : Step 0 s4 s5)⟩).tail
      ⟨0, (.raise s5 bad 0 [] rfl rfl : Step 0 s5 s6)⟩).tail
      ⟨1, (.enter s6 good [] rfl rfl : Step 1 s6 s7)⟩
  refine ⟨fun _ => none, progs, s7, hr, ?_, ?_, ?_⟩
  · show [other] ≠ []
    simp
  · intro o ho
    have : o = other := by simpa [progs] using ho
    subst this; simp [other]
  · intro s' hs'
    have := pool_waiter_blocks_pool hr (t := 0) (u := 1) (w := 2) (o := bad) (p := good)
      (q := other) (qs := []) (rest := []) (rest' := []) rfl rfl rfl hs' rfl
    rw [this]; rfl

/-- A pool update that raises leaves the inserted `init` behind in a shared pool: the item is
visible to readers though no update of that key ever succeeded. -/
theorem pool_failed_update_inserts_init {v0 : K → Option V} {progs : Nat → List (Op K V)}
    {s : State K V} (h : Reach (start v0 progs) s) {t : Nat} {o : Op K V}
    {rest : List (Op K V)} (ht : s.thread t = ⟨rest, .failed o⟩) :
    ∃ c, runSeq (s.log.map Prod.snd) v0 = some c ∧ s.value o.key = some ((c o.key).getD o.init) := by
  have hi := inv_reach h
  obtain ⟨c, hc, -, hheld⟩ := hi.seq
  refine ⟨c, hc, ?_⟩
  have := hheld o.key t ((hi.key t o.key).1 (by rw [ht]; rfl))
  rw [ht] at this
  exact this

/-- The hypotheses of `pool_updates_atomic` are met by a finished execution: two threads update the
missing key 4, whose `init` is 10; while thread 0 is inside the update thread 1 reaches the gate. -/
example : ∃ s : State Nat Nat, Reach (start (fun _ => none) fun t =>
    if t = 0 then [⟨4, 10, fun v => some (v + 1)⟩]
    else if t = 1 then [⟨4, 10, fun v => some (v * 2)⟩] else []) s ∧
    s.value 4 = some 22 ∧ (∀ t, (s.thread t).Done) := by
  let p0 : Op Nat Nat := ⟨4, 10, fun v => some (v + 1)⟩
  let p1 : Op Nat Nat := ⟨4, 10, fun v => some (v * 2)⟩
  let progs : Nat → List (Op Nat Nat) := fun t => if t = 0 then [p0] else if t = 1 then [p1] else []
  let s0 := start (fun _ => none) progs
  let s1 : State Nat Nat := { s0.setThread 0 ⟨[], .gate p0⟩ with locklock := some 0 }
  let s2 : State Nat Nat := { s1.setThread 0 ⟨[], .both p0⟩ with
    locks := upd s1.locks p0.key (some (some 0)) }
  let s3 : State Nat Nat := { s2.setThread 0 ⟨[], .keyed p0⟩ with locklock := none }
  let s4 : State Nat Nat := { s3.setThread 1 ⟨[], .gate p1⟩ with locklock := some 1 }
  let s5 : State Nat Nat := { s4.setThread 0 ⟨[], .ensured p0⟩ with
    value := upd s4.value p0.key (some p0.init) }
  let s6 : State Nat Nat := s5.setThread 0 ⟨[], .hasRead p0 10⟩
  let s7 : State Nat Nat := s6.setThread 0 ⟨[], .computed p0 11⟩
  let s8 : State Nat Nat := { s7.setThread 0 ⟨[], .written p0⟩ with
    value := upd s7.value p0.key (some 11), log := [(0, p0)] }
  let s9 : State Nat Nat := { s8.setThread 0 ⟨[], .idle⟩ with
    locks := upd s8.locks p0.key (some none) }
  let s10 : State Nat Nat := { s9.setThread 1 ⟨[], .both p1⟩ with
    locks := upd s9.locks p1.key (some (some 1)) }
  let s11 : State Nat Nat := { s10.setThread 1 ⟨[], .keyed p1⟩ with locklock := none }
  let s12 : State Nat Nat := { s11.setThread 1 ⟨[], .ensured p1⟩ with value := s11.value }
  let s13 : State Nat Nat := s12.setThread 1 ⟨[], .hasRead p1 11⟩
  let s14 : State Nat Nat := s13.setThread 1 ⟨[], .computed p1 22⟩
  let s15 : State Nat Nat := { s14.setThread 1 ⟨[], .written p1⟩ with
    value := upd s14.value p1.key (some 22), log := [(0, p0), (1, p1)] }
  let s16 : State Nat Nat := { s15.setThread 1 ⟨[], .idle⟩ with
    locks := upd s15.locks p1.key (some none) }
  have r : Reach s0 s16 :=
    (((((((((((((((Relation.ReflTransGen.refl.tail
      ⟨0, (.enter s0 p0 [] rfl rfl : Step 0 s0 s1)⟩).tail
      ⟨0, (.create s1 p0 [] rfl rfl : Step 0 s1 s2)⟩).tail
      ⟨0, (.leave s2 p0 [] rfl : Step 0 s2 s3)⟩).tail
      ⟨1, (.enter s3 p1 [] rfl rfl : Step 1 s3 s4)⟩).tail
      ⟨0, (.ensure s4 p0 [] rfl : Step 0 s4 s5)⟩).tail
      ⟨0, (.read s5 p0 10 [] rfl rfl : Step 0 s5 s6)⟩).tail
      ⟨0, (.compute s6 p0 10 11 [] rfl rfl : Step 0 s6 s7)⟩).tail
      ⟨0, (.write s7 p0 11 [] rfl : Step 0 s7 s8)⟩).tail
      ⟨0, (.release s8 p0 [] rfl : Step 0 s8 s9)⟩).tail
      ⟨1, (.acquire s9 p1 [] rfl rfl : Step 1 s9 s10)⟩).tail
      ⟨1, (.leave s10 p1 [] rfl : Step 1 s10 s11)⟩).tail
      ⟨1, (.ensure s11 p1 [] rfl : Step 1 s11 s12)⟩).tail
      ⟨1, (.read s12 p1 11 [] rfl rfl : Step 1 s12 s13)⟩).tail
      ⟨1, (.compute s13 p1 11 22 [] rfl rfl : Step 1 s13 s14)⟩).tail
      ⟨1, (.write s14 p1 22 [] rfl : Step 1 s14 s15)⟩).tail
      ⟨1, (.release s15 p1 [] rfl : Step 1 s15 s16)⟩
  refine ⟨s16, r, rfl, fun t => ?_⟩
  by_cases h0 : t = 0
  · subst h0; rfl
  · by_cases h1 : t = 1
    · subst h1; rfl
    · simp [s16, s15, s14, s13, s12, s11, s10, s9, s8, s7, s6, s5, s4, s3, s2, s1, s0, start, progs,
        State.setThread, upd, h0, h1, Thread.Done]

end Verif.Lock.P
