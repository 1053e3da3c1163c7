import Verif.Lang.Run
/-!
# Branches, loops and try (C53, C56)

The specifications below speak about running the parts of a construct one after the other.  `Run m s r s'`
says that the part `m`, started in state `s`, ends with `r` (a value or an error) in state `s'`.
-/

namespace Verif.Lang
open Avro Scope Path

/-- `m` started in `s` ends with `r` in `s'`. -/
def Run {α : Type} (m : M α) (s : St) (r : Res α) (s' : St) : Prop := m s = (r, s')

/-! ## Reading sequences -/

theorem run_pure {α : Type} (a : α) (s : St) : (pure a : M α) s = (.ok a, s) := rfl

theorem run_bind {α β : Type} (m : M α) (f : α → M β) (s : St) :
    (m >>= f) s = match m s with | (.ok a, s') => f a s' | (.error e, s') => (.error e, s') := rfl

theorem run_bind_ok {α β : Type} {m : M α} {s s' : St} {a : α} (h : m s = (.ok a, s')) (f : α → M β) :
    (m >>= f) s = f a s' := by rw [run_bind, h]

theorem run_bind_err {α β : Type} {m : M α} {s s' : St} {e : Err} (h : m s = (.error e, s')) (f : α → M β) :
    (m >>= f) s = (.error e, s') := by rw [run_bind, h]

theorem test_ok {p : M Val} {s s' : St} {v : Val} (h : Run (inFrame [] p) s (.ok v) s') :
    test p s = (.ok (Pack.truthy v), s') := run_bind_ok h _

theorem test_err {p : M Val} {s s' : St} {e : Err} (h : Run (inFrame [] p) s (.error e) s') :
    test p s = (.error e, s') := run_bind_err h _

/-! ## if -/

/-- **C56, if.**  When the condition is true the value is that of the then clause, run right after the
condition in a scope of its own; the else clause does not run. -/
theorem ifelse_true {p c d : M Val} {s s1 s2 : St} {r : Res Val}
    (hp : Run (inFrame [] p) s (.ok (.bool true)) s1) (hc : Run (inFrame [] c) s1 r s2) :
    Run (ifThenElse p c d) s r s2 := by
  unfold Run ifThenElse
  rw [run_bind_ok (test_ok hp)]
  exact hc

/-- **C56, if.**  When the condition is false the else clause gives the value. -/
theorem ifelse_false {p c d : M Val} {s s1 s2 : St} {r : Res Val}
    (hp : Run (inFrame [] p) s (.ok (.bool false)) s1) (hd : Run (inFrame [] d) s1 r s2) :
    Run (ifThenElse p c d) s r s2 := by
  unfold Run ifThenElse
  rw [run_bind_ok (test_ok hp)]
  exact hd

/-- **C56, if.**  When the condition raises, neither clause runs. -/
theorem ifelse_raises {p c d : M Val} {s s1 : St} {e : Err} (hp : Run (inFrame [] p) s (.error e) s1) :
    Run (ifThenElse p c d) s (.error e) s1 := by
  unfold Run ifThenElse
  rw [run_bind_err (test_err hp)]

/-- **C56, if without else.** -/
theorem if_only_true {p c : M Val} {s s1 s2 : St} {v : Val}
    (hp : Run (inFrame [] p) s (.ok (.bool true)) s1) (hc : Run (inFrame [] c) s1 (.ok v) s2) :
    Run (ifThen p c) s (.ok .null) s2 := by
  unfold Run ifThen
  rw [run_bind_ok (test_ok hp)]
  rw [if_pos (show Pack.truthy (.bool true) = true from rfl)]
  rw [run_bind_ok hc]
  rfl

theorem if_only_raises {p c : M Val} {s s1 s2 : St} {e : Err}
    (hp : Run (inFrame [] p) s (.ok (.bool true)) s1) (hc : Run (inFrame [] c) s1 (.error e) s2) :
    Run (ifThen p c) s (.error e) s2 := by
  unfold Run ifThen
  rw [run_bind_ok (test_ok hp)]
  rw [if_pos (show Pack.truthy (.bool true) = true from rfl)]
  rw [run_bind_err hc]

theorem if_only_false {p c : M Val} {s s1 : St} (hp : Run (inFrame [] p) s (.ok (.bool false)) s1) :
    Run (ifThen p c) s (.ok .null) s1 := by
  unfold Run ifThen
  rw [run_bind_ok (test_ok hp)]
  rfl

/-! ## cond -/

/-- All conditions of the clauses are evaluated in order, from `s` to `s'`, and all are false. -/
inductive AllFalse : List (M Val × M Val) → St → St → Prop
  | nil (s : St) : AllFalse [] s s
  | cons {p c : M Val} {rest : List (M Val × M Val)} {s s1 s2 : St}
      (hp : Run (inFrame [] p) s (.ok (.bool false)) s1) (h : AllFalse rest s1 s2) : AllFalse ((p, c) :: rest) s s2

theorem condElse_skip {pre : List (M Val × M Val)} {s s' : St} (h : AllFalse pre s s')
    (rest : List (M Val × M Val)) (d : M Val) : condElse (pre ++ rest) d s = condElse rest d s' := by
  induction h with
  | nil s => rfl
  | cons hp _ ih =>
    rw [List.cons_append, condElse, run_bind_ok (test_ok hp)]
    exact ih

/-- **C56, cond.**  The clause of the first true condition gives the value; conditions after it and the
other clauses do not run. -/
theorem cond_first {pre post : List (M Val × M Val)} {p c d : M Val} {s s1 s2 s3 : St} {r : Res Val}
    (hpre : AllFalse pre s s1) (hp : Run (inFrame [] p) s1 (.ok (.bool true)) s2)
    (hc : Run (inFrame [] c) s2 r s3) : Run (condElse (pre ++ (p, c) :: post) d) s r s3 := by
  unfold Run
  rw [condElse_skip hpre, condElse, run_bind_ok (test_ok hp)]
  exact hc

/-- **C56, cond.**  If no condition is true the else clause gives the value. -/
theorem cond_else {cs : List (M Val × M Val)} {d : M Val} {s s1 s2 : St} {r : Res Val}
    (h : AllFalse cs s s1) (hd : Run (inFrame [] d) s1 r s2) : Run (condElse cs d) s r s2 := by
  have h1 := condElse_skip h [] d
  rw [List.append_nil] at h1
  unfold Run
  rw [h1, condElse]
  exact hd

/-- **C56, cond.**  A condition that raises ends the whole. -/
theorem cond_raises {pre post : List (M Val × M Val)} {p c d : M Val} {s s1 s2 : St} {e : Err}
    (hpre : AllFalse pre s s1) (hp : Run (inFrame [] p) s1 (.error e) s2) :
    Run (condElse (pre ++ (p, c) :: post) d) s (.error e) s2 := by
  unfold Run
  rw [condElse_skip hpre, condElse, run_bind_err (test_err hp)]

theorem condM_skip {pre : List (M Val × M Val)} {s s' : St} (h : AllFalse pre s s')
    (rest : List (M Val × M Val)) : condM (pre ++ rest) s = condM rest s' := by
  induction h with
  | nil s => rfl
  | cons hp _ ih =>
    rw [List.cons_append, condM, run_bind_ok (test_ok hp)]
    exact ih

/-- **C56, cond without else.** -/
theorem cond_only_first {pre post : List (M Val × M Val)} {p c : M Val} {s s1 s2 s3 : St} {v : Val}
    (hpre : AllFalse pre s s1) (hp : Run (inFrame [] p) s1 (.ok (.bool true)) s2)
    (hc : Run (inFrame [] c) s2 (.ok v) s3) : Run (condM (pre ++ (p, c) :: post)) s (.ok .null) s3 := by
  unfold Run
  rw [condM_skip hpre, condM, run_bind_ok (test_ok hp)]
  rw [if_pos (show Pack.truthy (.bool true) = true from rfl)]
  rw [run_bind_ok hc]
  rfl

theorem cond_only_none {cs : List (M Val × M Val)} {s s1 : St} (h : AllFalse cs s s1) :
    Run (condM cs) s (.ok .null) s1 := by
  have h1 := condM_skip h []
  rw [List.append_nil] at h1
  unfold Run
  rw [h1]
  rfl

/-! ## Loops -/

/-- A state in which the clock has been looked at once more. -/
def looked (s : St) : St := { s with world := { s.world with tick := s.world.tick + 1 } }

theorem checkTime_ok {expired : Nat → Bool} {s : St} (h : expired s.world.tick = false) :
    checkTime expired s = (.ok (), looked s) := by
  unfold checkTime looked
  simp [h]

theorem checkTime_err {expired : Nat → Bool} {s : St} (h : expired s.world.tick = true) :
    checkTime expired s = (.error .timeout, looked s) := by
  unfold checkTime looked
  simp [h]

/-- One full round of a while loop in its own scope: the condition holds, the clock is looked at and is in
time, the body runs. -/
inductive WhileRound (expired : Nat → Bool) (p b : M Val) : Frame Val → St → Frame Val → St → Prop
  | mk {pf pf' : Frame Val} {s s1 s2 : St} {v : Val}
      (hp : Run (inKept pf p) s (.ok (.bool true, pf')) s1) (ht : expired s1.world.tick = false)
      (hb : Run b (looked s1) (.ok v) s2) : WhileRound expired p b pf s pf' s2

/-- How a while loop ends. -/
inductive WhileEnd (expired : Nat → Bool) (p b : M Val) : Frame Val → St → Res Val → St → Prop
  | false {pf pf' : Frame Val} {s s1 : St} (hp : Run (inKept pf p) s (.ok (.bool false, pf')) s1) :
      WhileEnd expired p b pf s (.ok .null) s1
  | predRaises {pf : Frame Val} {s s1 : St} {e : Err} (hp : Run (inKept pf p) s (.error e) s1) :
      WhileEnd expired p b pf s (.error e) s1
  | timeout {pf pf' : Frame Val} {s s1 : St} (hp : Run (inKept pf p) s (.ok (.bool true, pf')) s1)
      (ht : expired s1.world.tick = true) : WhileEnd expired p b pf s (.error .timeout) (looked s1)
  | bodyRaises {pf pf' : Frame Val} {s s1 s2 : St} {e : Err} (hp : Run (inKept pf p) s (.ok (.bool true, pf')) s1)
      (ht : expired s1.world.tick = false) (hb : Run b (looked s1) (.error e) s2) :
      WhileEnd expired p b pf s (.error e) s2

/-- `k` full rounds. -/
inductive Rounds {φ : Type} (step : φ → St → φ → St → Prop) : Nat → φ → St → φ → St → Prop
  | zero (f : φ) (s : St) : Rounds step 0 f s f s
  | succ {k : Nat} {f f1 f2 : φ} {s s1 s2 : St} (h : step f s f1 s1) (hs : Rounds step k f1 s1 f2 s2) :
      Rounds step (k + 1) f s f2 s2

theorem whileLoop_round {expired : Nat → Bool} {p b : M Val} {pf pf' : Frame Val} {s s' : St}
    (h : WhileRound expired p b pf s pf' s') (n : Nat) :
    whileLoop expired p b (n + 1) pf s = whileLoop expired p b n pf' s' := by
  obtain ⟨hp, ht, hb⟩ := h
  rw [whileLoop, run_bind_ok hp]
  dsimp only
  rw [if_pos (show Pack.truthy (.bool true) = true from rfl)]
  rw [run_bind_ok (checkTime_ok ht), run_bind_ok hb]

theorem whileLoop_end {expired : Nat → Bool} {p b : M Val} {pf : Frame Val} {s s' : St} {r : Res Val}
    (h : WhileEnd expired p b pf s r s') (n : Nat) : whileLoop expired p b (n + 1) pf s = (r, s') := by
  rw [whileLoop]
  cases h with
  | false hp => rw [run_bind_ok hp]; rfl
  | predRaises hp => rw [run_bind_err hp]
  | timeout hp ht =>
    rw [run_bind_ok hp]
    dsimp only
    rw [if_pos (show Pack.truthy (.bool true) = true from rfl)]
    rw [run_bind_err (checkTime_err ht)]
  | bodyRaises hp ht hb =>
    rw [run_bind_ok hp]
    dsimp only
    rw [if_pos (show Pack.truthy (.bool true) = true from rfl)]
    rw [run_bind_ok (checkTime_ok ht), run_bind_err hb]

/-- **C56, while.**  If `k` rounds in which the condition holds are followed by an end, the loop (given
that many rounds of fuel and one more) does exactly these rounds and ends like that. -/
theorem while_runs {expired : Nat → Bool} {p b : M Val} {pf pf' : Frame Val} {s s1 s' : St} {r : Res Val}
    {k : Nat} (hk : Rounds (WhileRound expired p b) k pf s pf' s1) (he : WhileEnd expired p b pf' s1 r s') :
    ∀ n, k < n → Run (whileLoop expired p b n pf) s r s' := by
  induction hk with
  | zero => intro n hn; obtain ⟨n, rfl⟩ := Nat.exists_eq_succ_of_ne_zero (by omega : n ≠ 0); exact whileLoop_end he n
  | succ h _ ih =>
    intro n hn
    obtain ⟨n, rfl⟩ := Nat.exists_eq_succ_of_ne_zero (by omega : n ≠ 0)
    unfold Run
    rw [Nat.succ_eq_add_one, whileLoop_round h]
    exact ih he n (by omega)

/-- A part whose values are truth values (what the semantic check wants of conditions). -/
def GivesBool (p : M Val) : Prop := ∀ s v s', Run p s (.ok v) s' → ∃ t, v = .bool t

theorem inKept_bool {p : M Val} (h : GivesBool p) {pf pf' : Frame Val} {s s' : St} {v : Val}
    (hp : inKept pf p s = (.ok (v, pf'), s')) : ∃ t, v = .bool t := by
  unfold inKept at hp
  rcases hm : p { s with chain := pf :: s.chain } with ⟨r, s1⟩
  rw [hm] at hp
  cases r with
  | error e => simp at hp
  | ok a =>
    simp only [Prod.mk.injEq, Except.ok.injEq] at hp
    obtain ⟨⟨rfl, _⟩, _⟩ := hp
    exact h _ _ _ hm

/-- **C56, while, the other direction.**  However a loop behaves, it did some rounds in which the condition held
and then ended in one of the four ways, or its fuel is used up after rounds that all held. -/
theorem while_inv {expired : Nat → Bool} {p b : M Val} (hb : GivesBool p) : ∀ n pf s,
    (∃ k pf' s1 r s', k < n ∧ Rounds (WhileRound expired p b) k pf s pf' s1 ∧ WhileEnd expired p b pf' s1 r s' ∧
      Run (whileLoop expired p b n pf) s r s') ∨
    (∃ pf' s1, Rounds (WhileRound expired p b) n pf s pf' s1) := by
  intro n
  induction n with
  | zero => intro pf s; exact .inr ⟨pf, s, .zero pf s⟩
  | succ n ih =>
    intro pf s
    have here : ∀ {r s'}, WhileEnd expired p b pf s r s' → (∃ k pf' s1 r s', k < n + 1 ∧
        Rounds (WhileRound expired p b) k pf s pf' s1 ∧ WhileEnd expired p b pf' s1 r s' ∧
        Run (whileLoop expired p b (n + 1) pf) s r s') :=
      fun he => ⟨0, pf, s, _, _, by omega, .zero pf s, he, whileLoop_end he n⟩
    rcases hp : inKept pf p s with ⟨r, s1⟩
    cases r with
    | error e => exact .inl (here (.predRaises hp))
    | ok x =>
      obtain ⟨v, pf'⟩ := x
      obtain ⟨t, rfl⟩ := inKept_bool hb hp
      cases t with
      | false => exact .inl (here (.false hp))
      | true =>
        cases ht : expired s1.world.tick with
        | true => exact .inl (here (.timeout hp ht))
        | false =>
          rcases hb' : b (looked s1) with ⟨r, s2⟩
          cases r with
          | error e => exact .inl (here (.bodyRaises hp ht hb'))
          | ok u =>
            have hr : WhileRound expired p b pf s pf' s2 := .mk hp ht hb'
            rcases ih pf' s2 with ⟨k, pf2, s3, r, s', hk, hks, he, hrun⟩ | ⟨pf2, s3, hks⟩
            · refine .inl ⟨k + 1, pf2, s3, r, s', by omega, .succ hr hks, he, ?_⟩
              unfold Run
              rw [whileLoop_round hr]
              exact hrun
            · exact .inr ⟨pf2, s3, .succ hr hks⟩

/-- A part that never turns the clock back. -/
def ClockForward {α : Type} (m : M α) : Prop := ∀ s r s', Run m s r s' → s.world.tick ≤ s'.world.tick

theorem inKept_clock {p : M Val} (h : ClockForward p) (pf : Frame Val) : ClockForward (inKept pf p) := by
  intro s r s' hr
  unfold Run inKept at hr
  rcases hm : p { s with chain := pf :: s.chain } with ⟨r1, s1⟩
  have h1 := h _ _ _ hm
  rw [hm] at hr
  cases r1 <;> (simp only [Prod.mk.injEq] at hr; obtain ⟨_, rfl⟩ := hr; exact h1)

/-- Every round looks at the clock. -/
theorem while_rounds_clock {expired : Nat → Bool} {p b : M Val} (hp : ClockForward p) (hb : ClockForward b)
    {k : Nat} {pf pf' : Frame Val} {s s' : St} (h : Rounds (WhileRound expired p b) k pf s pf' s') :
    s.world.tick + k ≤ s'.world.tick ∧ ∀ i, i < k → ∃ t, s.world.tick + i ≤ t ∧ expired t = false := by
  induction h with
  | zero => exact ⟨by omega, fun i hi => absurd hi (by omega)⟩
  | succ h _ ih =>
    obtain ⟨hp', ht, hb'⟩ := h
    have h1 := inKept_clock hp _ _ _ _ hp'
    have h2 := hb _ _ _ hb'
    simp only [looked] at h2
    refine ⟨by omega, fun i hi => ?_⟩
    cases i with
    | zero => exact ⟨_, by omega, ht⟩
    | succ i =>
      obtain ⟨t, ht1, ht2⟩ := ih.2 i (by omega)
      exact ⟨t, by omega, ht2⟩

/-- **C56, timeout.**  If the timeout is exceeded from the `T`-th look at the clock on, a while loop whose
parts end by themselves ends after at most `T` more rounds: with that much fuel it is never cut off. -/
theorem while_stops {expired : Nat → Bool} {p b : M Val} (hg : GivesBool p) (hp : ClockForward p)
    (hb : ClockForward b) {T : Nat} (hT : ∀ t, T ≤ t → expired t = true) (pf : Frame Val) (s : St) (n : Nat)
    (hn : T + 1 ≤ s.world.tick + n) (h0 : 0 < n) :
    ∃ k pf' s1 r s', k < n ∧ Rounds (WhileRound expired p b) k pf s pf' s1 ∧ WhileEnd expired p b pf' s1 r s' ∧
      Run (whileLoop expired p b n pf) s r s' := by
  rcases while_inv hg n pf s with h | ⟨pf', s1, h⟩
  · exact h
  · exfalso
    obtain ⟨_, h2⟩ := while_rounds_clock hp hb h
    obtain ⟨t, h3, h4⟩ := h2 (n - 1) (by omega)
    rw [hT t (by omega)] at h4
    cases h4

/-! ### do-until -/

/-- A full round of do-until: the clock, the body, the condition is false. -/
inductive UntilRound (expired : Nat → Bool) (p b : M Val) : Frame Val → St → Frame Val → St → Prop
  | mk {pf pf' : Frame Val} {s s1 s2 : St} {v : Val} (ht : expired s.world.tick = false)
      (hb : Run b (looked s) (.ok v) s1) (hp : Run (inKept pf p) s1 (.ok (.bool false, pf')) s2) :
      UntilRound expired p b pf s pf' s2

/-- How do-until ends. -/
inductive UntilEnd (expired : Nat → Bool) (p b : M Val) : Frame Val → St → Res Val → St → Prop
  | timeout {pf : Frame Val} {s : St} (ht : expired s.world.tick = true) :
      UntilEnd expired p b pf s (.error .timeout) (looked s)
  | bodyRaises {pf : Frame Val} {s s1 : St} {e : Err} (ht : expired s.world.tick = false)
      (hb : Run b (looked s) (.error e) s1) : UntilEnd expired p b pf s (.error e) s1
  | predRaises {pf : Frame Val} {s s1 s2 : St} {v : Val} {e : Err} (ht : expired s.world.tick = false)
      (hb : Run b (looked s) (.ok v) s1) (hp : Run (inKept pf p) s1 (.error e) s2) :
      UntilEnd expired p b pf s (.error e) s2
  | true {pf pf' : Frame Val} {s s1 s2 : St} {v : Val} (ht : expired s.world.tick = false)
      (hb : Run b (looked s) (.ok v) s1) (hp : Run (inKept pf p) s1 (.ok (.bool true, pf')) s2) :
      UntilEnd expired p b pf s (.ok .null) s2

theorem untilLoop_round {expired : Nat → Bool} {p b : M Val} {pf pf' : Frame Val} {s s' : St}
    (h : UntilRound expired p b pf s pf' s') (n : Nat) :
    untilLoop expired p b (n + 1) pf s = untilLoop expired p b n pf' s' := by
  obtain ⟨ht, hb, hp⟩ := h
  rw [untilLoop, run_bind_ok (checkTime_ok ht), run_bind_ok hb, run_bind_ok hp]
  dsimp only
  rw [if_neg (by decide)]

theorem untilLoop_end {expired : Nat → Bool} {p b : M Val} {pf : Frame Val} {s s' : St} {r : Res Val}
    (h : UntilEnd expired p b pf s r s') (n : Nat) : untilLoop expired p b (n + 1) pf s = (r, s') := by
  rw [untilLoop]
  cases h with
  | timeout ht => rw [run_bind_err (checkTime_err ht)]
  | bodyRaises ht hb => rw [run_bind_ok (checkTime_ok ht), run_bind_err hb]
  | predRaises ht hb hp => rw [run_bind_ok (checkTime_ok ht), run_bind_ok hb, run_bind_err hp]
  | true ht hb hp =>
    rw [run_bind_ok (checkTime_ok ht), run_bind_ok hb, run_bind_ok hp]
    rfl

/-- **C56, do-until.**  The body runs, then the condition is asked; the loop ends as soon as it is true. -/
theorem until_runs {expired : Nat → Bool} {p b : M Val} {pf pf' : Frame Val} {s s1 s' : St} {r : Res Val}
    {k : Nat} (hk : Rounds (UntilRound expired p b) k pf s pf' s1) (he : UntilEnd expired p b pf' s1 r s') :
    ∀ n, k < n → Run (untilLoop expired p b n pf) s r s' := by
  induction hk with
  | zero => intro n hn; obtain ⟨n, rfl⟩ := Nat.exists_eq_succ_of_ne_zero (by omega : n ≠ 0); exact untilLoop_end he n
  | succ h _ ih =>
    intro n hn
    obtain ⟨n, rfl⟩ := Nat.exists_eq_succ_of_ne_zero (by omega : n ≠ 0)
    unfold Run
    rw [Nat.succ_eq_add_one, untilLoop_round h]
    exact ih he n (by omega)

/-- **C56, do-until, the other direction.** -/
theorem until_inv {expired : Nat → Bool} {p b : M Val} (hb : GivesBool p) : ∀ n pf s,
    (∃ k pf' s1 r s', k < n ∧ Rounds (UntilRound expired p b) k pf s pf' s1 ∧ UntilEnd expired p b pf' s1 r s' ∧
      Run (untilLoop expired p b n pf) s r s') ∨
    (∃ pf' s1, Rounds (UntilRound expired p b) n pf s pf' s1) := by
  intro n
  induction n with
  | zero => intro pf s; exact .inr ⟨pf, s, .zero pf s⟩
  | succ n ih =>
    intro pf s
    have here : ∀ {r s'}, UntilEnd expired p b pf s r s' → (∃ k pf' s1 r s', k < n + 1 ∧
        Rounds (UntilRound expired p b) k pf s pf' s1 ∧ UntilEnd expired p b pf' s1 r s' ∧
        Run (untilLoop expired p b (n + 1) pf) s r s') :=
      fun he => ⟨0, pf, s, _, _, by omega, .zero pf s, he, untilLoop_end he n⟩
    cases ht : expired s.world.tick with
    | true => exact .inl (here (.timeout ht))
    | false =>
      rcases hb' : b (looked s) with ⟨r, s1⟩
      cases r with
      | error e => exact .inl (here (.bodyRaises ht hb'))
      | ok u =>
        rcases hp : inKept pf p s1 with ⟨r, s2⟩
        cases r with
        | error e => exact .inl (here (.predRaises ht hb' hp))
        | ok x =>
          obtain ⟨v, pf'⟩ := x
          obtain ⟨t, rfl⟩ := inKept_bool hb hp
          cases t with
          | true => exact .inl (here (.true ht hb' hp))
          | false =>
            have hr : UntilRound expired p b pf s pf' s2 := .mk ht hb' hp
            rcases ih pf' s2 with ⟨k, pf2, s3, r, s', hk, hks, he, hrun⟩ | ⟨pf2, s3, hks⟩
            · refine .inl ⟨k + 1, pf2, s3, r, s', by omega, .succ hr hks, he, ?_⟩
              unfold Run
              rw [untilLoop_round hr]
              exact hrun
            · exact .inr ⟨pf2, s3, .succ hr hks⟩

/-- **C56, timeout of do-until.** -/
theorem until_stops {expired : Nat → Bool} {p b : M Val} (hg : GivesBool p) (hp : ClockForward p)
    (hb : ClockForward b) {T : Nat} (hT : ∀ t, T ≤ t → expired t = true) (pf : Frame Val) (s : St) (n : Nat)
    (hn : T + 1 ≤ s.world.tick + n) (h0 : 0 < n) :
    ∃ k pf' s1 r s', k < n ∧ Rounds (UntilRound expired p b) k pf s pf' s1 ∧ UntilEnd expired p b pf' s1 r s' ∧
      Run (untilLoop expired p b n pf) s r s' := by
  have clock : ∀ {k pf pf'} {s s' : St}, Rounds (UntilRound expired p b) k pf s pf' s' →
      ∀ i, i < k → ∃ t, s.world.tick + i ≤ t ∧ expired t = false := by
    intro k pf pf' s s' h
    induction h with
    | zero => exact fun i hi => absurd hi (by omega)
    | succ h _ ih =>
      obtain ⟨ht, hb', hp'⟩ := h
      have h1 := inKept_clock hp _ _ _ _ hp'
      have h2 := hb _ _ _ hb'
      simp only [looked] at h2
      intro i hi
      cases i with
      | zero => exact ⟨_, by omega, ht⟩
      | succ i =>
        obtain ⟨t, ht1, ht2⟩ := ih i (by omega)
        exact ⟨t, by omega, ht2⟩
  rcases until_inv hg n pf s with h | ⟨pf', s1, h⟩
  · exact h
  · exfalso
    obtain ⟨t, h3, h4⟩ := clock h (n - 1) (by omega)
    rw [hT t (by omega)] at h4
    cases h4

/-! ### for -/

/-- A full round of for: the condition holds, the clock, the body in its scope, the step. -/
inductive ForRound (expired : Nat → Bool) (p b step : M Val) : Frame Val × Frame Val → St → Frame Val × Frame Val → St → Prop
  | mk {pf pf' bf bf' : Frame Val} {s s1 s2 s3 : St} {v u : Val}
      (hp : Run (inKept pf p) s (.ok (.bool true, pf')) s1) (ht : expired s1.world.tick = false)
      (hb : Run (inKept bf b) (looked s1) (.ok (v, bf')) s2) (hs : Run step s2 (.ok u) s3) :
      ForRound expired p b step (pf, bf) s (pf', bf') s3

/-- How a for loop ends. -/
inductive ForEnd (expired : Nat → Bool) (p b step : M Val) : Frame Val × Frame Val → St → Res Val → St → Prop
  | false {pf pf' bf : Frame Val} {s s1 : St} (hp : Run (inKept pf p) s (.ok (.bool false, pf')) s1) :
      ForEnd expired p b step (pf, bf) s (.ok .null) s1
  | predRaises {pf bf : Frame Val} {s s1 : St} {e : Err} (hp : Run (inKept pf p) s (.error e) s1) :
      ForEnd expired p b step (pf, bf) s (.error e) s1
  | timeout {pf pf' bf : Frame Val} {s s1 : St} (hp : Run (inKept pf p) s (.ok (.bool true, pf')) s1)
      (ht : expired s1.world.tick = true) : ForEnd expired p b step (pf, bf) s (.error .timeout) (looked s1)
  | bodyRaises {pf pf' bf : Frame Val} {s s1 s2 : St} {e : Err}
      (hp : Run (inKept pf p) s (.ok (.bool true, pf')) s1) (ht : expired s1.world.tick = false)
      (hb : Run (inKept bf b) (looked s1) (.error e) s2) : ForEnd expired p b step (pf, bf) s (.error e) s2
  | stepRaises {pf pf' bf bf' : Frame Val} {s s1 s2 s3 : St} {v : Val} {e : Err}
      (hp : Run (inKept pf p) s (.ok (.bool true, pf')) s1) (ht : expired s1.world.tick = false)
      (hb : Run (inKept bf b) (looked s1) (.ok (v, bf')) s2) (hs : Run step s2 (.error e) s3) :
      ForEnd expired p b step (pf, bf) s (.error e) s3

theorem forLoop_round {expired : Nat → Bool} {p b step : M Val} {f f' : Frame Val × Frame Val} {s s' : St}
    (h : ForRound expired p b step f s f' s') (n : Nat) :
    forLoop expired p b step (n + 1) f.1 f.2 s = forLoop expired p b step n f'.1 f'.2 s' := by
  cases h with
  | mk hp ht hb hs =>
    rw [forLoop, run_bind_ok hp]
    dsimp only
    rw [if_pos (show Pack.truthy (.bool true) = true from rfl), run_bind_ok (checkTime_ok ht), run_bind_ok hb]
    dsimp only
    rw [run_bind_ok hs]

theorem forLoop_end {expired : Nat → Bool} {p b step : M Val} {f : Frame Val × Frame Val} {s s' : St} {r : Res Val}
    (h : ForEnd expired p b step f s r s') (n : Nat) : forLoop expired p b step (n + 1) f.1 f.2 s = (r, s') := by
  rw [forLoop]
  cases h with
  | false hp => rw [run_bind_ok hp]; rfl
  | predRaises hp => rw [run_bind_err hp]
  | timeout hp ht =>
    rw [run_bind_ok hp]
    dsimp only
    rw [if_pos (show Pack.truthy (.bool true) = true from rfl), run_bind_err (checkTime_err ht)]
  | bodyRaises hp ht hb =>
    rw [run_bind_ok hp]
    dsimp only
    rw [if_pos (show Pack.truthy (.bool true) = true from rfl), run_bind_ok (checkTime_ok ht), run_bind_err hb]
  | stepRaises hp ht hb hs =>
    rw [run_bind_ok hp]
    dsimp only
    rw [if_pos (show Pack.truthy (.bool true) = true from rfl), run_bind_ok (checkTime_ok ht), run_bind_ok hb]
    dsimp only
    rw [run_bind_err hs]

/-- **C56, for.**  After the initial assignments: condition, clock, body, step, in this order, exactly while
the condition holds. -/
theorem for_runs {expired : Nat → Bool} {p b step : M Val} {f f' : Frame Val × Frame Val} {s s1 s' : St} {r : Res Val}
    {k : Nat} (hk : Rounds (ForRound expired p b step) k f s f' s1) (he : ForEnd expired p b step f' s1 r s') :
    ∀ n, k < n → Run (forLoop expired p b step n f.1 f.2) s r s' := by
  induction hk with
  | zero => intro n hn; obtain ⟨n, rfl⟩ := Nat.exists_eq_succ_of_ne_zero (by omega : n ≠ 0); exact forLoop_end he n
  | succ h _ ih =>
    intro n hn
    obtain ⟨n, rfl⟩ := Nat.exists_eq_succ_of_ne_zero (by omega : n ≠ 0)
    unfold Run
    rw [Nat.succ_eq_add_one, forLoop_round h]
    exact ih he n (by omega)

/-- **C56, for, the other direction.** -/
theorem for_inv {expired : Nat → Bool} {p b step : M Val} (hb : GivesBool p) : ∀ n (f : Frame Val × Frame Val) s,
    (∃ k f' s1 r s', k < n ∧ Rounds (ForRound expired p b step) k f s f' s1 ∧ ForEnd expired p b step f' s1 r s' ∧
      Run (forLoop expired p b step n f.1 f.2) s r s') ∨
    (∃ f' s1, Rounds (ForRound expired p b step) n f s f' s1) := by
  intro n
  induction n with
  | zero => intro f s; exact .inr ⟨f, s, .zero f s⟩
  | succ n ih =>
    rintro ⟨pf, bf⟩ s
    have here : ∀ {r s'}, ForEnd expired p b step (pf, bf) s r s' → (∃ k f' s1 r s', k < n + 1 ∧
        Rounds (ForRound expired p b step) k (pf, bf) s f' s1 ∧ ForEnd expired p b step f' s1 r s' ∧
        Run (forLoop expired p b step (n + 1) pf bf) s r s') :=
      fun he => ⟨0, (pf, bf), s, _, _, by omega, .zero _ s, he, forLoop_end he n⟩
    rcases hp : inKept pf p s with ⟨r, s1⟩
    cases r with
    | error e => exact .inl (here (.predRaises hp))
    | ok x =>
      obtain ⟨v, pf'⟩ := x
      obtain ⟨t, rfl⟩ := inKept_bool hb hp
      cases t with
      | false => exact .inl (here (.false hp))
      | true =>
        cases ht : expired s1.world.tick with
        | true => exact .inl (here (.timeout hp ht))
        | false =>
          rcases hb' : inKept bf b (looked s1) with ⟨r, s2⟩
          cases r with
          | error e => exact .inl (here (.bodyRaises hp ht hb'))
          | ok u =>
            obtain ⟨u, bf'⟩ := u
            rcases hs : step s2 with ⟨r, s3⟩
            cases r with
            | error e => exact .inl (here (.stepRaises hp ht hb' hs))
            | ok w =>
              have hr : ForRound expired p b step (pf, bf) s (pf', bf') s3 := .mk hp ht hb' hs
              rcases ih (pf', bf') s3 with ⟨k, f2, s4, r, s', hk, hks, he, hrun⟩ | ⟨f2, s4, hks⟩
              · refine .inl ⟨k + 1, f2, s4, r, s', by omega, .succ hr hks, he, ?_⟩
                unfold Run
                exact (forLoop_round hr n).trans hrun
              · exact .inr ⟨f2, s4, .succ hr hks⟩

/-- **C56, timeout of for.** -/
theorem for_stops {expired : Nat → Bool} {p b step : M Val} (hg : GivesBool p) (hp : ClockForward p)
    (hb : ClockForward b) (hst : ClockForward step) {T : Nat} (hT : ∀ t, T ≤ t → expired t = true)
    (f : Frame Val × Frame Val) (s : St) (n : Nat) (hn : T + 1 ≤ s.world.tick + n) (h0 : 0 < n) :
    ∃ k f' s1 r s', k < n ∧ Rounds (ForRound expired p b step) k f s f' s1 ∧ ForEnd expired p b step f' s1 r s' ∧
      Run (forLoop expired p b step n f.1 f.2) s r s' := by
  have clock : ∀ {k f f'} {s s' : St}, Rounds (ForRound expired p b step) k f s f' s' →
      ∀ i, i < k → ∃ t, s.world.tick + i ≤ t ∧ expired t = false := by
    intro k f f' s s' h
    induction h with
    | zero => exact fun i hi => absurd hi (by omega)
    | succ h _ ih =>
      cases h with
      | mk hp' ht hb' hs' =>
        have h1 := inKept_clock hp _ _ _ _ hp'
        have h2 := inKept_clock hb _ _ _ _ hb'
        have h3 := hst _ _ _ hs'
        simp only [looked] at h2
        intro i hi
        cases i with
        | zero => exact ⟨_, by omega, ht⟩
        | succ i =>
          obtain ⟨t, ht1, ht2⟩ := ih i (by omega)
          exact ⟨t, by omega, ht2⟩
  rcases for_inv hg n f s with h | ⟨f', s1, h⟩
  · exact h
  · exfalso
    obtain ⟨t, h3, h4⟩ := clock h (n - 1) (by omega)
    rw [hT t (by omega)] at h4
    cases h4

/-! ### foreach, forkey -/

/-- The rounds of foreach and forkey: for each element, in order, the clock is looked at, the variables are
bound in the loop scope, the body runs in its own scope. -/
inductive EachRun (expired : Nat → Bool) (b : M Val) : List (List (String × Val)) → Frame Val → St → Res Val → St → Prop
  | done {bf : Frame Val} {s : St} : EachRun expired b [] bf s (.ok .null) s
  | timeout {d : List (String × Val)} {ds : List (List (String × Val))} {bf : Frame Val} {s : St}
      (ht : expired s.world.tick = true) : EachRun expired b (d :: ds) bf s (.error .timeout) (looked s)
  | bodyRaises {d : List (String × Val)} {ds : List (List (String × Val))} {bf : Frame Val} {s s1 s2 : St} {e : Err}
      (ht : expired s.world.tick = false) (hl : Run (letM d) (looked s) (.ok .null) s1)
      (hb : Run (inKept bf b) s1 (.error e) s2) : EachRun expired b (d :: ds) bf s (.error e) s2
  | next {d : List (String × Val)} {ds : List (List (String × Val))} {bf bf' : Frame Val} {s s1 s2 s3 : St} {v : Val}
      {r : Res Val} (ht : expired s.world.tick = false) (hl : Run (letM d) (looked s) (.ok .null) s1)
      (hb : Run (inKept bf b) s1 (.ok (v, bf')) s2) (hn : EachRun expired b ds bf' s2 r s3) :
      EachRun expired b (d :: ds) bf s r s3

theorem eachLoop_cons_timeout {expired : Nat → Bool} {b : M Val} {d ds bf} {s : St}
    (ht : expired s.world.tick = true) : eachLoop expired b (d :: ds) bf s = (.error .timeout, looked s) := by
  rw [eachLoop, run_bind_err (checkTime_err ht)]

/-- **C56, foreach and forkey.**  The loop runs exactly the rounds of the elements in order. -/
theorem each_iff (expired : Nat → Bool) (b : M Val) (ds : List (List (String × Val))) (bf : Frame Val) (s s' : St)
    (r : Res Val) : Run (eachLoop expired b ds bf) s r s' ↔ EachRun expired b ds bf s r s' := by
  have key : ∀ ds bf s, ∃ r s', Run (eachLoop expired b ds bf) s r s' ∧ EachRun expired b ds bf s r s' := by
    intro ds
    induction ds with
    | nil => intro bf s; exact ⟨_, _, rfl, .done⟩
    | cons d ds ih =>
      intro bf s
      cases ht : expired s.world.tick with
      | true => exact ⟨_, _, eachLoop_cons_timeout ht, .timeout ht⟩
      | false =>
        rcases hl : letM d (looked s) with ⟨l, s1⟩
        have hl' : l = .ok .null := by unfold letM at hl; exact (Prod.mk.inj hl).1.symm
        subst hl'
        rcases hb : inKept bf b s1 with ⟨r, s2⟩
        cases r with
        | error e =>
          refine ⟨_, _, ?_, .bodyRaises ht hl hb⟩
          unfold Run
          rw [eachLoop, run_bind_ok (checkTime_ok ht), run_bind_ok hl, run_bind_err hb]
        | ok x =>
          obtain ⟨v, bf'⟩ := x
          obtain ⟨r, s', h1, h2⟩ := ih bf' s2
          refine ⟨r, s', ?_, .next ht hl hb h2⟩
          unfold Run
          rw [eachLoop, run_bind_ok (checkTime_ok ht), run_bind_ok hl, run_bind_ok hb]
          exact h1
  have det : ∀ {ds bf s r1 s1 r2 s2}, EachRun expired b ds bf s r1 s1 → EachRun expired b ds bf s r2 s2 →
      r1 = r2 ∧ s1 = s2 := by
    intro ds bf s r1 s1 r2 s2 h1
    induction h1 generalizing r2 s2 with
    | done => intro h2; cases h2; exact ⟨rfl, rfl⟩
    | timeout ht =>
      intro h2
      cases h2 with
      | timeout => exact ⟨rfl, rfl⟩
      | bodyRaises ht' => rw [ht] at ht'; cases ht'
      | next ht' => rw [ht] at ht'; cases ht'
    | bodyRaises ht hl hb =>
      intro h2
      cases h2 with
      | timeout ht' => rw [ht] at ht'; cases ht'
      | bodyRaises _ hl' hb' =>
        have := (Prod.mk.inj (hl.symm.trans hl')).2; subst this
        have := Prod.mk.inj (hb.symm.trans hb')
        exact ⟨by have := this.1; simpa using this, this.2⟩
      | next _ hl' hb' =>
        have := (Prod.mk.inj (hl.symm.trans hl')).2; subst this
        have := (Prod.mk.inj (hb.symm.trans hb')).1
        cases this
    | next ht hl hb _ ih =>
      intro h2
      cases h2 with
      | timeout ht' => rw [ht] at ht'; cases ht'
      | bodyRaises _ hl' hb' =>
        have := (Prod.mk.inj (hl.symm.trans hl')).2; subst this
        have := (Prod.mk.inj (hb.symm.trans hb')).1
        cases this
      | next _ hl' hb' hn' =>
        have := (Prod.mk.inj (hl.symm.trans hl')).2; subst this
        have := Prod.mk.inj (hb.symm.trans hb')
        obtain ⟨h3, rfl⟩ := this
        cases h3
        exact ih hn'
  obtain ⟨r0, s0, h1, h2⟩ := key ds bf s
  constructor
  · intro h
    obtain ⟨rfl, rfl⟩ := Prod.mk.inj (h1.symm.trans h)
    exact h2
  · intro h
    obtain ⟨rfl, rfl⟩ := det h2 h
    exact h1

/-! ## try -/

/-- **C53, no filter.**  Whatever was raised, the value is null. -/
theorem try_any (msg : Int → String) {m : M Val} {s s' : St} {e : Err} (hm : Run m s (.error e) s')
    (he : e ≠ unfinished) : Run (tryCatch msg m none) s (.ok .null) s' := by
  unfold Run tryCatch
  rw [hm]
  simp [he, caught]

/-- **C53.**  Nothing raised: the value of the body. -/
theorem try_ok (msg : Int → String) {m : M Val} {s s' : St} {v : Val} (fs : Option (List (String ⊕ Int)))
    (hm : Run m s (.ok v) s') : Run (tryCatch msg m fs) s (.ok v) s' := by
  unfold Run tryCatch
  rw [hm]

/-- The error is in the list: by its message or by its code. -/
def Listed (msg : Int → String) (fs : List (String ⊕ Int)) (e : Err) : Prop :=
  (∃ c, e = .rt c ∧ (.inl (msg c) ∈ fs ∨ .inr c ∈ fs)) ∨
  (∃ m c, e = .user m c ∧ (.inl m ∈ fs ∨ ∃ k, c = some k ∧ .inr k ∈ fs))

theorem hasMsg_iff (fs : List (String ⊕ Int)) (m : String) : hasMsg fs m = true ↔ .inl m ∈ fs := by
  unfold hasMsg
  rw [List.any_eq_true]
  constructor
  · rintro ⟨x, hx, h⟩
    cases x with
    | inl y => simp only [beq_iff_eq] at h; subst h; exact hx
    | inr y => cases h
  · intro h
    exact ⟨_, h, by simp⟩

theorem hasCode_iff (fs : List (String ⊕ Int)) (c : Int) : hasCode fs c = true ↔ .inr c ∈ fs := by
  unfold hasCode
  rw [List.any_eq_true]
  constructor
  · rintro ⟨x, hx, h⟩
    cases x with
    | inr y => simp only [beq_iff_eq] at h; subst h; exact hx
    | inl y => cases h
  · intro h
    exact ⟨_, h, by simp⟩

/-- An error of a library function or of an `error` expression. -/
def PfaError (e : Err) : Prop := (∃ c, e = .rt c) ∨ ∃ m c, e = .user m c

theorem caught_iff (msg : Int → String) (fs : List (String ⊕ Int)) {e : Err} (he : PfaError e) :
    ∃ t, caught msg (some fs) e = .ok t ∧ (t = true ↔ Listed msg fs e) := by
  rcases he with ⟨c, rfl⟩ | ⟨m, c, rfl⟩
  · refine ⟨_, rfl, ?_⟩
    rw [Bool.or_eq_true, hasMsg_iff, hasCode_iff]
    constructor
    · intro h; exact .inl ⟨c, rfl, h⟩
    · rintro (⟨c', h1, h2⟩ | ⟨m', c', h1, _⟩)
      · cases h1; exact h2
      · cases h1
  · refine ⟨_, rfl, ?_⟩
    rw [Bool.or_eq_true, hasMsg_iff]
    constructor
    · rintro (h | h)
      · exact .inr ⟨m, c, rfl, .inl h⟩
      · cases c with
        | none => cases h
        | some k => exact .inr ⟨m, some k, rfl, .inr ⟨k, rfl, (hasCode_iff fs k).mp h⟩⟩
    · rintro (⟨c', h1, _⟩ | ⟨m', c', h1, h2⟩)
      · cases h1
      · cases h1
        rcases h2 with h2 | ⟨k, rfl, h2⟩
        · exact .inl h2
        · exact .inr ((hasCode_iff fs k).mpr h2)

/-- **C53, filter, for run-time errors and user errors.**  A listed error turns into null. -/
theorem try_listed_partial (msg : Int → String) {m : M Val} {s s' : St} {e : Err} {fs : List (String ⊕ Int)}
    (hm : Run m s (.error e) s') (he : PfaError e) (hl : Listed msg fs e) :
    Run (tryCatch msg m (some fs)) s (.ok .null) s' := by
  obtain ⟨t, h1, h2⟩ := caught_iff msg fs he
  have hne : e ≠ unfinished := by rcases he with ⟨c, rfl⟩ | ⟨m, c, rfl⟩ <;> (intro h; cases h)
  unfold Run tryCatch
  rw [hm]
  simp only [hne, if_false, h1, h2.mpr hl]

/-- **C53, filter, for run-time errors and user errors.**  Every other one is raised again. -/
theorem try_unlisted_partial (msg : Int → String) {m : M Val} {s s' : St} {e : Err} {fs : List (String ⊕ Int)}
    (hm : Run m s (.error e) s') (he : PfaError e) (hl : ¬ Listed msg fs e) :
    Run (tryCatch msg m (some fs)) s (.error e) s' := by
  obtain ⟨t, h1, h2⟩ := caught_iff msg fs he
  have hne : e ≠ unfinished := by rcases he with ⟨c, rfl⟩ | ⟨m, c, rfl⟩ <;> (intro h; cases h)
  have ht : t = false := by cases t with | false => rfl | true => exact absurd (h2.mp rfl) hl
  subst ht
  unfold Run tryCatch
  rw [hm]
  simp only [hne, if_false, h1]

/-- **C53 fails for timeouts.**  PFATimeoutException has neither message nor code: a filtered try in
which the timeout is exceeded raises AttributeError instead of the timeout (genpy.py 1297), and this for every filter. -/
theorem try_timeout_violation (msg : Int → String) {m : M Val} {s s' : St} (fs : List (String ⊕ Int))
    (hm : Run m s (.error .timeout) s') : Run (tryCatch msg m (some fs)) s (.error (.py "AttributeError")) s' := by
  unfold Run tryCatch
  rw [hm]
  simp [caught, unfinished]

/-- What the body did before it failed stays done: try does not roll back. -/
theorem try_keeps (msg : Int → String) {m : M Val} (fs : Option (List (String ⊕ Int))) (s : St) :
    (tryCatch msg m fs s).2 = (m s).2 := by
  unfold tryCatch
  rcases m s with ⟨r, s'⟩
  cases r with
  | ok v => rfl
  | error e =>
    dsimp only
    by_cases h : e = unfinished
    · rw [if_pos h]
    · rw [if_neg h]
      rcases caught msg fs e with _ | _ | _ <;> rfl

/-! ## Cases that meet the hypotheses -/

section examples
/-- A state with the variable `i`. -/
def exSt (i : Int) (tick : Nat) : St := ⟨[[("i", .int i)]], ⟨[], [], tick, [], []⟩⟩

/-- `i < 2`, written out. -/
def exPred : M Val := do
  let v ← getVar "i"
  match v with
  | .int i => pure (.bool (i < 2))
  | _ => raise (.py "TypeError")

/-- `i = i + 1`, written out. -/
def exBody : M Val := do
  let v ← getVar "i"
  match v with
  | .int i => setM [("i", .int (i + 1))]
  | _ => raise (.py "TypeError")

example : Rounds (WhileRound (fun _ => false) exPred exBody) 2 [] (exSt 0 0) [] (exSt 2 2) :=
  .succ (.mk (s1 := exSt 0 0) rfl rfl rfl) (.succ (.mk (s1 := exSt 1 1) rfl rfl rfl) (.zero _ _))

example : WhileEnd (fun _ => false) exPred exBody [] (exSt 2 2) (.ok .null) (exSt 2 2) := .false (pf' := []) rfl

example : GivesBool exPred := by
  intro s v s' h
  unfold Run exPred at h
  rw [run_bind] at h
  rcases hg : getVar "i" s with ⟨r, s1⟩
  rw [hg] at h
  cases r with
  | error e => simp at h
  | ok x =>
    cases x <;> simp only [] at h <;> first
      | (simp only [raise, Prod.mk.injEq] at h; cases h.1; done)
      | exact ⟨_, (Except.ok.inj (Prod.mk.inj h).1).symm⟩

example : AllFalse [(exPred, exBody)] (exSt 2 0) (exSt 2 0) := .cons rfl (.nil _)

example : Run (condElse [(exPred, pure (.str "small"))] (pure (.str "large"))) (exSt 2 0) (.ok (.str "large")) (exSt 2 0) :=
  cond_else (.cons (s1 := exSt 2 0) rfl (.nil _)) rfl

example : Listed (fun _ => "") [.inl "domain", .inr 17] (.user "other" (some 17)) :=
  .inr ⟨_, _, rfl, .inr ⟨17, rfl, by simp⟩⟩

example : EachRun (fun _ => false) (pure .null) [[("x", .int 1)], [("x", .int 2)]] [] ⟨[[]], ⟨[], [], 0, [], []⟩⟩ (.ok .null)
    ⟨[[("x", .int 2)]], ⟨[], [], 2, [], []⟩⟩ :=
  .next (s1 := ⟨[[("x", .int 1)]], ⟨[], [], 1, [], []⟩⟩) (bf' := []) rfl rfl rfl
    (.next (s1 := ⟨[[("x", .int 2)]], ⟨[], [], 2, [], []⟩⟩) (bf' := []) rfl rfl rfl .done)
end examples

end Verif.Lang
