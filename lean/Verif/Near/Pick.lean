import Verif.Stat.Num
import Verif.Lib.Sort
import Mathlib.Tactic.Common
/-! # Choosing the nearest

The loops `if one is None or d < oned: one = item; oned = d` of interp.py, cluster.py and their kin, and what they choose. -/

namespace Verif.Near
open Verif.Stat (Num)
open Verif.Lib (Eff Chain)

variable {ι σ α β : Type}

/-- One round of such a loop: `ok` is the condition on the item, `d` its distance. -/
def pickStep (ok : ι → Bool) (d : ι → Num) (b : Option (ι × Num)) (it : ι) : Option (ι × Num) :=
  match b with
  | none => if ok it then some (it, d it) else none
  | some (o, od) => if ok it && Num.lt (d it) od then some (it, d it) else some (o, od)

/-- The loop. -/
def pick (ok : ι → Bool) (d : ι → Num) (l : List ι) : Option (ι × Num) := l.foldl (pickStep ok d) none

/-- `[callfcn(state, scope, f, [x]) for x in l]`, with the arguments kept. -/
def callAll (f : α → Eff σ β) : List α → Eff σ (List (α × β))
  | [] => fun s => (.ok [], s)
  | x :: xs => fun s =>
    match f x s with
    | (.error e, s1) => (.error e, s1)
    | (.ok b, s1) =>
      match callAll f xs s1 with
      | (.error e, s2) => (.error e, s2)
      | (.ok l, s2) => (.ok ((x, b) :: l), s2)

/-! ## Specification -/

/-- `p` is the first of the items with `ok` at the smallest distance. -/
def FirstMin (ok : ι → Bool) (d : ι → Num) (l : List ι) (p : ι) : Prop :=
  ∃ pre post, l = pre ++ p :: post ∧ ok p = true ∧ (∀ q ∈ pre, ok q = true → Num.lt (d p) (d q) = true) ∧
    (∀ q ∈ post, ok q = true → Num.lt (d q) (d p) = false)

/-! ## Proofs -/

theorem lt_trans' {a b c : Num} (h1 : Num.lt a b = true) (h2 : Num.lt b c = true) : Num.lt a c = true := by
  cases a <;> cases b <;> cases c <;> simp_all [Num.lt]
  exact lt_trans h1 h2

theorem lt_cotrans {a b c : Num} (hc : c ≠ .nan) (h1 : Num.lt a b = true) : Num.lt a c = true ∨ Num.lt c b = true := by
  cases a <;> cases b <;> cases c <;> simp_all [Num.lt]
  next a b c =>
    by_cases h : a < c
    · exact .inl h
    · exact .inr (lt_of_le_of_lt (not_lt.1 h) h1)

theorem lt_irrefl' (a : Num) : Num.lt a a = false := by
  cases a <;> simp [Num.lt]

theorem pick_snoc (ok : ι → Bool) (d : ι → Num) (l : List ι) (x : ι) :
    pick ok d (l ++ [x]) = pickStep ok d (pick ok d l) x := by
  simp [pick, List.foldl_append]

/-- The loop finds the first item at the smallest distance, if no distance is nan. -/
theorem pick_spec (ok : ι → Bool) (d : ι → Num) (l : List ι) (hn : ∀ z ∈ l, ok z = true → d z ≠ .nan) :
    ((∀ z ∈ l, ok z = false) ∧ pick ok d l = none) ∨ ∃ p, FirstMin ok d l p ∧ pick ok d l = some (p, d p) := by
  induction l using List.reverseRecOn with
  | nil => left; exact ⟨by simp, rfl⟩
  | append_singleton l x ih =>
    rw [pick_snoc]
    have hn' : ∀ z ∈ l, ok z = true → d z ≠ .nan := fun z hz => hn z (by simp [hz])
    rcases ih hn' with ⟨h1, h2⟩ | ⟨p, ⟨pre, post, rfl, hp, h3, h4⟩, h5⟩
    · rw [h2]
      by_cases hx : ok x = true
      · right
        refine ⟨x, ⟨l, [], by simp, hx, ?_, by simp⟩, by simp [pickStep, hx]⟩
        intro q hq hq'
        rw [h1 q hq] at hq'; cases hq'
      · left
        refine ⟨?_, by simp [pickStep, hx]⟩
        intro z hz
        rcases List.mem_append.1 hz with hz | hz
        · exact h1 z hz
        · simp at hz; subst hz; simpa using hx
    · rw [h5]
      right
      by_cases hx : (ok x && Num.lt (d x) (d p)) = true
      · have hx1 : ok x = true := (Bool.and_eq_true _ _ ▸ hx).1
        have hx2 : Num.lt (d x) (d p) = true := (Bool.and_eq_true _ _ ▸ hx).2
        refine ⟨x, ⟨pre ++ p :: post, [], by simp, hx1, ?_, by simp⟩, by simp [pickStep, hx1, hx2]⟩
        intro q hq hq'
        rcases List.mem_append.1 hq with hq | hq
        · exact lt_trans' hx2 (h3 q hq hq')
        · rcases List.mem_cons.1 hq with rfl | hq
          · exact hx2
          · rcases lt_cotrans (hn' q (by simp [hq]) hq') hx2 with h | h
            · exact h
            · rw [h4 q hq hq'] at h; cases h
      · refine ⟨p, ⟨pre, post ++ [x], by simp, hp, h3, ?_⟩, ?_⟩
        · intro q hq hq'
          rcases List.mem_append.1 hq with hq | hq
          · exact h4 q hq hq'
          · simp at hq; subst hq
            rw [hq'] at hx
            simpa using hx
        · simp only [pickStep]
          rw [if_neg hx]

theorem FirstMin.mem {ok : ι → Bool} {d : ι → Num} {l : List ι} {p : ι} (h : FirstMin ok d l p) : p ∈ l := by
  obtain ⟨pre, post, rfl, _⟩ := h
  simp

theorem FirstMin.le {ok : ι → Bool} {d : ι → Num} {l : List ι} {p : ι} (h : FirstMin ok d l p) :
    ∀ q ∈ l, ok q = true → Num.lt (d q) (d p) = false := by
  obtain ⟨pre, post, rfl, _, h1, h2⟩ := h
  intro q hq hq'
  rcases List.mem_append.1 hq with hq | hq
  · by_contra hc
    rw [Bool.not_eq_false] at hc
    have := lt_trans' hc (h1 q hq hq')
    rw [lt_irrefl'] at this; cases this
  · rcases List.mem_cons.1 hq with rfl | hq
    · exact lt_irrefl' _
    · exact h2 q hq hq'

/-- The calls of `callAll`. -/
theorem callAll_chain (f : α → Eff σ β) (xs : List α) (s s' : σ) (l : List (α × β)) :
    callAll f xs s = (.ok l, s') ↔ l.map Prod.fst = xs ∧ Chain f s l s' := by
  induction xs generalizing s l with
  | nil =>
    simp only [callAll, Prod.mk.injEq, Except.ok.injEq]
    constructor
    · rintro ⟨rfl, rfl⟩; exact ⟨rfl, .nil _⟩
    · rintro ⟨h1, h2⟩
      have : l = [] := by simpa using h1
      subst this
      cases h2
      exact ⟨rfl, rfl⟩
  | cons x xs ih =>
    simp only [callAll]
    constructor
    · intro h
      split at h
      · cases h
      · next b s1 hf =>
        split at h
        · cases h
        · next l1 s2 hl =>
          injection h with h1 h2
          injection h1 with h1
          subst h1 h2
          have := (ih s1 l1).1 hl
          exact ⟨by simp [this.1], .cons hf this.2⟩
    · rintro ⟨h1, h2⟩
      cases h2 with
      | nil => simp at h1
      | cons hf hc =>
        simp only [List.map_cons, List.cons.injEq] at h1
        obtain ⟨rfl, h1⟩ := h1
        rw [hf]
        simp only
        rw [(ih _ _).2 ⟨h1, hc⟩]

theorem callAll_raises (f : α → Eff σ β) (xs : List α) (s s' : σ) (e : Err) :
    callAll f xs s = (.error e, s') ↔
      ∃ tr a rest s1, xs = tr.map Prod.fst ++ a :: rest ∧ Chain f s tr s1 ∧ f a s1 = (.error e, s') := by
  induction xs generalizing s with
  | nil =>
    simp only [callAll]
    constructor
    · intro h; cases h
    · rintro ⟨tr, a, rest, s1, h, _⟩; simp at h
  | cons x xs ih =>
    simp only [callAll]
    constructor
    · intro h
      split at h
      · next e1 s1 hf =>
        injection h with h1 h2
        injection h1 with h1
        subst h1 h2
        exact ⟨[], x, xs, s, rfl, .nil _, hf⟩
      · next b s1 hf =>
        split at h
        · next e1 s2 hl =>
          injection h with h1 h2
          injection h1 with h1
          subst h1 h2
          obtain ⟨tr, a, rest, s3, rfl, h4, h5⟩ := (ih s1).1 hl
          exact ⟨(x, b) :: tr, a, rest, s3, rfl, .cons hf h4, h5⟩
        · cases h
    · rintro ⟨tr, a, rest, s1, h1, h2, h3⟩
      cases h2 with
      | nil =>
        simp at h1
        obtain ⟨rfl, rfl⟩ := h1
        rw [h3]
      | cons hf hc =>
        simp only [List.map_cons, List.cons_append, List.cons.injEq] at h1
        obtain ⟨rfl, rfl⟩ := h1
        rw [hf]
        simp only
        rw [(ih _).2 ⟨_, _, _, _, rfl, hc, h3⟩]

end Verif.Near
