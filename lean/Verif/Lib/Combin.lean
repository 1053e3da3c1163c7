import Verif.Lib.Eff
import Mathlib.Data.List.Perm.Basic
import Mathlib.Data.List.Nodup
import Mathlib.Data.Nat.Choose.Basic
import Mathlib.Tactic.Ring
import Mathlib.Data.Nat.Factorial.Basic
import Mathlib.Algebra.BigOperators.Group.List.Basic
/-!
# Windows, combinations, permutations (C34) and groupby (C35)

Models `titus/lib/array.py` 1145-1217.  `itertools.combinations` and `itertools.permutations` are
modelled by their documented result (lexicographic order of positions).  The call of
`state.checkTime()` after every 1000 results is left out: it can only raise the timeout exception.
-/

namespace Verif.Lib

variable {σ α β κ : Type _}

/-! ## Model -/

/-- `range(start, stop, step)` for a positive step, as natural numbers; `fuel` bounds the number
of values. -/
def rangeStep (step stop : Nat) : Nat → Nat → List Nat
  | 0, _ => []
  | fuel + 1, start => if start < stop then start :: rangeStep step stop fuel (start + step) else []

/-- `a.slidingWindow` (array.py 1145-1163). -/
def slidingWindow (a : List α) (size step : Int) : Res (List (List α)) :=
  if size < 1 then .error (.rt 15770)
  else if step < 1 then .error (.rt 15771)
  else
    let chunk := fun start => (a.drop start).take size.toNat
    .ok (((rangeStep step.toNat a.length a.length 0).map chunk).filter
      (fun c => c.length == size.toNat))

/-- `itertools.combinations(a, k)`. -/
def combos : List α → Nat → List (List α)
  | _, 0 => [[]]
  | [], _ + 1 => []
  | x :: xs, k + 1 => (combos xs k).map (x :: ·) ++ combos xs (k + 1)

/-- `a.combinations` (1166-1180). -/
def combinations (a : List α) (size : Int) : Res (List (List α)) :=
  if size < 1 then .error (.rt 15780) else .ok (combos a size.toNat)

/-- Each element with the others, in order. -/
def picks : List α → List (α × List α)
  | [] => []
  | x :: xs => (x, xs) :: (picks xs).map (fun p => (p.1, x :: p.2))

/-- `itertools.permutations(a)` for an array of length `n`. -/
def permsN : Nat → List α → List (List α)
  | 0, _ => [[]]
  | n + 1, a => (picks a).flatMap (fun p => (permsN n p.2).map (p.1 :: ·))

/-- `a.permutations` (1183-1195). -/
def permutations (a : List α) : List (List α) := permsN a.length a

/-- The loop of `a.groupby` (1211-1217). -/
def groupLoop [DecidableEq κ] (f : α → Eff σ κ) : PyDict κ (List α) → List α → Eff σ (PyDict κ (List α))
  | out, [], s => (.ok out, s)
  | out, x :: xs, s =>
    match f x s with
    | (.error e, s1) => (.error e, s1)
    | (.ok key, s1) =>
      let out := if out.has key then out else out.set key []
      groupLoop f (out.set key ((out.get? key).getD [] ++ [x])) xs s1

/-- `a.groupby` (1206-1217). -/
def groupby [DecidableEq κ] (f : α → Eff σ κ) (a : List α) : Eff σ (PyDict κ (List α)) :=
  groupLoop f [] a

/-! ## slidingWindow -/

theorem rangeStep_get (step stop : Nat) (hs : 0 < step) (fuel start j : Nat)
    (hf : stop - start ≤ fuel) :
    (rangeStep step stop fuel start)[j]? =
      if start + j * step < stop then some (start + j * step) else none := by
  induction fuel generalizing start j with
  | zero =>
    rw [if_neg (by omega)]; simp [rangeStep]
  | succ fuel ih =>
    simp only [rangeStep]
    by_cases h : start < stop
    · rw [if_pos h]
      cases j with
      | zero => simp [h]
      | succ j =>
        rw [List.getElem?_cons_succ, ih _ _ (by omega)]
        have : start + step + j * step = start + (j + 1) * step := by ring
        rw [this]
    · rw [if_neg h, if_neg (by omega)]; simp

/-- The `j`-th result is the `size` elements from position `j * step`, as long as they exist. -/
theorem slidingWindow_spec (a : List α) (size step : Nat) (hz : 0 < size) (hs : 0 < step) :
    ∃ r, slidingWindow a size step = .ok r ∧
      ∀ j, r[j]? = if j * step + size ≤ a.length then some ((a.drop (j * step)).take size) else none := by
  refine ⟨((rangeStep step a.length a.length 0).map (fun start => (a.drop start).take size)).filter
      (fun c => c.length == size), ?_, ?_⟩
  · rw [slidingWindow, if_neg (by omega), if_neg (by omega)]
    simp
  · -- the full windows come first
    have hget := fun j => rangeStep_get step a.length hs a.length 0 j (by omega)
    generalize rangeStep step a.length a.length 0 = l at hget
    simp only [Nat.zero_add] at hget
    suffices H : ∀ (l : List Nat) (i : Nat),
        (∀ j, l[j]? = if (i + j) * step < a.length then some ((i + j) * step) else none) →
        ∀ j, ((l.map (fun start => (a.drop start).take size)).filter (fun c => c.length == size))[j]? =
          if (i + j) * step + size ≤ a.length then some ((a.drop ((i + j) * step)).take size) else none by
      intro j
      have := H l 0 (by intro j; rw [hget j, Nat.zero_add]) j
      rwa [Nat.zero_add] at this
    intro l
    induction l with
    | nil =>
      intro i hl j
      have := hl j
      simp only [List.getElem?_nil] at this
      split at this
      · cases this
      · rw [if_neg (by omega)]; simp
    | cons x xs ih =>
      intro i hl j
      have h0 := hl 0
      simp only [List.getElem?_cons_zero, Nat.add_zero] at h0
      split at h0
      · next hlt =>
        cases h0
        have htail : ∀ j, xs[j]? = if (i + 1 + j) * step < a.length then some ((i + 1 + j) * step) else none := by
          intro j
          have := hl (j + 1)
          rw [List.getElem?_cons_succ] at this
          rw [this, show i + (j + 1) = i + 1 + j by omega]
        simp only [List.map_cons, List.filter_cons]
        by_cases hw : i * step + size ≤ a.length
        · rw [if_pos (by simp; omega)]
          cases j with
          | zero => simp [hw]
          | succ j =>
            rw [List.getElem?_cons_succ, ih (i + 1) htail j, show i + 1 + j = i + (j + 1) by omega]
        · rw [if_neg (by simp; omega), ih (i + 1) htail j]
          have hle : i * step ≤ (i + 1 + j) * step := Nat.mul_le_mul_right _ (by omega)
          have hle' : i * step ≤ (i + j) * step := Nat.mul_le_mul_right _ (by omega)
          rw [if_neg (by omega), if_neg (by omega)]
      · cases h0

theorem slidingWindow_error (a : List α) (size step : Int) :
    (size < 1 → slidingWindow a size step = .error (.rt 15770)) ∧
    (1 ≤ size → step < 1 → slidingWindow a size step = .error (.rt 15771)) := by
  constructor
  · intro h; simp [slidingWindow, h]
  · intro h1 h2; rw [slidingWindow, if_neg (by omega), if_pos h2]

/-! ## combinations -/

/-- Exactly the subsequences of the given length. -/
theorem combos_mem (a : List α) (k : Nat) (l : List α) :
    l ∈ combos a k ↔ l.Sublist a ∧ l.length = k := by
  induction a generalizing k l with
  | nil =>
    cases k with
    | zero => simp [combos]
    | succ k =>
      simp only [combos, List.not_mem_nil, List.sublist_nil, false_iff]
      rintro ⟨rfl, h⟩; simp at h
  | cons x xs ih =>
    cases k with
    | zero =>
      simp only [combos, List.mem_singleton, List.length_eq_zero_iff]
      exact ⟨fun h => ⟨h ▸ List.nil_sublist _, h⟩, fun h => h.2⟩
    | succ k =>
      simp only [combos, List.mem_append, List.mem_map, ih]
      constructor
      · rintro (⟨l', ⟨h1, h2⟩, rfl⟩ | ⟨h1, h2⟩)
        · exact ⟨h1.cons₂ x, by simp [h2]⟩
        · exact ⟨h1.cons x, h2⟩
      · rintro ⟨h1, h2⟩
        cases h1 with
        | cons _ h => exact .inr ⟨h, h2⟩
        | cons_cons _ h => exact .inl ⟨_, ⟨h, by simpa using h2⟩, rfl⟩

theorem combos_map (f : α → β) (a : List α) (k : Nat) :
    combos (a.map f) k = (combos a k).map (List.map f) := by
  induction a generalizing k with
  | nil => cases k <;> rfl
  | cons x xs ih =>
    cases k with
    | zero => rfl
    | succ k =>
      simp only [List.map_cons, combos, ih, List.map_append, List.map_map]
      rfl

/-- With distinct elements (for instance positions), no combination comes twice, and they come in
lexicographic order. -/
theorem combos_nodup (a : List α) (h : a.Nodup) (k : Nat) : (combos a k).Nodup := by
  induction a generalizing k with
  | nil => cases k <;> simp [combos]
  | cons x xs ih =>
    obtain ⟨hx, hxs⟩ := List.nodup_cons.1 h
    cases k with
    | zero => simp [combos]
    | succ k =>
      simp only [combos]
      refine List.Nodup.append ?_ (ih hxs _) ?_
      · exact (ih hxs k).map (fun a b h => (List.cons.inj h).2)
      · intro l hl hl'
        obtain ⟨l', _, rfl⟩ := List.mem_map.1 hl
        exact hx (((combos_mem _ _ _).1 hl').1.subset (by simp))

theorem combos_lex (a : List Nat) (h : a.Pairwise (· < ·)) (k : Nat) :
    (combos a k).Pairwise (List.Lex (· < ·)) := by
  induction a generalizing k with
  | nil => cases k <;> simp [combos]
  | cons x xs ih =>
    obtain ⟨hx, hxs⟩ := List.pairwise_cons.1 h
    cases k with
    | zero => simp [combos]
    | succ k =>
      simp only [combos, List.pairwise_append]
      refine ⟨?_, ih hxs _, ?_⟩
      · rw [List.pairwise_map]
        exact (ih hxs k).imp (fun h => List.Lex.cons h)
      · intro l hl m hm
        obtain ⟨l', _, rfl⟩ := List.mem_map.1 hl
        obtain ⟨hs, hlen⟩ := (combos_mem _ _ _).1 hm
        match m, hlen with
        | y :: m', _ => exact .rel (hx y (hs.subset (by simp)))

theorem combos_length (a : List α) (k : Nat) : (combos a k).length = a.length.choose k := by
  induction a generalizing k with
  | nil => cases k <;> simp [combos]
  | cons x xs ih =>
    cases k with
    | zero => simp [combos]
    | succ k => simp [combos, ih, Nat.choose_succ_succ]

/-- `a.combinations`: exactly the subsequences of the requested length, by position: the list of
position sets has no repetition and is in lexicographic order. -/
theorem combinations_spec (a : List α) (size : Nat) (hs : 0 < size) :
    ∃ r, combinations a size = .ok r ∧ (∀ l, l ∈ r ↔ l.Sublist a ∧ l.length = size) ∧
      r.length = a.length.choose size ∧
      ∃ ps : List (List Nat), ps.Nodup ∧ ps.Pairwise (List.Lex (· < ·)) ∧
        (∀ p, p ∈ ps ↔ p.Sublist (List.range a.length) ∧ p.length = size) ∧
        r.map (List.map some) = ps.map (List.map (fun i => a[i]?)) := by
  refine ⟨combos a size, ?_, combos_mem a size, combos_length a size,
    combos (List.range a.length) size, combos_nodup _ List.nodup_range _,
    combos_lex _ List.pairwise_lt_range _, combos_mem _ _, ?_⟩
  · rw [combinations, if_neg (by omega)]; simp
  · rw [← combos_map, ← combos_map]
    congr 1
    apply List.ext_getElem?
    intro i
    simp only [List.getElem?_map]
    by_cases hi : i < a.length
    · simp [List.getElem?_range hi, hi]
    · rw [List.getElem?_eq_none (by omega), List.getElem?_eq_none (by simp; omega)]; rfl

theorem combinations_error (a : List α) (size : Int) (h : size < 1) :
    combinations a size = .error (.rt 15780) := by simp [combinations, h]

/-! ## permutations -/

theorem picks_perm (a : List α) (p : α × List α) (h : p ∈ picks a) : (p.1 :: p.2).Perm a := by
  induction a generalizing p with
  | nil => simp [picks] at h
  | cons x xs ih =>
    simp only [picks, List.mem_cons, List.mem_map] at h
    rcases h with rfl | ⟨q, hq, rfl⟩
    · exact .refl _
    · exact (List.Perm.swap x q.1 q.2).trans ((ih q hq).cons x)

theorem picks_complete (pre post : List α) (x : α) : (x, pre ++ post) ∈ picks (pre ++ x :: post) := by
  induction pre with
  | nil => simp [picks]
  | cons y pre ih =>
    simp only [List.cons_append, picks, List.mem_cons, List.mem_map]
    exact .inr ⟨_, ih, rfl⟩

/-- Exactly the rearrangements. -/
theorem permsN_mem (n : Nat) (a : List α) (hn : a.length = n) (l : List α) :
    l ∈ permsN n a ↔ l.Perm a := by
  induction n generalizing a l with
  | zero =>
    rw [List.length_eq_zero_iff] at hn; subst hn
    simp [permsN]
  | succ n ih =>
    simp only [permsN, List.mem_flatMap, List.mem_map]
    constructor
    · rintro ⟨p, hp, l', hl', rfl⟩
      have hpp := picks_perm a p hp
      have hlen : p.2.length = n := by
        have := hpp.length_eq; simp only [List.length_cons] at this; omega
      exact (((ih _ hlen _).1 hl').cons p.1).trans hpp
    · intro h
      match l, h with
      | [], h => have := h.length_eq; simp at this; omega
      | x :: l', h =>
        obtain ⟨pre, post, rfl⟩ := List.append_of_mem (h.mem_iff.1 (List.mem_cons_self (a := x)))
        have hperm : l'.Perm (pre ++ post) := (h.trans List.perm_middle).cons_inv
        refine ⟨(x, pre ++ post), picks_complete pre post x, l', ?_, rfl⟩
        refine (ih _ ?_ _).2 hperm
        simp only [List.length_append, List.length_cons] at hn ⊢; omega

theorem picks_map (f : α → β) (a : List α) :
    picks (a.map f) = (picks a).map (fun p => (f p.1, p.2.map f)) := by
  induction a with
  | nil => rfl
  | cons x xs ih => simp [picks, ih, Function.comp_def]

theorem permsN_map (f : α → β) (n : Nat) (a : List α) :
    permsN n (a.map f) = (permsN n a).map (List.map f) := by
  induction n generalizing a with
  | zero => rfl
  | succ n ih =>
    simp only [permsN, picks_map, List.flatMap_map, List.map_flatMap, ih, List.map_map]
    rfl

theorem picks_fst (a : List α) : (picks a).map Prod.fst = a := by
  induction a with
  | nil => rfl
  | cons x xs ih => simp [picks, Function.comp_def] ; simpa using ih

/-- With distinct elements no rearrangement comes twice. -/
theorem permsN_nodup (n : Nat) (a : List α) (hn : a.length = n) (h : a.Nodup) :
    (permsN n a).Nodup := by
  induction n generalizing a with
  | zero => simp [permsN]
  | succ n ih =>
    simp only [permsN]
    rw [List.nodup_flatMap]
    constructor
    · intro p hp
      have hpp := picks_perm a p hp
      refine List.Nodup.map (fun a b h => (List.cons.inj h).2) (ih _ ?_ ?_)
      · have := hpp.length_eq; simp only [List.length_cons] at this; omega
      · exact (List.nodup_cons.1 (hpp.nodup_iff.2 h)).2
    · have hf : ((picks a).map Prod.fst).Nodup := by rw [picks_fst]; exact h
      rw [List.Nodup, List.pairwise_map] at hf
      refine hf.imp ?_
      intro p q hpq l hl hl'
      obtain ⟨_, _, rfl⟩ := List.mem_map.1 hl
      obtain ⟨_, _, he⟩ := List.mem_map.1 hl'
      exact hpq (List.cons.inj he).1.symm

theorem picks_length (a : List α) : (picks a).length = a.length := by
  rw [← List.length_map (f := Prod.fst), picks_fst]

theorem permsN_length (n : Nat) (a : List α) (hn : a.length = n) :
    (permsN n a).length = n.factorial := by
  induction n generalizing a with
  | zero => simp [permsN]
  | succ n ih =>
    simp only [permsN, List.length_flatMap, List.length_map]
    have : (picks a).map (fun p => (permsN n p.2).length) = (picks a).map (fun _ => n.factorial) := by
      apply List.map_congr_left
      intro p hp
      apply ih
      have := (picks_perm a p hp).length_eq
      simp only [List.length_cons] at this; omega
    rw [this, List.map_const', List.sum_replicate, picks_length, hn, Nat.factorial_succ]; rfl

/-- `a.permutations`: exactly the rearrangements, one for each rearrangement of the positions. -/
theorem permutations_spec (a : List α) :
    (∀ l, l ∈ permutations a ↔ l.Perm a) ∧ (permutations a).length = a.length.factorial ∧
      ∃ ps : List (List Nat), ps.Nodup ∧ (∀ p, p ∈ ps ↔ p.Perm (List.range a.length)) ∧
        (permutations a).map (List.map some) = ps.map (List.map (fun i => a[i]?)) := by
  refine ⟨permsN_mem _ a rfl, permsN_length _ a rfl,
    permsN a.length (List.range a.length), permsN_nodup _ _ (by simp) List.nodup_range,
    permsN_mem _ _ (by simp), ?_⟩
  rw [permutations, ← permsN_map, ← permsN_map]
  congr 1
  apply List.ext_getElem?
  intro i
  simp only [List.getElem?_map]
  by_cases hi : i < a.length
  · simp [List.getElem?_range hi, hi]
  · rw [List.getElem?_eq_none (by omega), List.getElem?_eq_none (by simp; omega)]; rfl

/-! ## groupby -/

section Group
variable [DecidableEq κ]

/-- The group of a key, given the keys the function returned. -/
def groupOf (tr : List (α × κ)) (k : κ) : List α :=
  (tr.filter (fun p => decide (p.2 = k))).map (·.1)

/-- One round of the loop. -/
def groupStep (out : PyDict κ (List α)) (key : κ) (x : α) : PyDict κ (List α) :=
  let out := if out.has key then out else out.set key []
  out.set key ((out.get? key).getD [] ++ [x])

theorem groupStep_get (out : PyDict κ (List α)) (key : κ) (x : α) (k : κ) :
    (groupStep out key x).get? k =
      if key = k then some ((out.get? k).getD [] ++ [x]) else out.get? k := by
  unfold groupStep
  simp only [PyDict.get?_set]
  by_cases hk : key = k
  · subst hk
    rw [if_pos rfl, if_pos rfl]
    by_cases hh : out.has key = true
    · rw [if_pos hh]
    · rw [if_neg hh]
      have : out.get? key = none := by
        simpa [PyDict.has] using hh
      simp [this]
  · rw [if_neg hk, if_neg hk]
    by_cases hh : out.has key = true
    · rw [if_pos hh]
    · rw [if_neg hh, PyDict.get?_set, if_neg hk]

theorem groupStep_keys (out : PyDict κ (List α)) (key : κ) (x : α) :
    (groupStep out key x).keys = if key ∈ out.keys then out.keys else out.keys ++ [key] := by
  unfold groupStep
  by_cases hh : out.has key = true
  · have : key ∈ out.keys := (PyDict.get?_isSome_iff _ _).1 hh
    simp [hh, PyDict.keys_set, this]
  · have : key ∉ out.keys := fun h => hh ((PyDict.get?_isSome_iff _ _).2 h)
    simp [hh, PyDict.keys_set, this]

theorem groupLoop_ok (f : α → Eff σ κ) (tr : List (α × κ)) (s s' : σ) (hc : Chain f s tr s')
    (out : PyDict κ (List α)) :
    ∃ d, groupLoop f out (tr.map (·.1)) s = (.ok d, s') ∧
      (∀ k, d.get? k = if k ∈ tr.map (·.2) then some ((out.get? k).getD [] ++ groupOf tr k)
        else out.get? k) ∧
      ∃ new, d.keys = out.keys ++ new ∧ new.Sublist (tr.map (·.2)) ∧ (out.keys.Nodup → d.keys.Nodup) := by
  induction hc generalizing out with
  | nil s => exact ⟨out, rfl, by simp, [], by simp⟩
  | @cons s x key s1 tr s2 h _ ih =>
    simp only [List.map_cons, groupLoop, h]
    obtain ⟨d, hd, hspec, new, hkeys, hsub, hnd⟩ := ih (groupStep out key x)
    refine ⟨d, hd, fun k => ?_, ?_⟩
    · rw [hspec k, groupStep_get]
      by_cases hk : key = k
      · subst hk
        by_cases hm : key ∈ tr.map (·.2)
        · simp [hm, groupOf]
        · have : groupOf tr key = [] := by
            simp only [groupOf, List.map_eq_nil_iff, List.filter_eq_nil_iff]
            intro p hp he
            exact hm (List.mem_map.2 ⟨p, hp, by simpa using he⟩)
          have h2 : groupOf ((x, key) :: tr) key = [x] := by
            rw [groupOf, List.filter_cons_of_pos (by simp)]
            simpa [groupOf] using this
          simp [hm, h2]
      · have hk' : ¬ k = key := fun h => hk h.symm
        have hg : groupOf ((x, key) :: tr) k = groupOf tr k := by simp [groupOf, hk]
        have hm : k ∈ key :: tr.map (·.2) ↔ k ∈ tr.map (·.2) := by
          rw [List.mem_cons]; exact ⟨fun h => h.resolve_left hk', .inr⟩
        rw [if_neg hk, hg]
        by_cases h1 : k ∈ tr.map (·.2)
        · rw [if_pos h1, if_pos (hm.2 h1)]
        · rw [if_neg h1, if_neg (fun h => h1 (hm.1 h))]
    · rw [groupStep_keys] at hkeys hnd
      by_cases hm : key ∈ out.keys
      · rw [if_pos hm] at hkeys hnd
        exact ⟨new, hkeys, hsub.cons key, hnd⟩
      · rw [if_neg hm] at hkeys hnd
        refine ⟨key :: new, by simp [hkeys], hsub.cons_cons key, fun h => hnd ?_⟩
        rw [List.nodup_append]
        refine ⟨h, by simp, ?_⟩
        rintro a ha b hb rfl
        exact hm (List.mem_singleton.1 hb ▸ ha)

/-- `a.groupby`: the function is called once on each element in order; there is one group for
each key it returned, holding the elements with that key in their order; keys are in the order of
first appearance. -/
theorem groupby_ok (f : α → Eff σ κ) (tr : List (α × κ)) (s s' : σ) (hc : Chain f s tr s') :
    ∃ d, groupby f (tr.map (·.1)) s = (.ok d, s') ∧ d.WF ∧
      (∀ k, d.get? k = if k ∈ tr.map (·.2) then some (groupOf tr k) else none) ∧
      d.keys.Sublist (tr.map (·.2)) := by
  obtain ⟨d, h1, h2, new, h3, h4, h5⟩ := groupLoop_ok f tr s s' hc []
  refine ⟨d, h1, h5 (by simp [PyDict.keys]), fun k => by simpa using h2 k, ?_⟩
  have : d.keys = new := by simpa [PyDict.keys] using h3
  rw [this]; exact h4

/-- The groups partition the array: put together they are a rearrangement of it, and each is a
subsequence of it. -/
theorem groupby_partition (tr : List (α × κ)) (d : PyDict κ (List α)) (hw : d.WF)
    (hd : ∀ k, d.get? k = if k ∈ tr.map (·.2) then some (groupOf tr k) else none) :
    ((d.map (·.2)).flatten).Perm (tr.map (·.1)) ∧
      ∀ g ∈ d.map (·.2), g.Sublist (tr.map (·.1)) ∧ g ≠ [] := by
  have hval : ∀ p ∈ d, p.2 = groupOf tr p.1 ∧ p.1 ∈ tr.map (·.2) := by
    intro p hp
    have h1 := PyDict.get?_of_mem hw (k := p.1) (v := p.2) hp
    rw [hd] at h1
    split at h1
    · next h => exact ⟨(Option.some.inj h1).symm, h⟩
    · cases h1
  have hmem : ∀ k, k ∈ d.keys ↔ k ∈ tr.map (·.2) := by
    intro k
    rw [← PyDict.get?_isSome_iff, hd]
    split <;> simp_all
  constructor
  · have e1 : d.map (·.2) = d.keys.map (groupOf tr) := by
      rw [PyDict.keys, List.map_map]
      exact List.map_congr_left (fun p hp => (hval p hp).1)
    rw [e1]
    clear e1 hval hd
    unfold PyDict.WF at hw
    generalize d.keys = ks at hw hmem
    have key : ∀ (ks : List κ) (tr : List (α × κ)), ks.Nodup → (∀ p ∈ tr, p.2 ∈ ks) →
        ((ks.map (groupOf tr)).flatten).Perm (tr.map (·.1)) := by
      intro ks
      induction ks with
      | nil =>
        intro tr _ h
        cases tr with
        | nil => simp
        | cons p tr => exact absurd (h p (by simp)) (by simp)
      | cons k ks ih =>
        intro tr hnd h
        obtain ⟨hk, hks⟩ := List.nodup_cons.1 hnd
        have hrest := ih (tr.filter (fun p => !decide (p.2 = k))) hks (by
          intro p hp
          obtain ⟨h1, h2⟩ := List.mem_filter.1 hp
          have := h p h1
          simp only [List.mem_cons] at this
          rcases this with h3 | h3
          · simp [h3] at h2
          · exact h3)
        have e : ks.map (groupOf tr) = ks.map (groupOf (tr.filter (fun p => !decide (p.2 = k)))) := by
          apply List.map_congr_left
          intro k' hk'
          unfold groupOf
          rw [List.filter_filter]
          congr 1
          apply List.filter_congr
          intro p _
          by_cases h1 : p.2 = k'
          · have : ¬ k' = k := fun h2 => hk (h2 ▸ hk')
            simp [h1, this]
          · simp [h1]
        simp only [List.map_cons, List.flatten_cons]
        rw [e]
        refine ((List.Perm.refl _).append hrest).trans ?_
        unfold groupOf
        rw [← List.map_append]
        exact (List.filter_append_perm _ _).map _
    exact key ks tr hw (fun p hp => (hmem _).2 (List.mem_map.2 ⟨p, hp, rfl⟩))
  · intro g hg
    obtain ⟨p, hp, rfl⟩ := List.mem_map.1 hg
    obtain ⟨h1, h2⟩ := hval p hp
    rw [h1]
    constructor
    · exact List.filter_sublist.map _
    · obtain ⟨q, hq, he⟩ := List.mem_map.1 h2
      intro hc
      simp only [groupOf, List.map_eq_nil_iff, List.filter_eq_nil_iff] at hc
      exact hc q hq (by simpa using he)

/-- When the function raises, `a.groupby` raises the same. -/
theorem groupby_raises (f : α → Eff σ κ) (tr : List (α × κ)) (x : α) (rest : List α) (s s1 s2 : σ) (e : Err)
    (hc : Chain f s tr s1) (hx : f x s1 = (.error e, s2)) :
    groupby f (tr.map (·.1) ++ x :: rest) s = (.error e, s2) := by
  unfold groupby
  generalize ([] : PyDict κ (List α)) = out
  induction hc generalizing out with
  | nil s => simp [groupLoop, hx]
  | cons h _ ih => simp only [List.map_cons, List.cons_append, groupLoop, h]; exact ih hx _

end Group

/-! ### Non-vacuity -/

example : slidingWindow [1, 2, 3, 4, 5, 6] 3 2 = .ok [[1, 2, 3], [3, 4, 5]] := by decide
example : combinations ["a", "b", "c"] 2 = .ok [["a", "b"], ["a", "c"], ["b", "c"]] := by decide
example : permutations [1, 2, 3] =
  [[1, 2, 3], [1, 3, 2], [2, 1, 3], [2, 3, 1], [3, 1, 2], [3, 2, 1]] := by decide
/-- A key function that counts its calls. -/
def keyer (x : Nat) : Eff Nat Nat := fun s => if x < 9 then (.ok (x % 3), s + 1) else (.error (.rt 7), s + 1)
example : Chain keyer 0 [(1, 1), (2, 2), (4, 1)] 3 := .cons rfl (.cons rfl (.cons rfl (.nil _)))
example : groupby keyer [1, 2, 4] 0 = (.ok [(1, [1, 4]), (2, [2])], 3) := by decide
example : groupby keyer [1, 9, 4] 0 = (.error (.rt 7), 2) := by decide

end Verif.Lib
