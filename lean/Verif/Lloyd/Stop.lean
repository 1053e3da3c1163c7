import Verif.Lloyd.Ends
/-! # Optimizing clusters: stopping conditions, weights and jumps (C88, C89) -/

namespace Verif.Lloyd
open Verif.Near (coord dist2 Nearest2)

/-! ## The conditions -/

/-- `maxIterations`, `whileall` and `whileany`. -/
theorem conditions_spec (number : Int) (conds : List Cond) (it : Nat) (rep : Report) (size : Nat) :
    (maxIterations number it rep size = true ↔ (it : Int) < number) ∧
    (whileall conds it rep size = true ↔ ∀ c ∈ conds, c it rep size = true) ∧
    (whileany conds it rep size = true ↔ ∃ c ∈ conds, c it rep size = true) ∧
    printing it rep size = true := by
  refine ⟨by simp [maxIterations], by simp [whileall], by simp [whileany], rfl⟩

theorem small_iff (t : ℚ) (x : Pt) : small t x = true ↔ ∀ a ∈ x, |a| < t := by
  simp [small]

/-- `allChange` stops exactly if all reported changes are below the threshold in all coordinates; jumps are not looked at. -/
theorem allChange_spec (t : ℚ) (it : Nat) (rep : Report) (size : Nat) :
    allChange t it rep size = false ↔ ∀ corr c', some (corr, c') ∈ rep → ∀ a ∈ corr, |a| < t := by
  simp only [allChange, Bool.not_eq_false', List.all_eq_true, List.mem_filterMap, id, exists_eq_right, small_iff, Prod.forall]

/-- `halfChange` stops exactly if no change was reported, or if at least half of the changes are below the threshold. -/
theorem halfChange_spec (t : ℚ) (it : Nat) (rep : Report) (size : Nat) :
    halfChange t it rep size = false ↔
      rep.filterMap id = [] ∨ (rep.filterMap id).length ≤ 2 * ((rep.filterMap id).filter fun x => ∀ a ∈ x.1, |a| < t).length := by
  unfold halfChange
  simp only
  generalize rep.filterMap id = l
  have hc : l.countP (fun x => small t x.1) = (l.filter fun x => ∀ a ∈ x.1, |a| < t).length := by
    rw [List.countP_eq_length_filter]
    congr 2
    funext x
    rw [Bool.eq_iff_iff, small_iff, decide_eq_true_iff]
  rw [hc]
  generalize (l.filter fun x => ∀ a ∈ x.1, |a| < t).length = m
  by_cases h : l = []
  · subst h; simp
  · have h0 : l.length ≠ 0 := by simpa using h
    have hpos : (0 : ℚ) < l.length := by
      have : 0 < l.length := List.length_pos_of_ne_nil h
      exact_mod_cast this
    rw [if_neg h0]
    simp only [h, false_or, decide_eq_false_iff_not, not_lt]
    rw [le_div_iff₀ hpos]
    constructor
    · intro h1
      have : (l.length : ℚ) ≤ 2 * m := by linarith
      exact_mod_cast this
    · intro h1
      have : (l.length : ℚ) ≤ 2 * m := by exact_mod_cast h1
      linarith

/-- Conditions with a threshold end the optimization (see `loop_ends`). -/
theorem allChange_needs (t : ℚ) : NeedsChange t (allChange t) := by
  intro it rep size h
  by_contra hcon
  push Not at hcon
  have := (allChange_spec t it rep size).2 (fun corr c' hm a ha => hcon corr c' hm a ha)
  rw [h] at this; cases this

theorem halfChange_needs (t : ℚ) : NeedsChange t (halfChange t) := by
  intro it rep size h
  by_contra hcon
  push Not at hcon
  have hall : ((rep.filterMap id).filter fun x => decide (∀ a ∈ x.1, |a| < t)) = rep.filterMap id := by
    rw [List.filter_eq_self]
    rintro ⟨corr, c'⟩ hx
    simp only [List.mem_filterMap, id, exists_eq_right] at hx
    simpa using hcon corr c' hx
  have := (halfChange_spec t it rep size).2 (.inr (by rw [hall]; omega))
  rw [h] at this; cases this

/-- One such condition is enough in `whileall`; in `whileany` all must be such. -/
theorem while_needs (t : ℚ) (conds : List Cond) :
    ((∃ c ∈ conds, NeedsChange t c) → NeedsChange t (whileall conds)) ∧
    ((∀ c ∈ conds, NeedsChange t c) → NeedsChange t (whileany conds)) := by
  constructor
  · rintro ⟨c, hc, hn⟩ it rep size h
    exact hn it rep size ((conditions_spec 0 conds it rep size).2.1.1 h c hc)
  · intro hn it rep size h
    obtain ⟨c, hc, h1⟩ := (conditions_spec 0 conds it rep size).2.2.1.1 h
    exact hn c hc it rep size h1

theorem moving_needs : NeedsChange (1 / 10 ^ 15) moving :=
  (while_needs _ _).1 ⟨_, by simp, allChange_needs _⟩

/-- The optimization with `moving()` ends for every dataset. -/
theorem moving_ends (P : Params) (hmin : P.minPoints = none) (hj : ∀ k o, (P.jump k o).length = P.dim) (dataset clusters : List Pt)
    (hd : ∀ x ∈ dataset, x.length = P.dim) (hne : clusters ≠ []) (hc : ∀ c ∈ clusters, c.length = P.dim) (n : Nat) :
    ∃ fuel r, loop P euclidean dataset none moving fuel 0 clusters n = some (.ok r) := by
  obtain ⟨fuel, r, h⟩ := optimize_ends P hmin hj dataset clusters hd hne hc (1 / 10 ^ 15) (by norm_num) moving moving_needs n
  exact ⟨fuel, r, by rw [loop_euclidean]; exact h⟩

/-- With `maxIterations(m)` alone there are exactly `m + 1` iterations, numbered from 0 to `m`, if none fails. -/
theorem maxIterations_rounds {K : Type} [LinearOrder K] (P : Params) (hj : ∀ k o, (P.jump k o).length = P.dim) (metric : Pt → Pt → K)
    (dataset : List Pt) (hd : ∀ x ∈ dataset, x.length = P.dim) (m : Nat) :
    ∀ (d it : Nat) (clusters : List Pt) (n : Nat), it + d = m → (∀ c ∈ clusters, c.length = P.dim) →
      (∃ cs rep n', loop P metric dataset none (maxIterations m) (d + 1) it clusters n = some (.ok (cs, rep, m, n'))) ∧
      loop P metric dataset none (maxIterations m) d it clusters n = none := by
  intro d
  induction d with
  | zero =>
    intro it clusters n hm hc
    obtain ⟨cs, rep, n', h1, -⟩ := iterate_spec P metric dataset clusters hd hc n
    refine ⟨⟨cs, rep, n', ?_⟩, rfl⟩
    simp only [loop, h1]
    have : maxIterations m it rep dataset.length = false := by simp [maxIterations]; omega
    rw [this]
    simp
    omega
  | succ d ih =>
    intro it clusters n hm hc
    obtain ⟨cs, rep, n', h1, -⟩ := iterate_spec P metric dataset clusters hd hc n
    have hdims := iterate_dims P hj metric dataset clusters cs rep n n' hd hc h1
    obtain ⟨h2, h3⟩ := ih (it + 1) cs n' (by omega) hdims.2.2
    have hcont : maxIterations m it rep dataset.length = true := by simp [maxIterations]; omega
    constructor
    · obtain ⟨cs2, rep2, n2, h4⟩ := h2
      refine ⟨cs2, rep2, n2, ?_⟩
      rw [loop]
      simp only [h1, hcont, if_true]
      exact h4
    · rw [loop]
      simp only [h1, hcont, if_true]
      exact h3

/-- `clusterJumped` continues exactly if no cluster jumped: the opposite of what is written ("stops if no clusters jumped"). -/
theorem clusterJumped_violation (it : Nat) (rep : Report) (size : Nat) :
    clusterJumped it rep size = true ↔ ∀ r ∈ rep, r ≠ none := by
  simp only [clusterJumped, List.all_eq_true]
  constructor
  · intro h r hr; exact Option.isSome_iff_ne_none.1 (h r hr)
  · intro h r hr; exact Option.isSome_iff_ne_none.2 (h r hr)

/-- `moving()` stops after an iteration in which a cluster jumped, however far the others still move. -/
theorem moving_violation (it : Nat) (rep : Report) (size : Nat) (h : none ∈ rep) : moving it rep size = false := by
  rw [← Bool.not_eq_true]
  intro hc
  have h1 := (conditions_spec 0 [clusterJumped, allChange (1 / 10 ^ 15)] it rep size).2.1.1 hc clusterJumped (by simp)
  exact (clusterJumped_violation it rep size).1 h1 none h rfl

/-- Without jumps `moving()` stops exactly if all changes are below its threshold. -/
theorem moving_partial (it : Nat) (rep : Report) (size : Nat) (h : none ∉ rep) :
    moving it rep size = false ↔ ∀ corr c', some (corr, c') ∈ rep → ∀ a ∈ corr, |a| < 1 / 10 ^ 15 := by
  rw [← allChange_spec (1 / 10 ^ 15) it rep size]
  have : clusterJumped it rep size = true := (clusterJumped_violation it rep size).2 fun r hr h1 => h (h1 ▸ hr)
  simp [moving, whileall, this]

/-! ## Examples -/

/-- Parameters for the examples: a jump goes to the first row that is not a center. -/
def pick (rows : List Pt) (dim : Nat) (m : Option Nat) : Params :=
  { dim := dim, minPoints := m, jump := fun _ others => (rows.filter fun p => !others.any (· == p)).headD (List.replicate dim 0) }

def rows1 : List Pt := [[0], [1], [2], [10], [12]]

example : iterate (pick rows1 1 none) dist2 rows1 none [[2], [10]] 0 =
    .ok ([[1], [11]], [some ([-1], [1]), some ([1], [11])], 0) := by decide +kernel

example : loop (pick rows1 1 none) dist2 rows1 none moving 5 0 [[1], [2]] 0 =
    some (.ok ([[1], [11]], [some ([0], [1]), some ([0], [11])], 2, 0)) := by decide +kernel

/-- The hypotheses of `loop_ends` are met. -/
example : ∃ q', Cost rows1 [[1], [11]] q' ∧ q' = 4 := by
  refine ⟨4, ⟨fun x => min (dist2 x [1]) (dist2 x [11]), ?_, ?_⟩, rfl⟩
  · intro x _
    refine ⟨?_, by simp⟩
    rcases min_choice (dist2 x [1]) (dist2 x [11]) with h | h
    · exact ⟨[1], by simp, h.symm⟩
    · exact ⟨[11], by simp, h.symm⟩
  · decide +kernel

/-! ## What goes wrong -/

/-- With weights an iteration is refused unless each of the clusters has exactly one point, or as many points as there are columns. -/
theorem weights_violation (P : Params) (assigned : List (Pt × Nat)) (ws : List ℚ) (done : List Pt) (c : Pt) (rest : List Pt) (n : Nat)
    (h1 : (group assigned done.length).length ≠ 1) (h2 : (group assigned done.length).length ≠ P.dim) :
    move P assigned (some ws) done (c :: rest) n = .error (.py "ValueError") := by
  have hlen : (residuals assigned done.length c).length = (group assigned done.length).length := by simp [residuals, group]
  rw [← hlen] at h1 h2
  have hw : ∀ l, weigh P.dim (residuals assigned done.length c) l = .error (.py "ValueError") := by
    intro l
    unfold weigh
    rw [if_neg h2]
    cases hr : residuals assigned done.length c with
    | nil => rfl
    | cons a r =>
      cases r with
      | nil => rw [hr] at h1; simp at h1
      | cons b r => rfl
  unfold move
  simp only [hw]

/-- Even then the weights are not the weights of the points: with two points in a plane the weight of the first point multiplies the first
coordinate of both and the weight of the second the second coordinate; and all weights zero leave the center where it is, a weight of 3 on
every point moves it beyond all of its points. -/
theorem weights_mean_violation :
    iterate (pick [] 2 none) dist2 [[0, 0], [1, 1]] (some [1, 0]) [[0, 0]] 0 = .ok ([[1 / 2, 0]], [some ([1 / 2, 0], [1 / 2, 0])], 0) ∧
    iterate (pick [] 1 none) dist2 [[1]] (some [3]) [[0]] 0 = .ok ([[3]], [some ([3], [3])], 0) := by
  constructor <;> decide +kernel

/-- A jump goes to a point different from the centers of that moment, but a later cluster may move to the same point in the same iteration:
after it two centers are equal. -/
theorem equal_centers_violation :
    construct true 2 [[0], [1], [2], [100]] none [3, 2] = .ok (some ([[100], [2]], [])) ∧
    randomSubset 2 [[0], [1], [2], [100]] none [0, 1, 2] 3 = .ok ([[0], [1], [2]], none) ∧
    newCluster [[0], [1], [2], [100]] [[2]] [1] = some ([1], []) ∧
    iterate { dim := 1, minPoints := none, jump := fun _ _ => [1] } dist2 [[0], [1], [2]] none [[100], [2]] 0 =
      .ok ([[1], [1]], [none, some ([-1], [1])], 1) := by
  refine ⟨by decide +kernel, by decide +kernel, by decide +kernel, by decide +kernel⟩

/-- `moving()` stops there, although a cluster jumped and the other moved by 1. -/
theorem moving_stops_violation :
    loop { dim := 1, minPoints := none, jump := fun _ _ => [1] } dist2 [[0], [1], [2]] none moving 1 0 [[100], [2]] 0 =
      some (.ok ([[1], [1]], [none, some ([-1], [1])], 0, 1)) := by
  decide +kernel

/-- With `minPointsInCluster` an iteration can raise the cost, wherever the jump goes: the only point of a cluster is its center, to which
it does not return. -/
theorem minPoints_violation : ∀ p ∈ ([[0], [1], [100]] : List Pt), p ∉ ([[1 / 2], [100]] : List Pt) →
    ∃ cs, iterate { dim := 1, minPoints := some 2, jump := fun _ _ => p } dist2 [[0], [1], [100]] none [[1 / 2], [100]] 0 = .ok cs ∧
      ∀ q q', Cost [[0], [1], [100]] [[1 / 2], [100]] q → Cost [[0], [1], [100]] cs.1 q' → q < q' := by
  have hq : ∀ q, Cost [[0], [1], [100]] [[1 / 2], [100]] q → q ≤ 1 / 2 := by
    rintro q ⟨f, hf, rfl⟩
    have h0 := (hf [0] (by simp)).2 [1 / 2] (by simp)
    have h1 := (hf [1] (by simp)).2 [1 / 2] (by simp)
    have h2 := (hf [100] (by simp)).2 [100] (by simp)
    simp only [dist2, List.zipWith_cons_cons, List.zipWith_nil_left, List.sum_cons, List.sum_nil] at h0 h1 h2
    simp only [List.map_cons, List.map_nil, List.sum_cons, List.sum_nil]
    linarith
  have hq' : ∀ p, p = [0] ∨ p = [1] → ∀ q', Cost [[0], [1], [100]] [[1 / 2], p] q' → 9000 ≤ q' := by
    rintro p hp q' ⟨f, hf, rfl⟩
    obtain ⟨⟨c0, -, e0⟩, -⟩ := hf [0] (by simp)
    obtain ⟨⟨c1, -, e1⟩, -⟩ := hf [1] (by simp)
    obtain ⟨⟨c2, hc2, e2⟩, -⟩ := hf [100] (by simp)
    have n0 := dist2_nonneg [0] c0
    have n1 := dist2_nonneg [1] c1
    have n2 : 9000 ≤ dist2 [100] c2 := by
      simp only [List.mem_cons, List.not_mem_nil, or_false] at hc2
      rcases hc2 with rfl | rfl
      · decide +kernel
      · rcases hp with rfl | rfl <;> decide +kernel
    simp only [List.map_cons, List.map_nil, List.sum_cons, List.sum_nil]
    linarith
  intro p hp hn
  simp only [List.mem_cons, List.not_mem_nil, or_false] at hp
  have hp2 : p = [0] ∨ p = [1] := by
    rcases hp with h | h | h
    · exact .inl h
    · exact .inr h
    · subst h; simp at hn
  refine ⟨([[1 / 2], p], [some ([0], [1 / 2]), none], 1), ?_, ?_⟩
  · rcases hp2 with rfl | rfl <;> decide +kernel
  · intro q q' h1 h2
    have := hq q h1
    have := hq' p hp2 q' h2
    linarith

end Verif.Lloyd
