import Verif.Lloyd.Descend
/-! # Optimizing clusters: the cost goes down and the optimization ends (C88) -/

namespace Verif.Lloyd
open Verif.Near (coord dist2 dist2_coord sum_swap sum_groups Nearest2)

/-- `q` is the sum of the squared distances of the rows to their nearest centers. -/
def Cost (dataset centers : List Pt) (q : ℚ) : Prop :=
  ∃ f : Pt → ℚ, (∀ x ∈ dataset, Nearest2 x centers (f x)) ∧ q = (dataset.map f).sum

theorem dist2_nonneg (x y : Pt) : 0 ≤ dist2 x y := by
  unfold dist2
  apply List.sum_nonneg
  intro z hz
  obtain ⟨a, b, -, -, rfl⟩ : ∃ a b, a ∈ x ∧ b ∈ y ∧ z = (a - b) ^ 2 := by
    obtain ⟨i, hi, rfl⟩ := List.mem_iff_getElem.1 hz
    simp only [List.getElem_zipWith]
    exact ⟨_, _, List.getElem_mem _, List.getElem_mem _, rfl⟩
  exact sq_nonneg _

theorem cost_nonneg {dataset centers : List Pt} {q : ℚ} (h : Cost dataset centers q) : 0 ≤ q := by
  obtain ⟨f, h1, rfl⟩ := h
  apply List.sum_nonneg
  intro z hz
  obtain ⟨x, hx, rfl⟩ := List.mem_map.1 hz
  obtain ⟨c, -, hc⟩ := (h1 x hx).1
  rw [← hc]
  exact dist2_nonneg x c

theorem cost_unique {dataset centers : List Pt} {q q' : ℚ} (h : Cost dataset centers q) (h' : Cost dataset centers q') : q = q' := by
  obtain ⟨f, h1, rfl⟩ := h
  obtain ⟨g, h2, rfl⟩ := h'
  congr 1
  apply List.map_congr_left
  intro x hx
  obtain ⟨⟨c, hc, hcf⟩, hl⟩ := h1 x hx
  obtain ⟨⟨d, hd, hdg⟩, hl'⟩ := h2 x hx
  apply le_antisymm
  · rw [← hdg]; exact hl d hd
  · rw [← hcf]; exact hl' c hc

theorem closest_nearest (clusters : List Pt) (hne : clusters ≠ []) (x : Pt) :
    Nearest2 x clusters (dist2 x (clusters.getD (closest dist2 clusters x) [])) := by
  obtain ⟨c, hc, -, h⟩ := closest_spec dist2 clusters hne x
  rw [List.getD_eq_getElem?_getD, hc]
  exact ⟨⟨c, List.mem_of_getElem? hc, rfl⟩, h⟩

/-- There is a cost. -/
theorem cost_exists (dataset clusters : List Pt) (hne : clusters ≠ []) : ∃ q, Cost dataset clusters q :=
  ⟨_, fun x => dist2 x (clusters.getD (closest dist2 clusters x) []), fun x _ => closest_nearest clusters hne x, rfl⟩

theorem mean_gain (l : List ℚ) (hne : l ≠ []) (c : ℚ) :
    (l.map fun x => (x - l.sum / l.length) ^ 2).sum + l.length * (c - l.sum / l.length) ^ 2 = (l.map fun x => (x - c) ^ 2).sum := by
  have hl : (l.length : ℚ) ≠ 0 := by simpa using hne
  have expand : ∀ c : ℚ, (l.map fun x => (x - c) ^ 2).sum = (l.map fun x => x ^ 2).sum - 2 * c * l.sum + l.length * c ^ 2 := by
    intro c
    clear hne hl
    induction l with
    | nil => simp
    | cons a l ih =>
      simp only [List.map_cons, List.sum_cons, ih, List.length_cons, Nat.cast_add, Nat.cast_one]
      ring
  rw [expand, expand]
  field_simp
  ring

/-- The mean of the rows is nearer to them than any other point: the sum of the squared distances differs by the number of rows times the
squared distance of the point to the mean. -/
theorem group_gain (dim : Nat) (l : List Pt) (hne : l ≠ []) (hl : ∀ v ∈ l, v.length = dim) (c c' : Pt) (hc : c.length = dim)
    (hm : IsMean dim l c') : (l.map (dist2 · c')).sum + l.length * dist2 c c' = (l.map (dist2 · c)).sum := by
  have e : ∀ y : Pt, y.length = dim →
      (l.map (dist2 · y)).sum = ∑ j ∈ Finset.range dim, (l.map fun d => (coord d j - coord y j) ^ 2).sum := by
    intro y hy
    rw [← sum_swap]
    congr 1
    exact List.map_congr_left fun d hd => dist2_coord d y dim (hl d hd) hy
  rw [e c' hm.1, e c hc, dist2_coord c c' dim hc hm.1, Finset.mul_sum, ← Finset.sum_add_distrib]
  apply Finset.sum_congr rfl
  intro j hj
  rw [hm.2 j (Finset.mem_range.1 hj)]
  have := mean_gain (l.map (coord · j)) (by simpa using hne) (coord c j)
  simpa [Function.comp_def] using this

/-- The squared length of the reported correction. -/
def gain : Option (Option (Pt × Pt)) → ℚ
  | some (some (corr, _)) => (corr.map (· ^ 2)).sum
  | _ => 0

theorem norm_coord (p : Pt) (dim : Nat) (h : p.length = dim) : (p.map (· ^ 2)).sum = ∑ j ∈ Finset.range dim, (coord p j) ^ 2 := by
  have := dist2_coord p (List.replicate dim 0) dim h (by simp)
  have e : dist2 p (List.replicate dim 0) = (p.map (· ^ 2)).sum := by
    subst h
    clear this
    unfold dist2
    induction p with
    | nil => rfl
    | cons a p ih => simp [List.replicate_succ, ih]
  rw [← e, this]
  apply Finset.sum_congr rfl
  intro j hj
  have : coord (List.replicate dim (0 : ℚ)) j = 0 := by
    unfold coord
    rw [List.getD_eq_getElem _ _ (by simpa using hj)]
    simp
  rw [this, sub_zero]

/-- An iteration lowers the cost, at least by the squared lengths of the corrections. Jumps of clusters without points do not raise it. -/
theorem iterate_descends (P : Params) (hmin : P.minPoints = none) (dataset clusters cs : List Pt) (rep : Report) (n n' : Nat)
    (hd : ∀ x ∈ dataset, x.length = P.dim) (hc : ∀ c ∈ clusters, c.length = P.dim) (hne : clusters ≠ [])
    (h : iterate P dist2 dataset none clusters n = .ok (cs, rep, n')) (q q' : ℚ) (hq : Cost dataset clusters q) (hq' : Cost dataset cs q') :
    q' + ∑ i ∈ Finset.range clusters.length, gain rep[i]? ≤ q := by
  obtain ⟨cs1, rep1, n1, h1, h2, h3, h4⟩ := iterate_spec P dist2 dataset clusters hd hc n
  rw [h] at h1
  injection h1 with h1
  simp only [Prod.mk.injEq] at h1
  obtain ⟨rfl, rfl, rfl⟩ := h1
  have hlt : ∀ x, closest dist2 clusters x < clusters.length := closest_lt dist2 clusters hne
  have e1 : q = (dataset.map fun x => dist2 x (clusters.getD (closest dist2 clusters x) [])).sum :=
    cost_unique hq ⟨_, fun x _ => closest_nearest clusters hne x, rfl⟩
  have e2 : q' ≤ (dataset.map fun x => dist2 x (cs.getD (closest dist2 clusters x) [])).sum := by
    obtain ⟨f, hf, rfl⟩ := hq'
    apply List.sum_le_sum
    intro x hx
    refine (hf x hx).2 _ ?_
    rw [List.getD_eq_getElem _ _ (by rw [h2]; exact hlt x)]
    exact List.getElem_mem _
  suffices hs : (dataset.map fun x => dist2 x (cs.getD (closest dist2 clusters x) [])).sum +
      ∑ i ∈ Finset.range clusters.length, gain rep[i]? ≤ q by linarith
  rw [e1, sum_groups dataset (closest dist2 clusters) clusters.length (fun x _ => hlt x),
    sum_groups dataset (closest dist2 clusters) clusters.length (fun x _ => hlt x), ← Finset.sum_add_distrib]
  apply Finset.sum_le_sum
  intro i hi
  rw [Finset.mem_range] at hi
  have hg : clusters[i]? = some (clusters.getD i []) := by
    rw [List.getD_eq_getElem _ _ hi, List.getElem?_eq_getElem hi]
  have hfil : ∀ z : List Pt, (dataset.filter (closest dist2 clusters · = i)).map (fun x => dist2 x (z.getD (closest dist2 clusters x) [])) =
      (dataset.filter (closest dist2 clusters · = i)).map (dist2 · (z.getD i [])) := by
    intro z
    apply List.map_congr_left
    intro x hx
    have : closest dist2 clusters x = i := by simpa using (List.mem_filter.1 hx).2
    rw [this]
  rw [hfil cs, hfil clusters]
  rcases h4 i _ hg with ⟨hF, hr, -⟩ | ⟨hF, corr, c', hr, hn, hm, hcl, hco⟩
  · rcases hF with hF | ⟨m, hm, -⟩
    · have : dataset.filter (closest dist2 clusters · = i) = [] := hF
      rw [this, hr]
      simp [gain]
    · rw [hmin] at hm; cases hm
  · have hne' : dataset.filter (closest dist2 clusters · = i) ≠ [] := fun h => hF (.inl h)
    have hcs : cs.getD i [] = c' := by
      rw [List.getD_eq_getElem?_getD, hn]; rfl
    rw [hcs, hr]
    have hlen : (clusters.getD i []).length = P.dim := hc _ (List.mem_of_getElem? hg)
    have hgain := group_gain P.dim _ hne' (fun v hv => hd v (List.mem_filter.1 hv).1) (clusters.getD i []) c' hlen hm
    rw [← hgain]
    apply add_le_add_right
    have hnorm : gain (some (some (corr, c'))) = dist2 (clusters.getD i []) c' := by
      simp only [gain]
      rw [norm_coord corr P.dim hcl, dist2_coord _ _ P.dim hlen hm.1]
      apply Finset.sum_congr rfl
      intro j hj
      rw [hco j (Finset.mem_range.1 hj)]
      ring
    rw [hnorm]
    have hone : (1 : ℚ) ≤ ((dataset.filter (closest dist2 clusters · = i)).length : ℚ) := by
      have : 0 < (dataset.filter (closest dist2 clusters · = i)).length := List.length_pos_of_ne_nil hne'
      exact_mod_cast this
    nlinarith [dist2_nonneg (clusters.getD i []) c']

/-- A condition that continues only if some center has moved by at least `t` in some coordinate. -/
def NeedsChange (t : ℚ) (cond : Cond) : Prop :=
  ∀ it rep size, cond it rep size = true → ∃ corr c', some (corr, c') ∈ rep ∧ ∃ a ∈ corr, t ≤ |a|

theorem gain_nonneg (r : Option (Option (Pt × Pt))) : 0 ≤ gain r := by
  rcases r with _ | _ | ⟨corr, c'⟩
  · exact le_refl _
  · exact le_refl _
  · simp only [gain]
    apply List.sum_nonneg
    intro z hz
    obtain ⟨a, -, rfl⟩ := List.mem_map.1 hz
    exact sq_nonneg a

theorem gain_large {t : ℚ} (ht : 0 < t) {corr c' : Pt} (h : ∃ a ∈ corr, t ≤ |a|) : t ^ 2 ≤ gain (some (some (corr, c'))) := by
  obtain ⟨a, ha, hta⟩ := h
  simp only [gain]
  have h1 : a ^ 2 ≤ (corr.map (· ^ 2)).sum := by
    apply List.single_le_sum
    · intro z hz
      obtain ⟨b, -, rfl⟩ := List.mem_map.1 hz
      exact sq_nonneg b
    · exact List.mem_map.2 ⟨a, ha, rfl⟩
  have h2 : t ^ 2 ≤ a ^ 2 := by
    rw [← sq_abs a]
    exact pow_le_pow_left₀ ht.le hta 2
  exact h2.trans h1

theorem iterate_dims (P : Params) (hj : ∀ k o, (P.jump k o).length = P.dim) {K : Type} [LinearOrder K] (metric : Pt → Pt → K)
    (dataset clusters cs : List Pt) (rep : Report) (n n' : Nat) (hd : ∀ x ∈ dataset, x.length = P.dim) (hc : ∀ c ∈ clusters, c.length = P.dim)
    (h : iterate P metric dataset none clusters n = .ok (cs, rep, n')) :
    cs.length = clusters.length ∧ rep.length = clusters.length ∧ ∀ c ∈ cs, c.length = P.dim := by
  obtain ⟨cs1, rep1, n1, h1, h2, h3, h4⟩ := iterate_spec P metric dataset clusters hd hc n
  rw [h] at h1
  injection h1 with h1
  simp only [Prod.mk.injEq] at h1
  obtain ⟨rfl, rfl, rfl⟩ := h1
  refine ⟨h2, h3, ?_⟩
  intro c hcm
  obtain ⟨i, hi⟩ := List.getElem?_of_mem hcm
  have hlt : i < clusters.length := by
    rw [← h2]
    exact (List.getElem?_eq_some_iff.1 hi).1
  rcases h4 i _ (List.getElem?_eq_getElem hlt) with ⟨-, -, k, hk | ⟨l, r, -, hk⟩⟩ | ⟨-, corr, c', -, hn, hm, -⟩
  · rw [hi] at hk; injection hk with hk; rw [hk]; exact hj _ _
  · rw [hi] at hk; injection hk with hk; rw [hk]; exact hj _ _
  · rw [hi] at hn; injection hn with hn; rw [hn]; exact hm.1

/-- The optimization ends, after at most `q / t² + 1` iterations, for every dataset, all starting centers and whatever the random generator
does; and the cost is not higher than at the start. -/
theorem loop_ends (P : Params) (hmin : P.minPoints = none) (hj : ∀ k o, (P.jump k o).length = P.dim) (dataset : List Pt)
    (hd : ∀ x ∈ dataset, x.length = P.dim) (t : ℚ) (ht : 0 < t) (cond : Cond) (hcond : NeedsChange t cond) (fuel : Nat) :
    ∀ (it : Nat) (clusters : List Pt) (n : Nat) (q : ℚ), clusters ≠ [] → (∀ c ∈ clusters, c.length = P.dim) → Cost dataset clusters q →
      q < fuel * t ^ 2 →
      ∃ cs rep it' n', loop P dist2 dataset none cond fuel it clusters n = some (.ok (cs, rep, it', n')) ∧
        cs.length = clusters.length ∧ it ≤ it' ∧ it' < it + fuel ∧ cond it' rep dataset.length = false ∧
        ∃ q', Cost dataset cs q' ∧ q' ≤ q := by
  induction fuel with
  | zero =>
    intro it clusters n q _ _ hq hlt
    have := cost_nonneg hq
    simp at hlt
    linarith
  | succ fuel ih =>
    intro it clusters n q hne hc hq hlt
    obtain ⟨cs, rep, n', h1, -⟩ := iterate_spec P dist2 dataset clusters hd hc n
    obtain ⟨h2, h3, h4⟩ := iterate_dims P hj dist2 dataset clusters cs rep n n' hd hc h1
    have hcne : cs ≠ [] := by
      intro h
      rw [h] at h2
      exact hne (List.length_eq_zero_iff.1 h2.symm)
    obtain ⟨q', hq'⟩ := cost_exists dataset cs hcne
    have hdes := iterate_descends P hmin dataset clusters cs rep n n' hd hc hne h1 q q' hq hq'
    have hsum : 0 ≤ ∑ i ∈ Finset.range clusters.length, gain rep[i]? := Finset.sum_nonneg fun i _ => gain_nonneg _
    simp only [loop, h1]
    by_cases hcont : cond it rep dataset.length = true
    · rw [if_pos hcont]
      obtain ⟨corr, c', hmem, ha⟩ := hcond it rep _ hcont
      obtain ⟨i, hi⟩ := List.getElem?_of_mem hmem
      have hilt : i < clusters.length := by
        rw [← h3]
        exact (List.getElem?_eq_some_iff.1 hi).1
      have hg : t ^ 2 ≤ ∑ i ∈ Finset.range clusters.length, gain rep[i]? := by
        refine le_trans ?_ (Finset.single_le_sum (f := fun i => gain rep[i]?) (fun j _ => gain_nonneg _) (Finset.mem_range.2 hilt))
        rw [hi]
        exact gain_large ht ha
      obtain ⟨cs2, rep2, it2, n2, h5, h6, h7, h8, h9, q2, h10, h11⟩ := ih (it + 1) cs n' q' hcne h4 hq' (by
        push_cast at hlt
        linarith)
      exact ⟨cs2, rep2, it2, n2, h5, h6.trans h2, by omega, by omega, h9, q2, h10, by linarith⟩
    · rw [if_neg hcont]
      exact ⟨cs, rep, it, n', rfl, h2, le_refl _, by omega, by simpa using hcont, q', hq', by linarith⟩

/-- In particular there is a number of iterations after which it has ended. -/
theorem optimize_ends (P : Params) (hmin : P.minPoints = none) (hj : ∀ k o, (P.jump k o).length = P.dim) (dataset clusters : List Pt)
    (hd : ∀ x ∈ dataset, x.length = P.dim) (hne : clusters ≠ []) (hc : ∀ c ∈ clusters, c.length = P.dim) (t : ℚ) (ht : 0 < t) (cond : Cond)
    (hcond : NeedsChange t cond) (n : Nat) : ∃ fuel r, loop P dist2 dataset none cond fuel 0 clusters n = some (.ok r) := by
  obtain ⟨q, hq⟩ := cost_exists dataset clusters hne
  obtain ⟨fuel, hf⟩ := exists_nat_gt (q / t ^ 2)
  have : q < fuel * t ^ 2 := by
    rwa [div_lt_iff₀ (by positivity)] at hf
  obtain ⟨cs, rep, it, n', h, -⟩ := loop_ends P hmin hj dataset hd t ht cond hcond fuel 0 clusters n q hne hc hq this
  exact ⟨fuel, _, h⟩

/-! ## Settled clusters -/

/-- If an iteration reports no jump and no change, every center is the mean of the rows that are nearest to it, and was before. -/
theorem settled {K : Type} [LinearOrder K] (P : Params) (metric : Pt → Pt → K) (dataset clusters cs : List Pt) (rep : Report) (n n' : Nat)
    (hd : ∀ x ∈ dataset, x.length = P.dim) (hc : ∀ c ∈ clusters, c.length = P.dim)
    (h : iterate P metric dataset none clusters n = .ok (cs, rep, n'))
    (hs : ∀ r ∈ rep, ∃ corr c', r = some (corr, c') ∧ ∀ a ∈ corr, a = 0) :
    cs = clusters ∧ ∀ (i : Nat) (c : Pt), clusters[i]? = some c →
      dataset.filter (fun x => closest metric clusters x = i) ≠ [] ∧
        IsMean P.dim (dataset.filter fun x => closest metric clusters x = i) c := by
  obtain ⟨cs1, rep1, n1, h1, h2, h3, h4⟩ := iterate_spec P metric dataset clusters hd hc n
  rw [h] at h1
  injection h1 with h1
  simp only [Prod.mk.injEq] at h1
  obtain ⟨rfl, rfl, rfl⟩ := h1
  have key : ∀ (i : Nat) (c : Pt), clusters[i]? = some c → cs[i]? = some c ∧
      dataset.filter (fun x => closest metric clusters x = i) ≠ [] ∧
        IsMean P.dim (dataset.filter fun x => closest metric clusters x = i) c := by
    intro i c hi
    rcases h4 i c hi with ⟨-, hr, -⟩ | ⟨hF, corr, c', hr, hn, hm, hcl, hco⟩
    · obtain ⟨_, _, h5, -⟩ := hs _ (List.mem_of_getElem? hr)
      cases h5
    · obtain ⟨corr', c1, h5, h6⟩ := hs _ (List.mem_of_getElem? hr)
      simp only [Option.some.injEq, Prod.mk.injEq] at h5
      obtain ⟨rfl, rfl⟩ := h5
      have hcd := hc c (List.mem_of_getElem? hi)
      have : c' = c := by
        apply List.ext_getElem
        · rw [hm.1, hcd]
        · intro j hj1 hj2
          have hjd : j < P.dim := by rw [← hcd]; exact hj2
          have h7 := hco j hjd
          have h8 : coord corr j = 0 := by
            unfold coord
            rw [List.getD_eq_getElem _ _ (by rw [hcl]; exact hjd)]
            exact h6 _ (List.getElem_mem _)
          rw [h8] at h7
          have h9 : coord c' j = coord c j := by linarith
          unfold coord at h9
          rwa [List.getD_eq_getElem _ _ hj1, List.getD_eq_getElem _ _ hj2] at h9
      subst this
      exact ⟨hn, fun h => hF (.inl h), hm⟩
  refine ⟨?_, fun i c hi => (key i c hi).2⟩
  apply List.ext_getElem?
  intro i
  by_cases hi : i < clusters.length
  · rw [(key i _ (List.getElem?_eq_getElem hi)).1, List.getElem?_eq_getElem hi]
  · rw [List.getElem?_eq_none (by omega), List.getElem?_eq_none (by omega)]

/-! ## The other metric with the same order -/

theorem loop_congr {K L : Type} [LinearOrder K] [LinearOrder L] (P : Params) (m1 : Pt → Pt → K) (m2 : Pt → Pt → L)
    (h : ∀ x c d, m1 x c < m1 x d ↔ m2 x c < m2 x d) (dataset : List Pt) (weights : Option (List ℚ)) (cond : Cond) (fuel it : Nat)
    (clusters : List Pt) (n : Nat) :
    loop P m1 dataset weights cond fuel it clusters n = loop P m2 dataset weights cond fuel it clusters n := by
  induction fuel generalizing it clusters n with
  | zero => rfl
  | succ fuel ih =>
    have : iterate P m1 dataset weights clusters n = iterate P m2 dataset weights clusters n := by
      unfold iterate
      congr 1
      apply List.map_congr_left
      intro x _
      rw [closest_congr m1 m2 clusters x fun c _ d _ => h x c d]
    simp only [loop, this]
    cases iterate P m2 dataset weights clusters n with
    | error e => rfl
    | ok r =>
      obtain ⟨cs, rep, n'⟩ := r
      simp only [ih]

/-- `Euclidean(AbsDiff()).calculate` (74-78). -/
noncomputable def euclidean (x c : Pt) : ℝ := Real.sqrt ((List.zipWith (fun a b => |a - b| ^ 2) x c).sum : ℚ)

/-- The Euclidean metric and its square compare the centers in the same way, so everything above holds for both. -/
theorem loop_euclidean (P : Params) (dataset : List Pt) (weights : Option (List ℚ)) (cond : Cond) (fuel it : Nat) (clusters : List Pt) (n : Nat) :
    loop P euclidean dataset weights cond fuel it clusters n = loop P dist2 dataset weights cond fuel it clusters n := by
  apply loop_congr
  intro x c d
  have e : ∀ y : Pt, (List.zipWith (fun a b => |a - b| ^ 2) x y).sum = dist2 x y := by
    intro y
    unfold dist2
    congr 2
    funext a b
    exact sq_abs _
  unfold euclidean
  rw [e, e, Real.sqrt_lt_sqrt_iff (by exact_mod_cast dist2_nonneg x c)]
  norm_cast

end Verif.Lloyd
