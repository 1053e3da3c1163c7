import Verif.Lloyd.Model
import Mathlib.Data.Finset.Dedup
import Mathlib.Data.Finset.Card
import Mathlib.Data.List.Nodup
/-! # Optimizing clusters: the random points (C88) -/

namespace Verif.Lloyd

/-- What `newCluster` returns is a row, different from all centers it was compared with; all draws before were centers. -/
theorem newCluster_spec {u centers : List Pt} {ns rest : List Nat} {p : Pt} (h : newCluster u centers ns = some (p, rest)) :
    p ∈ u ∧ p ∉ centers ∧ ∃ used n, ns = used ++ n :: rest ∧ u[n]? = some p ∧ ∀ m ∈ used, ∃ q ∈ centers, u[m]? = some q := by
  induction ns with
  | nil => simp [newCluster] at h
  | cons n ns ih =>
    simp only [newCluster] at h
    cases hu : u[n]? with
    | none => rw [hu] at h; cases h
    | some q =>
      rw [hu] at h
      simp only at h
      by_cases hc : centers.any (· == q) = true
      · rw [if_pos hc] at h
        obtain ⟨h1, h2, used, m, rfl, h3, h4⟩ := ih h
        refine ⟨h1, h2, n :: used, m, rfl, h3, ?_⟩
        intro m' hm
        rcases List.mem_cons.1 hm with rfl | hm
        · refine ⟨q, ?_, hu⟩
          simpa using hc
        · exact h4 m' hm
      · rw [if_neg hc] at h
        simp only [Option.some.injEq, Prod.mk.injEq] at h
        obtain ⟨rfl, rfl⟩ := h
        refine ⟨List.mem_of_getElem? hu, ?_, [], n, rfl, hu, by simp⟩
        intro hm
        exact hc (by simpa using hm)

/-- If there are more different rows than centers, some draw ends the loop, whatever was drawn before. -/
theorem newCluster_can {u centers : List Pt} (hu : u.Nodup) (h : centers.length < u.length) :
    ∃ n p, n < u.length ∧ u[n]? = some p ∧ p ∉ centers ∧
      ∀ used rest, (∀ m ∈ used, m < u.length) → ∃ q ns', newCluster u centers (used ++ n :: rest) = some (q, ns') := by
  have : ∃ p ∈ u, p ∉ centers := by
    by_contra hcon
    push Not at hcon
    have h1 : u.toFinset ⊆ centers.toFinset := by
      intro p hp
      rw [List.mem_toFinset] at hp ⊢
      exact hcon p hp
    have h2 := Finset.card_le_card h1
    rw [List.toFinset_card_of_nodup hu] at h2
    have h3 := List.toFinset_card_le centers
    omega
  obtain ⟨p, hp, hc⟩ := this
  obtain ⟨n, hn, rfl⟩ := List.mem_iff_getElem.1 hp
  refine ⟨n, _, hn, List.getElem?_eq_getElem hn, hc, ?_⟩
  intro used rest hused
  induction used with
  | nil =>
    refine ⟨u[n], rest, ?_⟩
    simp only [List.nil_append, newCluster, List.getElem?_eq_getElem hn]
    rw [if_neg]
    simpa using hc
  | cons m used ih =>
    have hm : m < u.length := hused m (by simp)
    simp only [List.cons_append, newCluster, List.getElem?_eq_getElem hm]
    by_cases hx : centers.any (· == u[m]) = true
    · rw [if_pos hx]
      exact ih fun m hm => hused m (by simp [hm])
    · rw [if_neg hx]
      exact ⟨_, _, rfl⟩

theorem initial_spec {u : List Pt} {k : Nat} : ∀ {cs cs' : List Pt} {ns ns' : List Nat}, initial u k cs ns = some (cs', ns') →
    cs.Nodup → (∀ c ∈ cs, c ∈ u) → cs'.length = cs.length + k ∧ cs'.Nodup ∧ ∀ c ∈ cs', c ∈ u := by
  induction k with
  | zero =>
    intro cs cs' ns ns' h h1 h2
    simp only [initial, Option.some.injEq, Prod.mk.injEq] at h
    obtain ⟨rfl, rfl⟩ := h
    exact ⟨rfl, h1, h2⟩
  | succ k ih =>
    intro cs cs' ns ns' h h1 h2
    simp only [initial] at h
    cases hn : newCluster u cs ns with
    | none => rw [hn] at h; cases h
    | some x =>
      obtain ⟨p, ns1⟩ := x
      rw [hn] at h
      obtain ⟨h3, h4, -⟩ := newCluster_spec hn
      obtain ⟨h5, h6, h7⟩ := ih h (by
        rw [List.nodup_append]
        refine ⟨h1, by simp, ?_⟩
        intro a ha b hb hab
        simp only [List.mem_singleton] at hb
        subst hab hb
        exact h4 ha) (by
        intro c hc
        rcases List.mem_append.1 hc with hc | hc
        · exact h2 c hc
        · simp only [List.mem_singleton] at hc
          subst hc
          exact h3)
      refine ⟨?_, h6, h7⟩
      rw [h5]
      simp
      omega

theorem initial_can {u : List Pt} (hu : u.Nodup) {k : Nat} : ∀ (cs : List Pt), cs.length + k ≤ u.length →
    ∃ ns cs', (∀ n ∈ ns, n < u.length) ∧ initial u k cs ns = some (cs', []) := by
  induction k with
  | zero => intro cs _; exact ⟨[], cs, by simp, rfl⟩
  | succ k ih =>
    intro cs h
    obtain ⟨n, p, hn, hp, hc, -⟩ := newCluster_can hu (centers := cs) (by omega)
    obtain ⟨ns, cs', h1, h2⟩ := ih (cs ++ [p]) (by simp; omega)
    refine ⟨n :: ns, cs', ?_, ?_⟩
    · intro m hm
      rcases List.mem_cons.1 hm with rfl | hm
      · exact hn
      · exact h1 m hm
    · simp only [initial, newCluster, hp]
      rw [if_neg (by simpa using hc)]
      exact h2

/-- The constructor: exactly if there are more different rows than clusters (and as many weights as rows) there are centers; they are
different rows of the dataset, as many as asked for. -/
theorem construct_spec (k : Nat) (dataset : List Pt) (weights : Option (List ℚ)) :
    (((∃ w, weights = some w ∧ w.length ≠ dataset.length) ∨ dataset.toFinset.card ≤ k) →
      ∀ ns, construct true k dataset weights ns = .error (.py "TypeError")) ∧
    ((∀ w, weights = some w → w.length = dataset.length) → k < dataset.toFinset.card →
      (∃ ns cs, (∀ n ∈ ns, n < dataset.length) ∧ construct true k dataset weights ns = .ok (some (cs, []))) ∧
      ∀ ns cs rest, construct true k dataset weights ns = .ok (some (cs, rest)) →
        cs.length = k ∧ cs.Nodup ∧ ∀ c ∈ cs, c ∈ dataset) := by
  have hcard : dataset.toFinset.card = dataset.dedup.length := by
    rw [List.card_toFinset]
  constructor
  · rintro (⟨w, rfl, hw⟩ | h) ns
    · unfold construct
      rw [if_pos (by simpa using hw)]
    · unfold construct
      simp only [uniquesOf, if_true]
      rw [if_pos (c := dataset.dedup.length ≤ k) (hcard ▸ h)]
      exact ite_self _
  · intro hw hk
    have e : ∀ ns, construct true k dataset weights ns = .ok (initial dataset.dedup k [] ns) := by
      intro ns
      unfold construct
      rw [if_neg, if_neg]
      · rfl
      · simp only [uniquesOf, if_true]
        omega
      · cases weights with
        | none => simp
        | some w => simp [hw w rfl]
    constructor
    · obtain ⟨ns, cs, h1, h2⟩ := initial_can (List.nodup_dedup dataset) (k := k) [] (by simp; omega)
      refine ⟨ns, cs, ?_, ?_⟩
      · intro n hn
        exact lt_of_lt_of_le (h1 n hn) (List.Sublist.length_le (List.dedup_sublist dataset))
      · rw [e, h2]
    · intro ns cs rest h
      rw [e] at h
      injection h with h
      obtain ⟨h1, h2, h3⟩ := initial_spec h (by simp) (by simp)
      refine ⟨by simpa using h1, h2, ?_⟩
      intro c hc
      exact List.mem_dedup.1 (h3 c hc)

example : construct true 2 [[0, 1], [0, 1], [2, 2], [3, 1]] none [0, 0, 2] = .ok (some ([[0, 1], [3, 1]], [])) := by
  decide +kernel

/-- If `numpy` cannot sort the rows, equal rows are counted several times: the constructor accepts them, and no draws ever end the choice of
the second center. -/
theorem construct_equal_violation :
    ([[1], [1], [1]] : List Pt).toFinset.card = 1 ∧
    ∀ ns, (∀ n ∈ ns, n < 3) → construct false 2 [[1], [1], [1]] none ns = .ok none := by
  refine ⟨by decide +kernel, ?_⟩
  have row : ∀ n < 3, ([[1], [1], [1]] : List Pt)[n]? = some [1] := by
    intro n hn
    rcases n with _ | _ | _ | n <;> first | rfl | omega
  have stuck : ∀ ns, (∀ n ∈ ns, n < 3) → newCluster [[1], [1], [1]] [[1]] ns = none := by
    intro ns
    induction ns with
    | nil => intro _; rfl
    | cons n ns ih =>
      intro h
      simp only [newCluster, row n (h n (by simp))]
      rw [if_pos (by simp)]
      exact ih fun m hm => h m (by simp [hm])
  intro ns h
  unfold construct
  rw [if_neg (by simp), if_neg (by simp [uniquesOf])]
  congr 1
  simp only [uniquesOf, Bool.false_eq_true, if_false]
  cases ns with
  | nil => rfl
  | cons n ns =>
    simp only [initial, newCluster, row n (h n (by simp))]
    rw [if_neg (by simp)]
    simp only [List.nil_append]
    rw [stuck ns fun m hm => h m (by simp [hm])]

/-! ## Subsets -/

/-- `randomSubset`: for a sample of different indexes the rows are rows of the dataset, each with its weight, no row more often than before. -/
theorem randomSubset_spec (k : Nat) (dataset : List Pt) (weights : Option (List ℚ)) (hw : ∀ w, weights = some w → w.length = dataset.length)
    (sample : List Nat) (size : Nat) (hs : sample.length = size) (hn : sample.Nodup) (hr : ∀ i ∈ sample, i < dataset.length) (hk : k < size) :
    ∃ rows ws, randomSubset k dataset weights sample size = .ok (rows, ws) ∧ rows.length = size ∧
      (∀ (j i : Nat), sample[j]? = some i → rows[j]? = dataset[i]? ∧ ∀ w, weights = some w → ∃ l, ws = some l ∧ l[j]? = w[i]?) ∧
      (dataset.Nodup → rows.Nodup) := by
  have hle : size ≤ dataset.length := by
    rw [← hs]
    have := List.Nodup.length_le_card (α := Fin dataset.length) (l := sample.pmap (fun i h => ⟨i, h⟩) hr) (by
      refine List.Nodup.pmap ?_ hn
      intro a ha b hb h
      simpa using h)
    simpa using this
  have hmap : ∀ {α : Type} (l : List α) (sample : List Nat), (∀ i ∈ sample, i < l.length) →
      (sample.filterMap (l[·]?)).length = sample.length ∧
        ∀ (j i : Nat), sample[j]? = some i → (sample.filterMap (l[·]?))[j]? = l[i]? := by
    intro α l sample
    induction sample with
    | nil => intro _; simp
    | cons a s ih =>
      intro h
      obtain ⟨h1, h2⟩ := ih fun i hi => h i (by simp [hi])
      have ha : l[a]? = some (l[a]'(h a (by simp))) := List.getElem?_eq_getElem _
      rw [List.filterMap_cons_some (f := fun i : Nat => l[i]?) ha]
      refine ⟨by simp [h1], ?_⟩
      intro j i hj
      cases j with
      | zero =>
        simp only [List.getElem?_cons_zero, Option.some.injEq] at hj
        subst hj
        simp [ha]
      | succ j =>
        simp only [List.getElem?_cons_succ] at hj ⊢
        exact h2 j i hj
  obtain ⟨h1, h2⟩ := hmap dataset sample hr
  refine ⟨_, _, by unfold randomSubset; rw [if_neg (by omega), if_neg (by omega)], by rw [h1, hs], ?_, ?_⟩
  · intro j i hj
    refine ⟨h2 j i hj, ?_⟩
    rintro w rfl
    refine ⟨_, rfl, (hmap w sample ?_).2 j i hj⟩
    rw [hw w rfl]
    exact hr
  · intro hd
    apply List.Nodup.filterMap _ hn
    intro a b x ha hb
    rw [Option.mem_def] at ha hb
    obtain ⟨h3, h4⟩ := List.getElem?_eq_some_iff.1 ha
    obtain ⟨h5, h6⟩ := List.getElem?_eq_some_iff.1 hb
    exact (List.Nodup.getElem_inj_iff hd).1 (h4.trans h6.symm)

/-- Sizes out of range. -/
theorem randomSubset_errors (k : Nat) (dataset : List Pt) (weights : Option (List ℚ)) (sample : List Nat) (size : Nat) :
    (size ≤ k → randomSubset k dataset weights sample size = .error (.py "TypeError")) ∧
    (k < size → dataset.length < size → randomSubset k dataset weights sample size = .error (.py "ValueError")) := by
  constructor
  · intro h
    exact if_pos h
  · intro h1 h2
    unfold randomSubset
    rw [if_neg (by omega), if_pos h2]

/-- The sizes of `stepup`: the powers of the base above the smallest size and not above the largest. -/
theorem trialSizes_spec (base k rows : Nat) (hb : 1 < base) (minPoints maxPoints : Option Nat) (hmax : maxPoints.getD rows ≠ 0) :
    (trialSizes base k rows minPoints maxPoints).Pairwise (· < ·) ∧
    ∀ s, s ∈ trialSizes base k rows minPoints maxPoints ↔
      (∃ x, s = base ^ x) ∧ k < s ∧ (∀ m, minPoints = some m → m < s) ∧ s ≤ maxPoints.getD rows := by
  constructor
  · apply List.Pairwise.filter
    rw [List.pairwise_map]
    exact List.Pairwise.imp (fun h => Nat.pow_lt_pow_right hb h) List.pairwise_lt_range
  · intro s
    simp only [trialSizes, List.mem_filter, List.mem_map, List.mem_range, decide_eq_true_eq]
    have hm : s > max k (minPoints.getD k) ↔ k < s ∧ ∀ m, minPoints = some m → m < s := by
      cases minPoints with
      | none => simp
      | some m => simp
    rw [hm]
    constructor
    · rintro ⟨⟨x, hx, rfl⟩, h1, h2⟩
      exact ⟨⟨x, rfl⟩, h1, h2, (Nat.le_log_iff_pow_le hb hmax).1 (by omega)⟩
    · rintro ⟨⟨x, rfl⟩, h1, h2, h3⟩
      exact ⟨⟨x, by have := (Nat.le_log_iff_pow_le hb hmax).2 h3; omega, rfl⟩, h1, h2⟩

example : trialSizes 2 3 100 none none = [4, 8, 16, 32, 64] := by decide +kernel

/-- Without `maxPointsForClustering`, or with one that is not larger than the dataset, every subset of `stepup` can be drawn. -/
theorem trialSizes_fit (base k rows : Nat) (hb : 1 < base) (minPoints maxPoints : Option Nat) (hmax : maxPoints.getD rows ≠ 0)
    (hle : ∀ m, maxPoints = some m → m ≤ rows) : ∀ s ∈ trialSizes base k rows minPoints maxPoints, k < s ∧ s ≤ rows := by
  intro s hs
  obtain ⟨-, h1, -, h2⟩ := ((trialSizes_spec base k rows hb minPoints maxPoints hmax).2 s).1 hs
  refine ⟨h1, h2.trans ?_⟩
  cases maxPoints with
  | none => exact le_refl _
  | some m => exact hle m rfl

/-- A larger `maxPointsForClustering` makes `stepup` and `optimize` ask for more rows than there are. -/
theorem trialSizes_violation : 8 ∈ trialSizes 2 1 5 none (some 10) ∧
    randomSubset 1 [[0], [1], [2], [3], [4]] none [] 8 = .error (.py "ValueError") ∧
    randomSubset 1 [[0], [1], [2], [3], [4]] none [] 10 = .error (.py "ValueError") := by
  refine ⟨by decide +kernel, ?_, ?_⟩
  · exact (randomSubset_errors 1 _ none [] 8).2 (by omega) (by simp)
  · exact (randomSubset_errors 1 _ none [] 10).2 (by omega) (by simp)

end Verif.Lloyd
