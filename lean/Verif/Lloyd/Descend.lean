import Verif.Lloyd.Random
import Mathlib.Analysis.SpecialFunctions.Pow.Real
import Mathlib.Algebra.Order.Floor.Ring
/-! # Optimizing clusters: what an iteration does, and that the optimization ends (C88) -/

namespace Verif.Lloyd
open Verif.Near (coord dist2 dist2_coord sum_swap sum_groups Nearest2)

/-! ## The nearest center -/

/-- `i` is the first position of the smallest entry. -/
def First {K : Type} [LinearOrder K] (l : List K) (i : Nat) : Prop :=
  ∃ d, l[i]? = some d ∧ (∀ (j : Nat) (e : K), j < i → l[j]? = some e → d < e) ∧ ∀ (j : Nat) (e : K), l[j]? = some e → d ≤ e

theorem first_unique {K : Type} [LinearOrder K] {l : List K} {i j : Nat} (h1 : First l i) (h2 : First l j) : i = j := by
  obtain ⟨d, hd, h3, h4⟩ := h1
  obtain ⟨e, he, h5, h6⟩ := h2
  rcases Nat.lt_trichotomy i j with h | h | h
  · exact absurd (h5 i d h hd) (not_lt.2 (h4 j e he))
  · exact h
  · exact absurd (h3 j e h he) (not_lt.2 (h6 i d hd))

theorem argmin_spec {K : Type} [LinearOrder K] (l : List K) (hne : l ≠ []) : First l (argmin l) := by
  induction l with
  | nil => exact absurd rfl hne
  | cons x xs ih =>
    cases xs with
    | nil =>
      refine ⟨x, rfl, ?_, ?_⟩
      · intro j e hj; simp [argmin] at hj
      · intro j e hj
        cases j with
        | zero => simp at hj; exact hj.le
        | succ j => simp at hj
    | cons y ys =>
      obtain ⟨d, hd, h1, h2⟩ := ih (by simp)
      unfold argmin
      rw [hd]
      simp only
      by_cases hlt : d < x
      · rw [if_pos hlt]
        refine ⟨d, by simpa using hd, ?_, ?_⟩
        · intro j e hj he
          cases j with
          | zero => simp at he; subst he; exact hlt
          | succ j => exact h1 j e (by omega) (by simpa using he)
        · intro j e he
          cases j with
          | zero => simp at he; subst he; exact hlt.le
          | succ j => exact h2 j e (by simpa using he)
      · rw [if_neg hlt]
        refine ⟨x, rfl, by simp, ?_⟩
        intro j e he
        cases j with
        | zero => simp at he; exact he.le
        | succ j => exact (not_lt.1 hlt).trans (h2 j e (by simpa using he))

/-- `closestCluster`: the first of the centers at the smallest distance. -/
theorem closest_spec {K : Type} [LinearOrder K] (metric : Pt → Pt → K) (clusters : List Pt) (hne : clusters ≠ []) (x : Pt) :
    ∃ c, clusters[closest metric clusters x]? = some c ∧
      (∀ (j : Nat) (d : Pt), j < closest metric clusters x → clusters[j]? = some d → metric x c < metric x d) ∧
      ∀ d ∈ clusters, metric x c ≤ metric x d := by
  obtain ⟨d, hd, h1, h2⟩ := argmin_spec (clusters.map (metric x)) (by simpa using hne)
  rw [List.getElem?_map, Option.map_eq_some_iff] at hd
  obtain ⟨c, hc, rfl⟩ := hd
  refine ⟨c, hc, ?_, ?_⟩
  · intro j e hj he
    exact h1 j _ hj (by rw [List.getElem?_map, he]; rfl)
  · intro e he
    obtain ⟨j, hj⟩ := List.getElem?_of_mem he
    exact h2 j _ (by rw [List.getElem?_map, hj]; rfl)

theorem closest_lt {K : Type} [LinearOrder K] (metric : Pt → Pt → K) (clusters : List Pt) (hne : clusters ≠ []) (x : Pt) :
    closest metric clusters x < clusters.length := by
  obtain ⟨c, hc, -⟩ := closest_spec metric clusters hne x
  exact (List.getElem?_eq_some_iff.1 hc).1

/-- Two metrics that compare the centers in the same way find the same center. -/
theorem closest_congr {K L : Type} [LinearOrder K] [LinearOrder L] (m1 : Pt → Pt → K) (m2 : Pt → Pt → L) (clusters : List Pt) (x : Pt)
    (h : ∀ c ∈ clusters, ∀ d ∈ clusters, m1 x c < m1 x d ↔ m2 x c < m2 x d) : closest m1 clusters x = closest m2 clusters x := by
  by_cases hne : clusters = []
  · subst hne; rfl
  · apply first_unique (argmin_spec (clusters.map (m1 x)) (by simpa using hne))
    obtain ⟨d, hd, h1, h2⟩ := argmin_spec (clusters.map (m2 x)) (by simpa using hne)
    change (clusters.map (m2 x))[closest m2 clusters x]? = some d at hd
    rw [List.getElem?_map, Option.map_eq_some_iff] at hd
    obtain ⟨c, hc, rfl⟩ := hd
    refine ⟨m1 x c, by change (clusters.map (m1 x))[closest m2 clusters x]? = _; rw [List.getElem?_map, hc]; rfl, ?_, ?_⟩
    · intro j e hj he
      rw [List.getElem?_map, Option.map_eq_some_iff] at he
      obtain ⟨d, hd, rfl⟩ := he
      exact (h c (List.mem_of_getElem? hc) d (List.mem_of_getElem? hd)).2 (h1 j _ hj (by rw [List.getElem?_map, hd]; rfl))
    · intro j e he
      rw [List.getElem?_map, Option.map_eq_some_iff] at he
      obtain ⟨d, hd, rfl⟩ := he
      by_contra hcon
      have := (h d (List.mem_of_getElem? hd) c (List.mem_of_getElem? hc)).1 (not_le.1 hcon)
      exact absurd this (not_lt.2 (h2 j _ (by rw [List.getElem?_map, hd]; rfl)))

/-! ## The loop over the clusters -/

theorem coord_zip (f : ℚ → ℚ → ℚ) (a b : Pt) (dim j : Nat) (ha : a.length = dim) (hb : b.length = dim) (hj : j < dim) :
    coord (List.zipWith f a b) j = f (coord a j) (coord b j) := by
  have h1 : j < (List.zipWith f a b).length := by simp; omega
  unfold coord
  rw [List.getD_eq_getElem _ _ h1, List.getD_eq_getElem _ _ (by omega), List.getD_eq_getElem _ _ (by omega)]
  simp

/-- The rows of a group. -/
def group (assigned : List (Pt × Nat)) (i : Nat) : List Pt := (assigned.filter (·.2 = i)).map Prod.fst

/-- `c'` is the mean of the rows. -/
def IsMean (dim : Nat) (rows : List Pt) (c' : Pt) : Prop := c'.length = dim ∧ ∀ j < dim, coord c' j = (rows.map (coord · j)).sum / rows.length

/-- Too few points. -/
def Few (P : Params) (rows : List Pt) : Prop := rows = [] ∨ ∃ m, P.minPoints = some m ∧ rows.length < m

/-- What happens to cluster `i` with the center `c`: either it has too few points, is reported as `None` and goes to a point that
`newCluster` found different from the other centers of that moment; or it goes to the mean of its points, and the difference is reported. -/
def Moved (P : Params) (rows : List Pt) (c : Pt) (others : List Pt) (rep : Option (Option (Pt × Pt))) (new : Option Pt) : Prop :=
  (Few P rows ∧ rep = some none ∧ ∃ k, new = some (P.jump k others) ∨ ∃ l r, others = l ++ r ∧ new = some (P.jump k (l ++ c :: r))) ∨
  (¬Few P rows ∧ ∃ corr c', rep = some (some (corr, c')) ∧ new = some c' ∧ IsMean P.dim rows c' ∧ corr.length = P.dim ∧
    ∀ j < P.dim, coord corr j = coord c' j - coord c j)

theorem residuals_mean (dim : Nat) (assigned : List (Pt × Nat)) (ha : ∀ p ∈ assigned, p.1.length = dim) (i : Nat) (c : Pt) (hc : c.length = dim)
    (hne : group assigned i ≠ []) :
    ∃ corr, meanRows dim (residuals assigned i c) = some corr ∧ corr.length = dim ∧
      IsMean dim (group assigned i) (List.zipWith (· + ·) c corr) ∧
      ∀ j < dim, coord corr j = coord (List.zipWith (· + ·) c corr) j - coord c j := by
  have hlen : (residuals assigned i c).length = (group assigned i).length := by simp [residuals, group]
  have hne' : (residuals assigned i c).length ≠ 0 := by
    rw [hlen]
    simpa using hne
  refine ⟨_, if_neg hne', by simp, ⟨by simp [hc], ?_⟩, ?_⟩
  · intro j hj
    rw [coord_zip _ _ _ dim j hc (by simp) hj]
    have hr : coord ((List.range dim).map fun j => ((residuals assigned i c).map (coord · j)).sum / ((residuals assigned i c).length : ℚ)) j =
        ((residuals assigned i c).map (coord · j)).sum / (residuals assigned i c).length := by
      unfold coord
      rw [List.getD_eq_getElem _ _ (by simpa using hj)]
      simp
    rw [hr, hlen]
    have hs : ((residuals assigned i c).map (coord · j)).sum = ((group assigned i).map (coord · j)).sum - (group assigned i).length * coord c j := by
      unfold residuals group
      have : ∀ l : List (Pt × Nat), (∀ p ∈ l, p.1.length = dim) →
          ((l.map fun p => List.zipWith (· - ·) p.1 c).map (coord · j)).sum =
            ((l.map Prod.fst).map (coord · j)).sum - (l.map Prod.fst).length * coord c j := by
        intro l
        induction l with
        | nil => intro _; simp
        | cons p l ih =>
          intro h
          simp only [List.map_cons, List.sum_cons, List.length_cons, Nat.cast_add, Nat.cast_one]
          rw [ih fun q hq => h q (by simp [hq]), coord_zip _ _ _ dim j (h p (by simp)) hc hj]
          ring
      exact this _ fun p hp => ha p (List.mem_filter.1 hp).1
    rw [hs]
    have : ((group assigned i).length : ℚ) ≠ 0 := by simpa using hne
    field_simp
    ring
  · intro j hj
    rw [coord_zip _ _ _ dim j hc (by simp) hj]
    ring

theorem move_spec (P : Params) (assigned : List (Pt × Nat)) (ha : ∀ p ∈ assigned, p.1.length = P.dim) (rest : List Pt) :
    ∀ (done : List Pt) (n : Nat), (∀ c ∈ rest, c.length = P.dim) →
    ∃ new rep n', move P assigned none done rest n = .ok (done ++ new, rep, n') ∧ new.length = rest.length ∧ rep.length = rest.length ∧
      ∀ (i : Nat) (c : Pt), rest[i]? = some c →
        Moved P (group assigned (done.length + i)) c (done ++ new.take i ++ rest.drop (i + 1)) rep[i]? new[i]? := by
  induction rest with
  | nil => intro done n _; exact ⟨[], [], n, by simp [move], rfl, rfl, by simp⟩
  | cons c rest ih =>
    intro done n hr
    have hc := hr c (by simp)
    have hr' : ∀ c ∈ rest, c.length = P.dim := fun d hd => hr d (by simp [hd])
    have hlen : (residuals assigned done.length c).length = (group assigned done.length).length := by simp [residuals, group]
    -- the rest, once the new center is known
    have build : ∀ (c' : Pt) (r : Option (Pt × Pt)) (m : Nat) (others : List Pt), others = done ++ rest →
        Moved P (group assigned done.length) c others (some r) (some c') →
        ∃ new rep n', (∀ X : Res (List Pt × Report × Nat), X = move P assigned none (done ++ [c']) rest m →
          (match X with | .error e => .error e | .ok (cs, out, n') => .ok (cs, r :: out, n')) = (.ok (done ++ new, rep, n') : Res _)) ∧
          new.length = (c :: rest).length ∧ rep.length = (c :: rest).length ∧
          ∀ (i : Nat) (d : Pt), (c :: rest)[i]? = some d →
            Moved P (group assigned (done.length + i)) d (done ++ new.take i ++ (c :: rest).drop (i + 1)) rep[i]? new[i]? := by
      intro c' r m others ho hm
      obtain ⟨new, rep, n', h1, h2, h3, h4⟩ := ih (done ++ [c']) m hr'
      refine ⟨c' :: new, r :: rep, n', ?_, by simp [h2], by simp [h3], ?_⟩
      · intro X hX
        rw [hX, h1]
        simp
      · intro i d hi
        cases i with
        | zero =>
          simp only [List.getElem?_cons_zero, Option.some.injEq] at hi
          subst hi
          simp only [Nat.add_zero, List.take_zero, List.append_nil, List.drop_succ_cons, List.drop_zero, List.getElem?_cons_zero]
          rw [← ho]
          exact hm
        | succ i =>
          simp only [List.getElem?_cons_succ] at hi
          have := h4 i d hi
          rw [show (done ++ [c']).length + i = done.length + (i + 1) by simp; omega] at this
          simpa using this
    by_cases hfew : P.few (residuals assigned done.length c).length = true
    · have hF : Few P (group assigned done.length) := by
        right
        cases hm : P.minPoints with
        | none => simp [Params.few, hm] at hfew
        | some m =>
          simp only [Params.few, hm] at hfew
          refine ⟨m, rfl, ?_⟩
          rw [← hlen]
          simpa using hfew
      obtain ⟨new, rep, n', h1, h2⟩ := build (P.jump n (done ++ c :: rest)) none (n + 1) (done ++ rest) rfl
        (.inl ⟨hF, rfl, n, .inr ⟨done, rest, rfl, rfl⟩⟩)
      refine ⟨new, rep, n', ?_, h2⟩
      rw [← h1 _ rfl]
      conv_lhs => unfold move
      simp only
      rw [if_pos hfew]
      cases move P assigned none (done ++ [P.jump n (done ++ c :: rest)]) rest (n + 1) <;> rfl
    · by_cases hg : group assigned done.length = []
      · have hmean : meanRows P.dim (residuals assigned done.length c) = none := by
          unfold meanRows
          rw [if_pos (by rw [hlen, hg]; rfl)]
        obtain ⟨new, rep, n', h1, h2⟩ := build (P.jump n (done ++ rest)) none (n + 1) (done ++ rest) rfl
          (.inl ⟨.inl hg, rfl, n, .inl rfl⟩)
        refine ⟨new, rep, n', ?_, h2⟩
        rw [← h1 _ rfl]
        conv_lhs => unfold move
        simp only
        rw [if_neg hfew, hmean]
        simp only
        cases move P assigned none (done ++ [P.jump n (done ++ rest)]) rest (n + 1) <;> rfl
      · obtain ⟨corr, h5, h6, h7, h8⟩ := residuals_mean P.dim assigned ha done.length c hc hg
        have hF : ¬Few P (group assigned done.length) := by
          rintro (h | ⟨m, hm, hlt⟩)
          · exact hg h
          · rw [← hlen] at hlt
            simp [Params.few, hm, hlt] at hfew
        obtain ⟨new, rep, n', h1, h2⟩ := build (List.zipWith (· + ·) c corr) (some (corr, List.zipWith (· + ·) c corr)) n (done ++ rest) rfl
          (.inr ⟨hF, corr, _, rfl, rfl, h7, h6, h8⟩)
        refine ⟨new, rep, n', ?_, h2⟩
        rw [← h1 _ rfl]
        conv_lhs => unfold move
        simp only
        rw [if_neg hfew, h5]
        simp only
        cases move P assigned none (done ++ [List.zipWith (· + ·) c corr]) rest n <;> rfl

/-- The rows for which cluster `i` is the closest. -/
def nearRows {K : Type} [LinearOrder K] (metric : Pt → Pt → K) (dataset clusters : List Pt) (i : Nat) : List Pt :=
  dataset.filter fun x => closest metric clusters x = i

theorem group_near {K : Type} [LinearOrder K] (metric : Pt → Pt → K) (dataset clusters : List Pt) (i : Nat) :
    group (dataset.map fun x => (x, closest metric clusters x)) i = nearRows metric dataset clusters i := by
  unfold group nearRows
  rw [List.filter_map, List.map_map]
  simp [Function.comp_def]

/-- `iterate` without weights never fails, and treats every cluster as `Moved` says, with the rows for which it was the closest. -/
theorem iterate_spec {K : Type} [LinearOrder K] (P : Params) (metric : Pt → Pt → K) (dataset clusters : List Pt)
    (hd : ∀ x ∈ dataset, x.length = P.dim) (hc : ∀ c ∈ clusters, c.length = P.dim) (n : Nat) :
    ∃ cs rep n', iterate P metric dataset none clusters n = .ok (cs, rep, n') ∧ cs.length = clusters.length ∧ rep.length = clusters.length ∧
      ∀ (i : Nat) (c : Pt), clusters[i]? = some c →
        Moved P (nearRows metric dataset clusters i) c (cs.take i ++ clusters.drop (i + 1)) rep[i]? cs[i]? := by
  obtain ⟨new, rep, n', h1, h2, h3, h4⟩ := move_spec P (dataset.map fun x => (x, closest metric clusters x)) (by
    intro p hp
    obtain ⟨x, hx, rfl⟩ := List.mem_map.1 hp
    exact hd x hx) clusters [] n hc
  refine ⟨new, rep, n', h1, h2, h3, ?_⟩
  intro i c hi
  have := h4 i c hi
  rw [group_near] at this
  simpa using this

end Verif.Lloyd
