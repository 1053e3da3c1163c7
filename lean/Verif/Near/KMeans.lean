import Verif.Near.Cluster
import Mathlib.Algebra.BigOperators.Group.Finset.Basic
import Mathlib.Algebra.BigOperators.Ring.Finset
import Mathlib.Algebra.Order.BigOperators.Group.Finset
import Mathlib.Data.List.GetD
import Mathlib.Tactic.Linarith
import Mathlib.Tactic.FieldSimp
import Mathlib.Tactic.Ring
/-! # One round of k-means, means of points, seeds (theorems for the second half of `Near/Cluster.lean`) -/

namespace Verif.Near
open Verif.Stat (Num dbl)
open Verif.Lib (Eff Chain)

variable {σ B C D : Type}

/-! ## Which cluster -/

/-- `i` is the first position of the smallest entry. -/
def FirstIndex (ds : List Num) (i : Nat) : Prop :=
  ∃ d, ds[i]? = some d ∧ (∀ j < i, ∀ e, ds[j]? = some e → Num.lt d e = true) ∧
    (∀ j, i < j → ∀ e, ds[j]? = some e → Num.lt e d = false)

theorem firstIndex_unique {ds : List Num} {i j : Nat} (h1 : FirstIndex ds i) (h2 : FirstIndex ds j) : i = j := by
  obtain ⟨d, hd, h3, h4⟩ := h1
  obtain ⟨e, he, h5, h6⟩ := h2
  rcases Nat.lt_trichotomy i j with h | h | h
  · have := h4 j h e he
    rw [h5 i h d hd] at this; cases this
  · exact h
  · have := h6 i h d hd
    rw [h3 j h e he] at this; cases this

theorem getElem?_split {A : Type} (l : List A) (x : A) (r : List A) (j : Nat) (e : A) (h : (l ++ x :: r)[j]? = some e) :
    (j < l.length ∧ l[j]? = some e) ∨ (j = l.length ∧ e = x) ∨ (l.length < j ∧ e ∈ r) := by
  rcases Nat.lt_trichotomy j l.length with hj | hj | hj
  · left
    rw [List.getElem?_append_left hj] at h
    exact ⟨hj, h⟩
  · right; left
    subst hj
    simp at h
    exact ⟨rfl, h.symm⟩
  · right; right
    rw [List.getElem?_append_right (by omega)] at h
    refine ⟨hj, ?_⟩
    obtain ⟨k, hk⟩ : ∃ k, j - l.length = k + 1 := ⟨j - l.length - 1, by omega⟩
    rw [hk, List.getElem?_cons_succ] at h
    exact List.mem_of_getElem? h

/-- The loop over the clusters finds the first nearest one, if no distance is nan. -/
theorem besti_spec (metric : D → B → Eff σ Num) (centers : List B) (hne : centers ≠ []) (datum : D) (s s' : σ)
    (tr : List (B × Num)) (h1 : tr.map Prod.fst = centers) (h2 : Chain (metric datum) s tr s') (hn : ∀ p ∈ tr, p.2 ≠ .nan) :
    ∃ i, FirstIndex (tr.map Prod.snd) i ∧ besti metric centers datum s = (.ok i, s') := by
  have hen : ∀ z ∈ ((tr.map Prod.snd).zipIdx.map fun p => (p.2, p.1) : List (Nat × Num)), z.2 ≠ .nan := by
    intro z hz
    obtain ⟨p, hp, rfl⟩ := List.mem_map.1 hz
    have := List.fst_mem_of_mem_zipIdx hp
    obtain ⟨q, hq, hq2⟩ := List.mem_map.1 this
    simp only
    rw [← hq2]
    exact hn q hq
  have hget : ∀ j : Nat, ((tr.map Prod.snd).zipIdx.map fun p => (p.2, p.1) : List (Nat × Num))[j]? =
      (tr.map Prod.snd)[j]?.map fun d => (j, d) := by
    intro j
    rw [List.getElem?_map, List.getElem?_zipIdx, Option.map_map]
    simp [Function.comp_def]
  generalize hl : ((tr.map Prod.snd).zipIdx.map fun p => (p.2, p.1) : List (Nat × Num)) = l at *
  rcases pick_spec (fun _ => true) Prod.snd l (fun z hz _ => hen z hz) with ⟨h, _⟩ | ⟨p, ⟨pre, post, e, -, h3, h4⟩, h5⟩
  · exfalso
    have : l = [] := by
      cases l with
      | nil => rfl
      | cons a l => exact absurd (h a (by simp)) (by simp)
    rw [this] at hl
    have h6 := congrArg List.length hl
    simp at h6
    rw [← h1, h6] at hne
    exact hne rfl
  · have hp : p.1 = pre.length := by
      have := hget pre.length
      rw [e] at this
      simp only [List.getElem?_append_right (le_refl _), Nat.sub_self, List.getElem?_cons_zero] at this
      cases hx : (tr.map Prod.snd)[pre.length]? with
      | none => rw [hx] at this; simp at this
      | some d => rw [hx] at this; simp at this; rw [this]
    refine ⟨pre.length, ⟨p.2, ?_, ?_, ?_⟩, ?_⟩
    · have := hget pre.length
      rw [e] at this
      simp only [List.getElem?_append_right (le_refl _), Nat.sub_self, List.getElem?_cons_zero] at this
      cases hx : (tr.map Prod.snd)[pre.length]? with
      | none => rw [hx] at this; simp at this
      | some d => rw [hx] at this; simp at this; rw [this]
    · intro j hj d hd
      have := hget j
      rw [hd, e] at this
      rcases getElem?_split pre p post j _ this with ⟨_, h⟩ | ⟨h, _⟩ | ⟨h, _⟩
      · exact h3 _ (List.mem_of_getElem? h) rfl
      · omega
      · omega
    · intro j hj d hd
      have := hget j
      rw [hd, e] at this
      rcases getElem?_split pre p post j _ this with ⟨h, _⟩ | ⟨h, _⟩ | ⟨_, h⟩
      · omega
      · omega
      · exact h4 _ h rfl
    · unfold besti
      rw [(callAll_chain (metric datum) centers s s' tr).2 ⟨h1, h2⟩]
      simp only
      rw [hl, h5]
      simp only [hp]

/-! ## The round -/

/-- The calls of `update`: one for each cluster with data, in order. -/
theorem updates_pure (u : List D → C → C) (asg : List (D × Nat)) (i : Nat) (cs : List C) (s : σ) :
    ∃ out, updates (fun m c => Lib.ret (u m c)) asg i cs s = (.ok out, s) ∧ out.length = cs.length ∧
      ∀ j c, cs[j]? = some c → out[j]? = some (if (asg.filter (·.2 = i + j)).map Prod.fst = [] then c
        else u ((asg.filter (·.2 = i + j)).map Prod.fst) c) := by
  induction cs generalizing i with
  | nil => exact ⟨[], rfl, rfl, by simp⟩
  | cons c cs ih =>
    obtain ⟨out, h1, h2, h3⟩ := ih (i + 1)
    refine ⟨(if (asg.filter (·.2 = i)).map Prod.fst = [] then c else u ((asg.filter (·.2 = i)).map Prod.fst) c) :: out,
      ?_, by simp [h2], ?_⟩
    · simp only [updates]
      by_cases hm : (asg.filter (·.2 = i)).map Prod.fst = []
      · rw [if_pos (by rw [hm]; rfl), if_pos hm]
        simp only
        rw [h1]
      · rw [if_neg (by rw [List.length_eq_zero_iff]; exact hm), if_neg hm]
        simp only [Lib.ret]
        rw [h1]
    · intro j d hj
      cases j with
      | zero => simp at hj; subst hj; simp
      | succ j =>
        simp only [List.getElem?_cons_succ] at hj ⊢
        rw [h3 j d hj]
        have : i + 1 + j = i + (j + 1) := by omega
        rw [this]

/-- `model.cluster.kmeansIteration`: every datum is given to its first nearest cluster (`near`); clusters without data remain,
the others are updated with their data, in the order of the data. -/
theorem kmeansIteration_spec (center : C → B) (m : D → B → Num) (u : List D → C → C) (data : List D) (clusters : List C)
    (hd : data ≠ []) (hc : clusters ≠ []) (near : D → Nat)
    (hnan : ∀ d ∈ data, ∀ c ∈ clusters, m d (center c) ≠ .nan)
    (hnear : ∀ d ∈ data, FirstIndex (clusters.map fun c => m d (center c)) (near d)) (s : σ) :
    ∃ out, kmeansIteration center (fun d b => Lib.ret (m d b)) (fun x c => Lib.ret (u x c)) data clusters s = (.ok out, s) ∧
      out.length = clusters.length ∧
      ∀ i c, clusters[i]? = some c →
        out[i]? = some (if data.filter (near · = i) = [] then c else u (data.filter (near · = i)) c) := by
  have hb : ∀ d ∈ data, ∀ s : σ, besti (fun d b => Lib.ret (m d b)) (clusters.map center) d s = (.ok (near d), s) := by
    intro d hd s
    obtain ⟨i, h1, h2⟩ := besti_spec (σ := σ) (fun d b => Lib.ret (m d b)) (clusters.map center) (by simpa using hc) d s s
      ((clusters.map center).map fun b => (b, m d b)) (by simp [Function.comp_def]) (Lib.chain_pure _ _ s) (by
        intro p hp
        simp only [List.map_map, List.mem_map] at hp
        obtain ⟨c, hc, rfl⟩ := hp
        exact hnan d hd c hc)
    rw [h2]
    rw [firstIndex_unique h1 (j := near d) (by
      have := hnear d hd
      rw [List.map_map, List.map_map]
      exact this)]
  have hall : callAll (besti (fun d b => Lib.ret (m d b)) (clusters.map center)) data s =
      (.ok (data.map fun d => (d, near d)), s) := by
    clear hnan hnear hd
    induction data with
    | nil => rfl
    | cons d ds ih =>
      simp only [callAll]
      rw [hb d (by simp)]
      simp only
      rw [ih fun d' h' => hb d' (by simp [h'])]
      rfl
  obtain ⟨out, h1, h2, h3⟩ := updates_pure (σ := σ) u (data.map fun d => (d, near d)) 0 clusters s
  refine ⟨out, ?_, h2, ?_⟩
  · unfold kmeansIteration
    rw [if_neg (by rw [List.length_eq_zero_iff]; exact hd), if_neg (by rw [List.length_eq_zero_iff]; exact hc), hall]
    exact h1
  · intro i c hi
    rw [h3 i c hi]
    have : (((data.map fun d => (d, near d)).filter fun x => decide (x.2 = 0 + i)).map Prod.fst) =
        data.filter fun d => decide (near d = i) := by
      rw [List.filter_map, List.map_map]
      simp [Function.comp_def]
    rw [this]

/-- There is a first nearest cluster. -/
theorem firstIndex_exists (ds : List Num) (hne : ds ≠ []) (hn : ∀ d ∈ ds, d ≠ .nan) : ∃ i, FirstIndex ds i := by
  obtain ⟨i, h, _⟩ := besti_spec (σ := Unit) (D := Unit) (fun _ b => Lib.ret b) ds hne () () ()
    (ds.map fun b => (b, b)) (by simp [Function.comp_def]) (Lib.chain_pure _ _ ()) (by
      intro p hp
      obtain ⟨d, hd, rfl⟩ := List.mem_map.1 hp
      exact hn d hd)
  refine ⟨i, ?_⟩
  simpa [Function.comp_def] using h

/-- No data or no clusters. -/
theorem kmeansIteration_errors (center : C → B) (metric : D → B → Eff σ Num) (update : List D → C → Eff σ C) (data : List D)
    (clusters : List C) (s : σ) :
    kmeansIteration center metric update [] clusters s = (.error (.rt 29030), s) ∧
      (data ≠ [] → kmeansIteration center metric update data [] s = (.error (.rt 29031), s)) := by
  refine ⟨rfl, fun h => ?_⟩
  unfold kmeansIteration
  rw [if_neg (by rw [List.length_eq_zero_iff]; exact h)]
  rfl

/-! ## Means -/

/-- Coordinate `j` of a point. -/
def coord (v : List ℚ) (j : Nat) : ℚ := v.getD j 0

theorem addVecs_fin (dim : Nat) (vs : List (List ℚ)) (acc : List ℚ) (ha : acc.length = dim) (hv : ∀ v ∈ vs, v.length = dim) :
    ∃ out : List ℚ, addVecs .fin dim (acc.map .fin) (vs.map (List.map .fin)) = .ok (out.map .fin) ∧ out.length = dim ∧
      ∀ j < dim, coord out j = coord acc j + (vs.map (coord · j)).sum := by
  induction vs generalizing acc with
  | nil => exact ⟨acc, rfl, ha, by simp⟩
  | cons v vs ih =>
    have hl : (List.zipWith (· + ·) acc v).length = dim := by simp [ha, hv v (by simp)]
    obtain ⟨out, h1, h2, h3⟩ := ih (List.zipWith (· + ·) acc v) hl fun w hw => hv w (by simp [hw])
    refine ⟨out, ?_, h2, ?_⟩
    · simp only [List.map_cons, addVecs, List.length_map]
      rw [if_neg (by rw [hv v (by simp)]; simp), ← h1]
      congr 1
      rw [List.zipWith_map, List.map_zipWith]
      rfl
    · intro j hj
      rw [h3 j hj]
      have e : coord (List.zipWith (· + ·) acc v) j = coord acc j + coord v j := by
        unfold coord
        rw [List.getD_eq_getElem _ _ (by rw [hl]; exact hj), List.getD_eq_getElem _ _ (by rw [ha]; exact hj),
          List.getD_eq_getElem _ _ (by rw [hv v (by simp)]; exact hj), List.getElem_zipWith]
      rw [e, List.map_cons, List.sum_cons]
      ring

/-- `model.cluster.updateMean` in exact arithmetic: the weighted mean of the data and the old center. -/
theorem updateMean_spec (data : List (List ℚ)) (center : List ℚ) (w : ℚ) (hne : data ≠ [])
    (hd : ∀ v ∈ data, v.length = center.length) (hw : (data.length : ℚ) + w ≠ 0) :
    ∃ out : List ℚ, updateMean .fin (data.map (List.map .fin)) (center.map .fin) (.fin w) = .ok (out.map .fin) ∧
      out.length = center.length ∧
      ∀ j < center.length, coord out j = ((data.map (coord · j)).sum + w * coord center j) / (data.length + w) := by
  cases data with
  | nil => exact absurd rfl hne
  | cons v vs =>
    have hv := hd v (by simp)
    obtain ⟨summ, h1, h2, h3⟩ := addVecs_fin v.length (v :: vs) (List.replicate v.length 0) (by simp)
      (fun u hu => (hd u hu).trans hv.symm)
    refine ⟨(List.zipWith (fun a b => a + w * b) summ center).map (· / ((v :: vs).length + w)), ?_, ?_, ?_⟩
    · simp only [List.map_cons, updateMean, List.length_map]
      rw [List.map_replicate, List.map_cons] at h1
      rw [h1]
      simp only [bind, Except.bind]
      rw [if_neg (by rw [hv]; simp)]
      congr 1
      rw [List.zipWith_map, List.map_zipWith, List.map_map, List.map_zipWith]
      congr 1
      funext a b
      simp only [Num.mul_fin, Num.add_fin, Function.comp_def, List.length_cons, List.length_map]
      simp only [List.length_cons] at hw
      simp only [Num.div]
      rw [if_neg hw]
    · simp [h2, hv]
    · intro j hj
      have hj1 : j < summ.length := by rw [h2, hv]; exact hj
      have e : coord ((List.zipWith (fun a b => a + w * b) summ center).map (· / ((v :: vs).length + w))) j =
          (coord summ j + w * coord center j) / ((v :: vs).length + w) := by
        unfold coord
        rw [List.getD_eq_getElem _ _ (by simp [h2, hv]; exact hj), List.getD_eq_getElem _ _ hj1, List.getD_eq_getElem _ _ hj,
          List.getElem_map, List.getElem_zipWith]
      rw [e, h3 j (by rw [hv]; exact hj)]
      have : coord (List.replicate v.length 0) j = 0 := by
        unfold coord
        rw [List.getD_eq_getElem _ _ (by simpa [hv] using hj), List.getElem_replicate]
      rw [this, zero_add]

theorem addVecs_bad (r : ℚ → Num) (dim : Nat) (vs : List (List Num)) (acc : List Num) (v : List Num) (hv : v ∈ vs) (hl : v.length ≠ dim) :
    addVecs r dim acc vs = .error (.rt 29041) := by
  induction vs generalizing acc with
  | nil => simp at hv
  | cons u us ih =>
    simp only [addVecs]
    by_cases hu : u.length ≠ dim
    · rw [if_pos hu]
    · rw [if_neg hu]
      rcases List.mem_cons.1 hv with rfl | h
      · exact absurd hl hu
      · exact ih _ h

/-- No data, or different dimensions. -/
theorem updateMean_errors (r : ℚ → Num) (data : List (List Num)) (center : List Num) (w : Num) :
    updateMean r [] center w = .error (.rt 29040) ∧
      (∀ v ∈ data, v.length ≠ (data.headD []).length → updateMean r data center w = .error (.rt 29041)) ∧
      (data ≠ [] → (∀ v ∈ data, v.length = (data.headD []).length) → center.length ≠ (data.headD []).length →
        updateMean r data center w = .error (.rt 29041)) := by
  refine ⟨rfl, ?_, ?_⟩
  · intro v hv hl
    cases data with
    | nil => simp at hv
    | cons u us =>
      simp only [updateMean]
      rw [addVecs_bad r u.length (u :: us) _ v hv hl]
      rfl
  · intro hne hv hc
    cases data with
    | nil => exact absurd rfl hne
    | cons u us =>
      have : ∀ (vs : List (List Num)) (acc : List Num), (∀ v ∈ vs, v.length = u.length) → ∃ o, addVecs r u.length acc vs = .ok o := by
        intro vs
        induction vs with
        | nil => intro acc _; exact ⟨acc, rfl⟩
        | cons x xs ih =>
          intro acc h
          simp only [addVecs]
          rw [if_neg (by simpa using h x (by simp))]
          exact ih _ fun y hy => h y (by simp [hy])
      obtain ⟨o, ho⟩ := this (u :: us) (List.replicate u.length (.fin 0)) hv
      simp only [updateMean]
      rw [ho]
      simp only [bind, Except.bind]
      exact if_pos hc

/-! ## A round of k-means does not increase the total squared distance -/

theorem dist2_coord (x y : List ℚ) (n : Nat) (hx : x.length = n) (hy : y.length = n) :
    dist2 x y = ∑ j ∈ Finset.range n, (coord x j - coord y j) ^ 2 := by
  induction x generalizing y n with
  | nil => subst hx; simp [dist2]
  | cons a x ih =>
    cases y with
    | nil => simp at hy; subst hy; simp at hx
    | cons b y =>
      cases n with
      | zero => simp at hx
      | succ n =>
        rw [Finset.sum_range_succ']
        have := ih y n (by simpa using hx) (by simpa using hy)
        simp only [dist2, List.zipWith_cons_cons, List.sum_cons] at this ⊢
        rw [this]
        simp only [coord, List.getD_cons_succ, List.getD_cons_zero]
        ring

/-- The mean is the point with the least sum of squared differences. -/
theorem mean_least (l : List ℚ) (hne : l ≠ []) (c : ℚ) :
    (l.map fun x => (x - l.sum / l.length) ^ 2).sum ≤ (l.map fun x => (x - c) ^ 2).sum := by
  have hl : (l.length : ℚ) ≠ 0 := by
    simpa using hne
  have expand : ∀ c : ℚ, (l.map fun x => (x - c) ^ 2).sum = (l.map fun x => x ^ 2).sum - 2 * c * l.sum + l.length * c ^ 2 := by
    intro c
    clear hne hl
    induction l with
    | nil => simp
    | cons a l ih =>
      simp only [List.map_cons, List.sum_cons, ih, List.length_cons, Nat.cast_add, Nat.cast_one]
      ring
  rw [expand, expand]
  have hpos : (0 : ℚ) < l.length := by
    have : 0 < l.length := List.length_pos_of_ne_nil hne
    exact_mod_cast this
  have h2 : 0 ≤ (l.length : ℚ) * (c - l.sum / l.length) ^ 2 := mul_nonneg hpos.le (sq_nonneg _)
  have h3 : (l.length : ℚ) * (c - l.sum / l.length) ^ 2 =
      (l.length : ℚ) * c ^ 2 - 2 * c * l.sum + l.length * (l.sum / l.length) ^ 2 := by
    field_simp
    ring
  have h4 : 2 * (l.sum / l.length) * l.sum = 2 * (l.length * (l.sum / l.length) ^ 2) := by
    field_simp
  linarith

theorem sum_swap (l : List D) (n : Nat) (f : D → Nat → ℚ) :
    (l.map fun d => ∑ j ∈ Finset.range n, f d j).sum = ∑ j ∈ Finset.range n, (l.map (f · j)).sum := by
  induction l with
  | nil => simp
  | cons a l ih => simp [ih, Finset.sum_add_distrib]

theorem sum_groups (l : List D) (near : D → Nat) (k : Nat) (h : ∀ d ∈ l, near d < k) (f : D → ℚ) :
    (l.map f).sum = ∑ i ∈ Finset.range k, ((l.filter (near · = i)).map f).sum := by
  induction l with
  | nil => simp
  | cons a l ih =>
    rw [List.map_cons, List.sum_cons, ih fun d hd => h d (by simp [hd])]
    have : ∀ i, (((a :: l).filter (near · = i)).map f).sum =
        (if i = near a then f a else 0) + ((l.filter (near · = i)).map f).sum := by
      intro i
      by_cases hi : near a = i
      · simp [List.filter_cons, hi]
      · rw [List.filter_cons_of_neg (by simpa using hi), if_neg (fun h => hi h.symm), zero_add]
    simp only [this, Finset.sum_add_distrib, Finset.sum_ite_eq', Finset.mem_range, h a (by simp), if_true]

/-- One cluster: the mean of its data is at least as near, in sum, as the old center. -/
theorem group_least (dim : Nat) (l : List (List ℚ)) (hne : l ≠ []) (hl : ∀ v ∈ l, v.length = dim) (c c' : List ℚ)
    (hc : c.length = dim) (hc' : c'.length = dim) (hm : ∀ j < dim, coord c' j = (l.map (coord · j)).sum / l.length) :
    (l.map (dist2 · c')).sum ≤ (l.map (dist2 · c)).sum := by
  have e : ∀ y : List ℚ, y.length = dim →
      (l.map (dist2 · y)).sum = ∑ j ∈ Finset.range dim, (l.map fun d => (coord d j - coord y j) ^ 2).sum := by
    intro y hy
    rw [← sum_swap]
    congr 1
    exact List.map_congr_left fun d hd => dist2_coord d y dim (hl d hd) hy
  rw [e c' hc', e c hc]
  apply Finset.sum_le_sum
  intro j hj
  rw [hm j (Finset.mem_range.1 hj)]
  have := mean_least (l.map (coord · j)) (by simpa using hne) (coord c j)
  simpa [Function.comp_def] using this

/-- The mean as a total update function on exact points (`updateMean` with weight 0; see `updateMean_spec`). -/
def meanOf (data : List (List ℚ)) (center : List ℚ) : List ℚ :=
  (List.range center.length).map fun j => (data.map (coord · j)).sum / data.length

/-- `meanOf` is what `model.cluster.updateMean` computes with weight 0. -/
theorem meanOf_eq (data : List (List ℚ)) (center : List ℚ) (hne : data ≠ []) (hd : ∀ v ∈ data, v.length = center.length) :
    updateMean .fin (data.map (List.map .fin)) (center.map .fin) (.fin 0) = .ok ((meanOf data center).map .fin) := by
  obtain ⟨out, h1, h2, h3⟩ := updateMean_spec data center 0 hne hd (by simpa using hne)
  rw [h1]
  congr 2
  apply List.ext_getElem
  · simp [meanOf, h2]
  · intro j hj _
    have := h3 j (by rw [← h2]; exact hj)
    unfold coord at this
    rw [List.getD_eq_getElem _ _ hj] at this
    rw [this]
    simp [meanOf, coord]

/-- The square of the distance of a datum to the nearest center. -/
def Nearest2 (d : List ℚ) (centers : List (List ℚ)) (q : ℚ) : Prop :=
  (∃ c ∈ centers, dist2 d c = q) ∧ ∀ c ∈ centers, q ≤ dist2 d c

/-- A round of k-means with the squared distance and the mean does not increase the sum of the squared distances of the data to
their nearest centers. -/
theorem kmeans_descends (dim : Nat) (data clusters : List (List ℚ)) (hd : data ≠ []) (hc : clusters ≠ [])
    (hdd : ∀ d ∈ data, d.length = dim) (hcd : ∀ c ∈ clusters, c.length = dim) (s : σ) :
    ∃ out, kmeansIteration id (fun d b => Lib.ret (.fin (dist2 d b))) (fun x c => Lib.ret (meanOf x c)) data clusters s = (.ok out, s) ∧
      ∀ old new : List ℚ → ℚ, (∀ d ∈ data, Nearest2 d clusters (old d)) → (∀ d ∈ data, Nearest2 d out (new d)) →
        (data.map new).sum ≤ (data.map old).sum := by
  have hex : ∀ d, ∃ i, FirstIndex (clusters.map fun c => Num.fin (dist2 d (id c))) i := by
    intro d
    exact firstIndex_exists _ (by simpa using hc) (by simp)
  choose near hnear using hex
  obtain ⟨out, h1, h2, h3⟩ := kmeansIteration_spec id (fun d b => Num.fin (dist2 d b)) meanOf data clusters hd hc near (by simp)
    (fun d _ => hnear d) s
  refine ⟨out, h1, ?_⟩
  intro old new hold hnew
  have hlt : ∀ d, near d < clusters.length := by
    intro d
    obtain ⟨x, hx, _⟩ := hnear d
    by_contra hcon
    rw [List.getElem?_eq_none (by simpa using hcon)] at hx
    cases hx
  have holdeq : ∀ d ∈ data, old d = dist2 d (clusters.getD (near d) []) := by
    intro d hd'
    obtain ⟨x, hx, hb, ha⟩ := hnear d
    have hg : clusters[near d]? = some (clusters.getD (near d) []) := by
      rw [List.getD_eq_getElem _ _ (hlt d), List.getElem?_eq_getElem (hlt d)]
    rw [List.getElem?_map, hg] at hx
    simp at hx
    apply le_antisymm
    · exact (hold d hd').2 _ (List.mem_of_getElem? hg)
    · obtain ⟨c, hcm, hce⟩ := (hold d hd').1
      obtain ⟨j, hj⟩ := List.getElem?_of_mem hcm
      rw [← hce]
      rcases Nat.lt_trichotomy j (near d) with h | h | h
      · have := hb j h (.fin (dist2 d c)) (by rw [List.getElem?_map, hj]; rfl)
        rw [← hx] at this
        simp only [Num.lt, decide_eq_true_eq] at this
        exact this.le
      · rw [h, hg] at hj
        injection hj with hj
        rw [hj]
      · have := ha j h (.fin (dist2 d c)) (by rw [List.getElem?_map, hj]; rfl)
        rw [← hx] at this
        simpa [Num.lt] using this
  have hstep : (data.map new).sum ≤ (data.map fun d => dist2 d (out.getD (near d) [])).sum := by
    apply List.sum_le_sum
    intro d hd'
    refine (hnew d hd').2 _ ?_
    rw [List.getD_eq_getElem _ _ (by rw [h2]; exact hlt d)]
    exact List.getElem_mem _
  refine hstep.trans ?_
  rw [List.map_congr_left holdeq, sum_groups data near clusters.length (fun d _ => hlt d),
    sum_groups data near clusters.length (fun d _ => hlt d)]
  apply Finset.sum_le_sum
  intro i hi
  rw [Finset.mem_range] at hi
  have hfil : ∀ y : List ℚ, ∀ z : List (List ℚ), z.getD i [] = y →
      (data.filter (near · = i)).map (fun d => dist2 d (z.getD (near d) [])) = (data.filter (near · = i)).map (dist2 · y) := by
    intro y z hz
    apply List.map_congr_left
    intro d hd'
    have : near d = i := by simpa using (List.mem_filter.1 hd').2
    rw [this, hz]
  rw [hfil _ out rfl, hfil _ clusters rfl]
  have hg : clusters[i]? = some (clusters.getD i []) := by
    rw [List.getD_eq_getElem _ _ hi, List.getElem?_eq_getElem hi]
  have ho := h3 i _ hg
  by_cases hempty : data.filter (near · = i) = []
  · rw [hempty]; simp
  · rw [if_neg hempty] at ho
    have hout : out.getD i [] = meanOf (data.filter (near · = i)) (clusters.getD i []) := by
      rw [List.getD_eq_getElem?_getD, ho]; rfl
    rw [hout]
    have hlen : (clusters.getD i []).length = dim := hcd _ (List.mem_of_getElem? hg)
    apply group_least dim _ hempty (fun v hv => hdd v (List.mem_filter.1 hv).1) _ _ hlen
    · unfold meanOf
      rw [hlen]
      simp
    · intro j hj
      unfold meanOf
      rw [hlen]
      simp only [coord]
      rw [List.getD_eq_getElem _ _ (by simpa using hj)]
      simp

end Verif.Near
