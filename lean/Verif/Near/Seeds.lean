import Verif.Near.KMeans
import Mathlib.Data.List.Dedup
/-! # Seeds, means of neighbours, neighbours of a point, and violations (theorems for `Near/Cluster.lean`) -/

namespace Verif.Near
open Verif.Stat (Num dbl)
open Verif.Lib (Eff Chain)

variable {σ B C D : Type}

/-! ## Seeds -/

theorem uniques_step [DecidableEq D] (data u : List D) (hu : u.Nodup) :
    (data.foldl (fun u x => if x ∈ u then u else u ++ [x]) u).Nodup ∧
      ∀ x, x ∈ data.foldl (fun u x => if x ∈ u then u else u ++ [x]) u ↔ x ∈ u ∨ x ∈ data := by
  induction data generalizing u with
  | nil => simp [hu]
  | cons a data ih =>
    simp only [List.foldl_cons]
    by_cases ha : a ∈ u
    · rw [if_pos ha]
      refine ⟨(ih u hu).1, fun x => ?_⟩
      rw [(ih u hu).2]
      constructor
      · rintro (h | h) <;> simp [h]
      · rintro (h | h)
        · exact .inl h
        · rcases List.mem_cons.1 h with rfl | h
          · exact .inl ha
          · exact .inr h
    · rw [if_neg ha]
      have hn : (u ++ [a]).Nodup := by
        rw [List.nodup_append]
        refine ⟨hu, by simp, ?_⟩
        intro x hx y hy hxy
        simp at hy
        subst hy hxy
        exact ha hx
      refine ⟨(ih _ hn).1, fun x => ?_⟩
      rw [(ih _ hn).2]
      simp [or_assoc]

/-- The different data, each once. -/
theorem uniques_spec [DecidableEq D] (data : List D) : (uniques data).Nodup ∧ ∀ x, x ∈ uniques data ↔ x ∈ data := by
  have := uniques_step data [] List.nodup_nil
  exact ⟨this.1, fun x => by rw [uniques, this.2]; simp⟩

theorem uniques_length [DecidableEq D] (data : List D) : (uniques data).length = data.dedup.length := by
  have h := uniques_spec data
  apply List.Perm.length_eq
  rw [List.perm_ext_iff_of_nodup h.1 (List.nodup_dedup _)]
  intro x
  rw [h.2, List.mem_dedup]

/-- `model.cluster.randomSeeds`: whatever the generator does, `k` different data are selected, and become clusters in order. -/
theorem randomSeeds_spec [DecidableEq D] (size : D → Nat) (shuffle : List D → Eff σ (List D)) (new : Nat → D → C) (data : List D)
    (k : Nat) (hk : 0 < k) (hu : k ≤ data.dedup.length) (n : Nat) (hs : ∀ x ∈ data, size x = n) (s s' : σ) (v : List D)
    (hsh : shuffle (uniques data) s = (.ok v, s')) (hperm : v.Perm (uniques data)) :
    ∃ sel : List D, sel.length = k ∧ sel.Nodup ∧ (∀ x ∈ sel, x ∈ data) ∧
      randomSeeds size shuffle (fun i x => Lib.ret (new i x)) data k s = (.ok (sel.mapIdx new), s') := by
  have hU := uniques_spec data
  have hl : k ≤ (uniques data).length := by rw [uniques_length]; exact hu
  refine ⟨v.take k, by simp [hperm.length_eq]; exact hl, ?_, ?_, ?_⟩
  · exact (hperm.nodup_iff.2 hU.1).sublist (List.take_sublist _ _)
  · intro x hx
    exact (hU.2 x).1 (hperm.mem_iff.1 (List.mem_of_mem_take hx))
  · have hsz : ((uniques data).map size).dedup.length = 1 := by
      have hmem : ∀ y, y ∈ ((uniques data).map size).dedup ↔ y ∈ [n] := by
        intro y
        rw [List.mem_dedup, List.mem_map, List.mem_singleton]
        constructor
        · rintro ⟨x, hx, rfl⟩; exact hs x ((hU.2 x).1 hx)
        · rintro rfl
          have : 0 < (uniques data).length := by omega
          obtain ⟨x, hx⟩ := List.exists_mem_of_length_pos this
          exact ⟨x, hx, hs x ((hU.2 x).1 hx)⟩
      have := (List.perm_ext_iff_of_nodup (List.nodup_dedup _) (List.nodup_singleton n)).2 hmem
      exact this.length_eq
    have hnew : ∀ (l : List D) (i : Nat), newClusters (fun i x => Lib.ret (new i x)) i l s' =
        (.ok (l.mapIdx fun j x => new (i + j) x), s') := by
      intro l
      induction l with
      | nil => intro i; rfl
      | cons x l ih =>
        intro i
        simp only [newClusters, Lib.ret]
        rw [ih (i + 1)]
        simp only [List.mapIdx_cons, Nat.add_zero]
        have e : (fun j x => new (i + 1 + j) x) = fun j x => new (i + (j + 1)) x := by
          funext j x
          rw [Nat.add_assoc, Nat.add_comm 1 j]
        rw [e]
    unfold randomSeeds
    rw [if_neg (by omega)]
    simp only
    rw [if_neg (by omega), if_neg (by rw [hsz]; simp), hsh]
    simp only [Int.toNat_natCast]
    rw [hnew]
    simp

/-- Too few different data, a bad number, or different sizes raise the documented errors; the generator is not called. -/
theorem randomSeeds_errors [DecidableEq D] (size : D → Nat) (shuffle : List D → Eff σ (List D)) (new : Nat → D → Eff σ C)
    (data : List D) (k : Int) (s : σ) :
    (k ≤ 0 → randomSeeds size shuffle new data k s = (.error (.rt 29020), s)) ∧
      (0 < k → (data.dedup.length : Int) < k → randomSeeds size shuffle new data k s = (.error (.rt 29021), s)) ∧
      (0 < k → k ≤ data.dedup.length → (∃ x ∈ data, ∃ y ∈ data, size x ≠ size y) →
        randomSeeds size shuffle new data k s = (.error (.rt 29022), s)) := by
  refine ⟨?_, ?_, ?_⟩
  · intro h; unfold randomSeeds; rw [if_pos h]
  · intro h0 h; unfold randomSeeds; rw [if_neg (by omega)]; simp only; rw [if_pos (by rw [uniques_length]; exact h)]
  · rintro h0 h ⟨x, hx, y, hy, hxy⟩
    unfold randomSeeds; rw [if_neg (by omega)]; simp only
    rw [if_neg (by rw [uniques_length]; omega), if_pos]
    intro h1
    obtain ⟨z, hz⟩ := List.length_eq_one_iff.1 h1
    have hU := uniques_spec data
    have m1 : size x ∈ ((uniques data).map size).dedup := List.mem_dedup.2 (List.mem_map_of_mem ((hU.2 x).2 hx))
    have m2 : size y ∈ ((uniques data).map size).dedup := List.mem_dedup.2 (List.mem_map_of_mem ((hU.2 y).2 hy))
    rw [hz] at m1 m2
    simp at m1 m2
    exact hxy (m1.trans m2.symm)

/-! ## Means of neighbours -/

theorem meanLoop_fin (w : List Num → ℚ) (dim : Nat) (ps : List (List ℚ)) (acc : List ℚ) (d : ℚ) (ha : acc.length = dim)
    (hp : ∀ p ∈ ps, p.length = dim) (s : σ) :
    ∃ out : List ℚ, meanLoop .fin (fun p => Lib.ret (.fin (w p))) dim (acc.map .fin, .fin d) (ps.map (List.map .fin)) s =
        (.ok (out.map .fin, .fin (d + (ps.map fun p => w (p.map .fin)).sum)), s) ∧ out.length = dim ∧
      ∀ j < dim, coord out j = coord acc j + (ps.map fun p => w (p.map .fin) * coord p j).sum := by
  induction ps generalizing acc d with
  | nil => exact ⟨acc, by simp [meanLoop], ha, by simp⟩
  | cons p ps ih =>
    have hl : (List.zipWith (fun a b => a + w (p.map .fin) * b) acc p).length = dim := by simp [ha, hp p (by simp)]
    obtain ⟨out, h1, h2, h3⟩ := ih (List.zipWith (fun a b => a + w (p.map .fin) * b) acc p) (d + w (p.map .fin)) hl
      fun q hq => hp q (by simp [hq])
    refine ⟨out, ?_, h2, ?_⟩
    · simp only [List.map_cons, meanLoop, List.length_map]
      rw [if_neg (by rw [hp p (by simp)]; simp)]
      simp only [Lib.ret]
      rw [List.sum_cons, ← add_assoc]
      unfold Lib.ret at h1
      rw [← h1, List.zipWith_map, List.map_zipWith]
      rfl
    · intro j hj
      rw [h3 j hj]
      have e : coord (List.zipWith (fun a b => a + w (p.map .fin) * b) acc p) j = coord acc j + w (p.map .fin) * coord p j := by
        unfold coord
        rw [List.getD_eq_getElem _ _ (by rw [hl]; exact hj), List.getD_eq_getElem _ _ (by rw [ha]; exact hj),
          List.getD_eq_getElem _ _ (by rw [hp p (by simp)]; exact hj), List.getElem_zipWith]
      rw [e, List.map_cons, List.sum_cons]
      ring

theorem divAll_fin (d : ℚ) (hd : d ≠ 0) (l : List ℚ) : divAll .fin (.fin d) (l.map .fin) = .ok ((l.map (· / d)).map .fin) := by
  induction l with
  | nil => rfl
  | cons a l ih =>
    simp only [List.map_cons, divAll]
    rw [ih]
    simp [pyDiv, hd, Num.div, bind, Except.bind]

/-- `model.neighbor.mean` in exact arithmetic: the weighted mean, if the weights do not sum to zero. -/
theorem nbMean_partial (w : List Num → ℚ) (dim : Nat) (points : List (List ℚ)) (hne : points ≠ []) (hp : ∀ p ∈ points, p.length = dim)
    (hw : (points.map fun p => w (p.map .fin)).sum ≠ 0) (s : σ) :
    ∃ out : List ℚ, nbMean .fin (fun p => Lib.ret (.fin (w p))) (points.map (List.map .fin)) s = (.ok (out.map .fin), s) ∧
      out.length = dim ∧
      ∀ j < dim, coord out j = (points.map fun p => w (p.map .fin) * coord p j).sum / (points.map fun p => w (p.map .fin)).sum := by
  cases points with
  | nil => exact absurd rfl hne
  | cons p ps =>
    have hpl := hp p (by simp)
    obtain ⟨out, h1, h2, h3⟩ := meanLoop_fin (σ := σ) w dim (p :: ps) (List.replicate dim 0) 0 (by simp) hp s
    refine ⟨out.map (· / ((p :: ps).map fun p => w (p.map .fin)).sum), ?_, by simp [h2], ?_⟩
    · rw [List.map_replicate, zero_add, List.map_cons] at h1
      simp only [List.map_cons, nbMean, List.length_map]
      rw [hpl, h1]
      simp only
      rw [divAll_fin _ hw]
      rfl
    · intro j hj
      have h4 := h3 j hj
      have e0 : coord (List.replicate dim 0) j = 0 := by
        unfold coord
        rw [List.getD_eq_getElem _ _ (by simpa using hj), List.getElem_replicate]
      rw [e0, zero_add] at h4
      rw [← h4]
      unfold coord
      rw [List.getD_eq_getElem _ _ (by simpa [h2] using hj), List.getD_eq_getElem _ _ (by simpa [h2] using hj), List.getElem_map]

/-- Without weights, the mean. -/
theorem nbMean_plain (dim : Nat) (points : List (List ℚ)) (hne : points ≠ []) (hp : ∀ p ∈ points, p.length = dim) (s : σ) :
    ∃ out : List ℚ, nbMean .fin (fun _ => Lib.ret (.fin 1)) (points.map (List.map .fin)) s = (.ok (out.map .fin), s) ∧
      out.length = dim ∧ ∀ j < dim, coord out j = (points.map (coord · j)).sum / points.length := by
  have := nbMean_partial (σ := σ) (fun _ => 1) dim points hne hp (by simpa using hne) s
  simpa using this

/-- The documented errors. -/
theorem nbMean_errors (r : ℚ → Num) (weight : List Num → Eff σ Num) (p : List Num) (ps : List (List Num)) (s : σ) :
    nbMean r weight [] s = (.error (.rt 30000), s) ∧
      (∀ q, q.length ≠ p.length → ∀ w s', weight p s = (.ok w, s') → nbMean r weight (p :: q :: ps) s = (.error (.rt 30001), s')) := by
  refine ⟨rfl, ?_⟩
  intro q hq w s' hw
  simp only [nbMean, meanLoop]
  rw [if_neg (by simp), hw]
  simp only
  rw [if_pos hq]

/-- Weights that sum to zero raise a Python error. -/
theorem nbMean_zero_violation :
    nbMean .fin (fun p => Lib.ret (p.headD .nan)) [[.fin 1, .fin 5], [.fin (-1), .fin 7]] () = (.error (.py "ZeroDivisionError"), ()) := by
  decide +kernel

/-! ## Neighbours of a point -/

/-- `model.neighbor.nearestK` without a metric: dimensions are checked, then the nearest `k` points in the order of their
distances. -/
theorem nearestKPoints_spec (k : Nat) (datum : List ℚ) (codebook : List (List ℚ)) (hd : ∀ c ∈ codebook, c.length = datum.length) :
    ∃ b, ByDistance (codebook.map fun c => (c.map Num.fin, Num.fin (dist2 datum c))) b ∧
      nearestKPoints .fin k (datum.map .fin) (codebook.map (List.map .fin)) = .ok ((b.take k).map Prod.fst) := by
  obtain ⟨b, hb, h⟩ := nearestN_spec k (codebook.map fun c => (c.map Num.fin, Num.fin (dist2 datum c))) (by simp)
  refine ⟨b, hb, ?_⟩
  unfold nearestKPoints
  rw [if_neg (by omega)]
  by_cases h0 : codebook = []
  · subst h0
    have : b = [] := by simpa using hb.perm
    subst this
    simp
  · rw [if_neg (by simpa using h0), if_neg]
    · have : callAll (σ := Unit) (sqDist .fin id (datum.map Num.fin)) (codebook.map (List.map .fin)) () =
          (.ok (codebook.map fun c => (c.map Num.fin, Num.fin (dist2 datum c))), ()) := by
        clear hb h hd h0
        induction codebook with
        | nil => rfl
        | cons c cs ih =>
          simp only [List.map_cons, callAll]
          have e : sqDist (σ := Unit) .fin id (datum.map Num.fin) (c.map Num.fin) () = (.ok (.fin (dist2 datum c)), ()) := by
            unfold sqDist
            rw [id, sumSq_fin, zero_add]
          rw [e]
          simp only
          rw [ih]
      rw [this]
      simp only [Int.toNat_natCast]
      exact h
    · simp only [List.any_map, List.any_eq_true, not_exists, not_and]
      intro c hc
      simp [hd c hc]

/-- Other dimensions raise the documented error. -/
theorem nearestKPoints_errors (r : ℚ → Num) (k : Int) (datum : List Num) (codebook : List (List Num)) :
    (k < 0 → nearestKPoints r k datum codebook = .error (.rt 30010)) ∧
      (0 ≤ k → (∃ c ∈ codebook, c.length ≠ datum.length) → nearestKPoints r k datum codebook = .error (.rt 30011)) := by
  refine ⟨?_, ?_⟩
  · intro h; unfold nearestKPoints; rw [if_pos h]
  · rintro h ⟨c, hc, hl⟩
    unfold nearestKPoints
    rw [if_neg (by omega), if_neg (by intro h; rw [List.length_eq_zero_iff] at h; rw [h] at hc; simp at hc), if_pos]
    simp only [List.any_eq_true]
    exact ⟨c, hc, by simpa using hl⟩

/-! ## Violations -/

/-- A nan distance of the first cluster hides all others: the cluster at distance 1 is not chosen. -/
theorem closest_nan_violation :
    clClosest (fun c : Nat => Lib.ret (if c = 0 then .nan else .fin c)) [0, 1, 2] () = (.ok 0, ()) ∧
      besti (fun (_ : Unit) (c : Nat) => Lib.ret (if c = 0 then .nan else .fin c)) [0, 1, 2] () () = (.ok 0, ()) := by
  decide +kernel

/-- Without a metric the dimensions are not checked: a center without coordinates is at distance zero of everything. -/
theorem closest_dim_violation :
    clClosest (sqDist .fin id [.fin 3, .fin 4]) [[.fin 3, .fin 5], []] () = (.ok [], ()) := by
  decide +kernel

/-- Without a metric, differences above about 1.3e154 raise a Python error. -/
theorem closest_overflow_violation :
    clClosest (sqDist dbl id [.fin (10 ^ 200)]) [[.fin 0]] () = (.error (.py "OverflowError"), ()) := by
  decide +kernel

/-! ## The hypotheses are met -/

example : clClosest (sqDist .fin id [.fin 3]) [[.fin 5], [.fin 2], [.fin 4]] () = (.ok [.fin 2], ()) := by decide +kernel
example : clClosestN 2 (sqDist .fin id [.fin 3]) [[.fin 5], [.fin 2], [.fin 4]] () = (.ok [[.fin 2], [.fin 4]], ()) := by decide +kernel
example : ballR (.fin 2) (sqDist .fin id [.fin 3]) [[.fin 5], [.fin 2], [.fin 4]] () = (.ok [[.fin 2], [.fin 4]], ()) := by decide +kernel
example : kmeansIteration id (fun d b => Lib.ret (.fin (dist2 d b))) (fun x c => Lib.ret (meanOf x c))
    [[0], [1], [10], [13]] [[2], [9], [100]] () = (.ok [[1 / 2], [23 / 2], [100]], ()) := by decide +kernel
example : updateMean .fin [[.fin 1, .fin 2], [.fin 3, .fin 4]] [.fin 5, .fin 0] (.fin 2) = .ok [.fin (7 / 2), .fin (3 / 2)] := by
  decide +kernel
example : randomSeeds (σ := Unit) List.length (fun l s => (.ok l.reverse, s)) (fun i x => Lib.ret (i, x))
    [[1, 1], [2, 1], [1, 1], [3, 3]] 2 () = (.ok [(0, [3, 3]), (1, [2, 1])], ()) := by decide +kernel
example : nbMean .fin (fun p => Lib.ret (p.headD .nan)) [[.fin 1, .fin 5], [.fin 3, .fin 9]] () =
    (.ok [.fin (10 / 4), .fin 8], ()) := by decide +kernel
example : nearestKPoints .fin 2 [.fin 0] [[.fin 3], [.fin 1], [.fin 2]] = .ok [[.fin 1], [.fin 2]] := by decide +kernel

end Verif.Near
