import Verif.Cart.Total
import Mathlib.Tactic.Ring
import Mathlib.Tactic.FieldSimp
import Mathlib.Tactic.Linarith
/-! # Growing trees: the gain of a split of a number (C86) -/

namespace Verif.Cart
open Avro

/-! ## Specification -/

/-- Sum of the squared differences from the mean. -/
def SS (l : List ℚ) : ℚ := (l.map fun x => (x - l.sum / l.length) ^ 2).sum

/-- The predictand in the rows for which the predictor has the property. -/
def those {α β : Type} (p : α → Bool) (xs : List α) (ys : List β) : List β := ((xs.zip ys).filter fun z => p z.1).map (·.2)

/-- What remains of the sum of squares when the rows are split by a property of the predictor. -/
def loss {α : Type} (p : α → Bool) (xs : List α) (ys : List ℚ) : ℚ := SS (those p xs ys) + SS (those (fun x => !p x) xs ys)

/-- Both sides have rows. -/
def Separates {α : Type} (p : α → Bool) (xs : List α) : Prop := (∃ x ∈ xs, p x = true) ∧ ∃ x ∈ xs, p x = false

/-! ## Sums of squares -/

theorem sum_sq (l : List ℚ) (m : ℚ) : (l.map fun x => (x - m) ^ 2).sum = (l.map fun x => x ^ 2).sum - 2 * m * l.sum + l.length * m ^ 2 := by
  induction l with
  | nil => simp
  | cons a l ih =>
    simp only [List.map_cons, List.sum_cons, ih, List.length_cons, Nat.cast_add, Nat.cast_one]
    ring

theorem SS_eq (l : List ℚ) : SS l = (l.map fun x => x ^ 2).sum - l.sum ^ 2 / l.length := by
  rw [SS, sum_sq]
  cases l with
  | nil => simp
  | cons a l =>
    have : ((a :: l).length : ℚ) ≠ 0 := by
      simp only [List.length_cons, Nat.cast_add, Nat.cast_one]
      positivity
    field_simp
    ring

theorem SS_nonneg (l : List ℚ) : 0 ≤ SS l := by
  apply List.sum_nonneg
  intro x hx
  obtain ⟨y, -, rfl⟩ := List.mem_map.1 hx
  positivity

theorem SS_perm {l m : List ℚ} (h : l.Perm m) : SS l = SS m := by
  rw [SS_eq, SS_eq, h.sum_eq, h.length_eq, (h.map _).sum_eq]

theorem those_perm {α β : Type} {p : α → Bool} {xs xs' : List α} {ys ys' : List β} (h : (xs.zip ys).Perm (xs'.zip ys')) :
    (those p xs ys).Perm (those p xs' ys') := (h.filter _).map _

theorem constant_num (w : World) (ys : List ℚ) : constant w (.num ys) = SS ys := by
  simp only [constant, variance, mean, total, SS]
  cases ys with
  | nil => simp
  | cons a l =>
    have : ((a :: l).length : ℚ) ≠ 0 := by
      simp only [List.length_cons, Nat.cast_add, Nat.cast_one]
      positivity
    rw [List.length_map]
    field_simp

theorem loss_perm {α : Type} {p : α → Bool} {xs xs' : List α} {ys ys' : List ℚ} (h : (xs.zip ys).Perm (xs'.zip ys')) :
    loss p xs ys = loss p xs' ys' := by
  rw [loss, loss, SS_perm (those_perm h), SS_perm (those_perm h)]

theorem those_split {α β : Type} (p : α → Bool) (xs : List α) (ys : List β) (h : xs.length = ys.length) :
    (those p xs ys ++ those (fun x => !p x) xs ys).Perm ys := by
  unfold those
  rw [← List.map_append]
  have := (List.filter_append_perm (fun z : α × β => p z.1) (xs.zip ys)).map Prod.snd
  refine this.trans ?_
  rw [List.map_snd_zip (by omega)]

/-- **C86.** A split never increases the sum of squares. -/
theorem loss_le {α : Type} (p : α → Bool) (xs : List α) (ys : List ℚ) (h : xs.length = ys.length) : loss p xs ys ≤ SS ys := by
  have hp := those_split p xs ys h
  rw [← SS_perm hp, loss]
  clear hp
  generalize those p xs ys = a
  generalize those (fun x => !p x) xs ys = b
  have least : ∀ (l : List ℚ) (m : ℚ), SS l ≤ (l.map fun x => (x - m) ^ 2).sum := by
    intro l m
    rw [SS_eq, sum_sq]
    cases l with
    | nil => simp
    | cons c l =>
      have hl : (0 : ℚ) < ((c :: l).length : ℚ) := by
        simp only [List.length_cons, Nat.cast_add, Nat.cast_one]
        positivity
      generalize ((c :: l).length : ℚ) = n at *
      generalize (c :: l).sum = s at *
      have h0 : 0 ≤ n * (m - s / n) ^ 2 := mul_nonneg hl.le (sq_nonneg _)
      have e : n * (m - s / n) ^ 2 = s ^ 2 / n - 2 * m * s + n * m ^ 2 := by
        field_simp
        ring
      linarith
  have h1 := least a ((a ++ b).sum / (a ++ b).length)
  have h2 := least b ((a ++ b).sum / (a ++ b).length)
  have e : SS (a ++ b) = (a.map fun x => (x - (a ++ b).sum / (a ++ b).length) ^ 2).sum +
      (b.map fun x => (x - (a ++ b).sum / (a ++ b).length) ^ 2).sum := by
    rw [SS, List.map_append, List.sum_append]
  linarith

/-! ## Running sums -/

theorem cumsum_getD (a : ℚ) (l : List ℚ) (i : Nat) (h : i < l.length) : (cumsum a l).getD i 0 = a + (l.take (i + 1)).sum := by
  induction l generalizing a i with
  | nil => simp at h
  | cons x l ih =>
    cases i with
    | zero => simp [cumsum]
    | succ i =>
      simp only [cumsum, List.getD_cons_succ]
      rw [ih (a + x) i (by simpa using h), List.take_succ_cons, List.sum_cons]
      ring

theorem cumsum_last (a : ℚ) (l : List ℚ) (h : l ≠ []) : (cumsum a l).getLastD 0 = a + l.sum := by
  induction l generalizing a with
  | nil => exact absurd rfl h
  | cons x l ih =>
    cases l with
    | nil => simp [cumsum]
    | cons z l =>
      have := ih (a + x) (by simp)
      simp only [cumsum, List.getLastD_cons] at this ⊢
      rw [this]
      simp only [List.sum_cons]
      ring

/-- The gains that are computed are those of the cuts after each place. -/
theorem gains_eq (ps : List ℚ) (m : Nat) (hm : m = ps.length) (hps : ps ≠ []) :
    ((cumsum 0 (List.replicate m 1)).zip ((cumsum 0 ps).zip (cumsum 0 (ps.map (· ^ 2))))).dropLast.map (fun p =>
      varGain ((cumsum 0 (List.replicate m 1)).getLastD 0) ((cumsum 0 ps).getLastD 0) ((cumsum 0 (ps.map (· ^ 2))).getLastD 0) p.1 p.2.1 p.2.2) =
    (List.range (ps.length - 1)).map fun i => -(SS (ps.take (i + 1)) + SS (ps.drop (i + 1))) := by
  subst hm
  apply List.ext_getElem
  · simp [cumsum_length]
  · intro i h1 h2
    have hi : i < ps.length - 1 := by simpa using h2
    simp only [List.getElem_map, List.getElem_dropLast, List.getElem_zip, List.getElem_range]
    have g : ∀ l : List ℚ, ∀ h : i < (cumsum 0 l).length, (cumsum 0 l)[i] = (l.take (i + 1)).sum := by
      intro l h
      have h' : i < l.length := by rwa [cumsum_length] at h
      rw [← List.getD_eq_getElem _ 0 h, cumsum_getD 0 l i h', zero_add]
    have hl : List.replicate ps.length (1 : ℚ) ≠ [] := by simpa using hps
    rw [g, g, g, cumsum_last _ _ hl, cumsum_last _ _ hps, cumsum_last _ _ (by simpa using hps), varGain, SS_eq, SS_eq]
    have d1 : (ps.drop (i + 1)).sum = ps.sum - (ps.take (i + 1)).sum := by
      have := congrArg List.sum (List.take_append_drop (i + 1) ps)
      rw [List.sum_append] at this
      linarith
    have d2 : ((ps.drop (i + 1)).map fun x => x ^ 2).sum = (ps.map fun x => x ^ 2).sum - ((ps.take (i + 1)).map fun x => x ^ 2).sum := by
      have := congrArg (fun l => (l.map fun x : ℚ => x ^ 2).sum) (List.take_append_drop (i + 1) ps)
      simp only [List.map_append, List.sum_append] at this
      linarith
    have n1 : ((ps.take (i + 1)).length : ℚ) = i + 1 := by
      rw [List.length_take, Nat.min_eq_left (by omega)]
      push_cast; ring
    have n2 : ((ps.drop (i + 1)).length : ℚ) = ps.length - (i + 1) := by
      rw [List.length_drop, Nat.cast_sub (by omega)]
      push_cast; ring
    rw [d1, d2, n1, n2, ← List.map_take, List.take_replicate, Nat.min_eq_left (by omega : i + 1 ≤ ps.length)]
    simp only [List.sum_replicate, nsmul_eq_mul, mul_one, zero_add]
    push_cast
    ring

/-! ## Sorted rows -/

theorem sorted_split {β : Type} (zs : List (ℚ × β)) (hs : (zs.map (·.1)).Pairwise (· ≤ ·)) (c : ℚ) :
    ∃ k, k ≤ zs.length ∧ zs.filter (fun z => decide (z.1 ≤ c)) = zs.take k ∧ zs.filter (fun z => !decide (z.1 ≤ c)) = zs.drop k := by
  induction zs with
  | nil => exact ⟨0, by simp, rfl, rfl⟩
  | cons z zs ih =>
    rw [List.map_cons, List.pairwise_cons] at hs
    by_cases hz : z.1 ≤ c
    · obtain ⟨k, hk, h1, h2⟩ := ih hs.2
      refine ⟨k + 1, by simpa using hk, ?_, ?_⟩
      · rw [List.filter_cons_of_pos (by simpa using hz), h1, List.take_succ_cons]
      · rw [List.filter_cons_of_neg (by simpa using hz), h2, List.drop_succ_cons]
    · refine ⟨0, by simp, ?_, ?_⟩
      · rw [List.take_zero, List.filter_eq_nil_iff]
        intro x hx
        rcases List.mem_cons.1 hx with rfl | hx
        · simpa using hz
        · have := hs.1 x.1 (List.mem_map.2 ⟨x, hx, rfl⟩)
          simp only [decide_eq_true_eq, not_le]
          push Not at hz
          exact lt_of_lt_of_le hz this
      · rw [List.drop_zero, List.filter_eq_self]
        intro x hx
        rcases List.mem_cons.1 hx with rfl | hx
        · simpa using hz
        · have := hs.1 x.1 (List.mem_map.2 ⟨x, hx, rfl⟩)
          simp only [Bool.not_eq_eq_eq_not, Bool.not_true, decide_eq_false_iff_not, not_le]
          push Not at hz
          exact lt_of_lt_of_le hz this

/-- The rows in the order of the predictor. -/
theorem sorted_rows {argsort : List ℚ → List Nat} (hw : Sorts argsort) (xs ys : List ℚ) (hl : xs.length = ys.length) :
    ((argsort xs).map fun i => (xs.getD i 0, ys.getD i 0)).Perm (xs.zip ys) := by
  refine ((hw xs).1.map _).trans (List.Perm.of_eq ?_)
  apply List.ext_getElem
  · simp [hl]
  · intro i h1 h2
    have hx : i < xs.length := by simpa using h1
    simp [List.getElem?_eq_getElem hx, List.getElem?_eq_getElem (by rw [← hl]; exact hx : i < ys.length)]

/-- A cut that separates is one of the places. -/
theorem loss_place (vs ps : List ℚ) (hl : vs.length = ps.length) (hs : vs.Pairwise (· ≤ ·)) (c : ℚ) (h : Separates (fun x => decide (x ≤ c)) vs) :
    ∃ i < ps.length - 1, loss (fun x => decide (x ≤ c)) vs ps = SS (ps.take (i + 1)) + SS (ps.drop (i + 1)) := by
  obtain ⟨k, hk, h1, h2⟩ := sorted_split (vs.zip ps) (by rwa [List.map_fst_zip (by omega)]) c
  have t1 : those (fun x => decide (x ≤ c)) vs ps = ps.take k := by
    rw [those, h1, List.map_take, List.map_snd_zip (by omega)]
  have t2 : those (fun x => !decide (x ≤ c)) vs ps = ps.drop k := by
    rw [those, h2, List.map_drop, List.map_snd_zip (by omega)]
  have hmem : ∀ x ∈ vs, ∃ y, (x, y) ∈ vs.zip ps := by
    intro x hx
    have : x ∈ (vs.zip ps).map (·.1) := by rwa [List.map_fst_zip (by omega)]
    obtain ⟨z, hz, rfl⟩ := List.mem_map.1 this
    exact ⟨z.2, hz⟩
  have hzl : (vs.zip ps).length = ps.length := by simp [hl]
  have hk0 : k ≠ 0 := by
    rintro rfl
    obtain ⟨x, hx, hxc⟩ := h.1
    obtain ⟨y, hy⟩ := hmem x hx
    have : (x, y) ∈ (vs.zip ps).filter fun z => decide (z.1 ≤ c) := List.mem_filter.2 ⟨hy, hxc⟩
    rw [h1] at this
    simp at this
  have hkn : k ≠ ps.length := by
    rintro rfl
    obtain ⟨x, hx, hxc⟩ := h.2
    obtain ⟨y, hy⟩ := hmem x hx
    have : (x, y) ∈ (vs.zip ps).filter fun z => !decide (z.1 ≤ c) := List.mem_filter.2 ⟨hy, by simp only [hxc]; rfl⟩
    rw [h2, List.drop_of_length_le (by omega)] at this
    simp at this
  refine ⟨k - 1, by omega, ?_⟩
  rw [loss, t1, t2, Nat.sub_add_cancel (by omega)]

/-! ## The best cut -/

theorem numVariance_eq (w : World) (hw : Sorts w.argsort) (xs ys : List ℚ) (hl : xs.length = ys.length) (hne : ys ≠ []) :
    numVariance w xs ys = pickCut ys.length ((w.argsort xs).map (xs.getD · 0))
      ((List.range (ys.length - 1)).map fun i => -(SS (((w.argsort xs).map (ys.getD · 0)).take (i + 1)) +
        SS (((w.argsort xs).map (ys.getD · 0)).drop (i + 1)))) := by
  have hlen : (w.argsort xs).length = ys.length := by rw [(hw xs).1.length_eq, List.length_range, hl]
  unfold numVariance
  simp only
  rw [gains_eq ((w.argsort xs).map (ys.getD · 0)) _ (by simp) (by
    intro h
    have := congrArg List.length h
    simp only [List.length_map, hlen, List.length_nil] at this
    exact hne (List.length_eq_zero_iff.1 this))]
  simp only [List.length_map, hlen]

/-- The gain term of a number is never less than that of any cut. -/
theorem numVariance_upper {w : World} (hw : Sorts w.argsort) {xs ys : List ℚ} (hl : xs.length = ys.length) (h2 : 2 ≤ ys.length) :
    ∃ g c, numVariance w xs ys = .ok (g, c) ∧
      ∀ c', Separates (fun x => decide (x ≤ c')) xs → -loss (fun x => decide (x ≤ c')) xs ys ≤ g := by
  have hlen : (w.argsort xs).length = ys.length := by rw [(hw xs).1.length_eq, List.length_range, hl]
  rw [numVariance_eq w hw xs ys hl (by rintro rfl; simp at h2)]
  set gains := (List.range (ys.length - 1)).map fun i => -(SS (((w.argsort xs).map (ys.getD · 0)).take (i + 1)) +
        SS (((w.argsort xs).map (ys.getD · 0)).drop (i + 1))) with hg
  obtain ⟨g, pre, post, h3, h4, h5, h6⟩ := pickCut_spec ys.length ((w.argsort xs).map (xs.getD · 0)) gains (by
    intro h
    have := congrArg List.length h
    simp [hg] at this
    omega)
  refine ⟨_, _, h6, ?_⟩
  intro c' hc'
  have hsep : Separates (fun x => decide (x ≤ c')) ((w.argsort xs).map (xs.getD · 0)) := by
    have hperm : ((w.argsort xs).map (xs.getD · 0)).Perm xs := by
      refine ((hw xs).1.map _).trans (List.Perm.of_eq (map_getD_range xs 0))
    obtain ⟨⟨x, hx, h1⟩, ⟨z, hz, h2⟩⟩ := hc'
    exact ⟨⟨x, hperm.mem_iff.2 hx, h1⟩, ⟨z, hperm.mem_iff.2 hz, h2⟩⟩
  obtain ⟨i, hi, hi2⟩ := loss_place ((w.argsort xs).map (xs.getD · 0)) ((w.argsort xs).map (ys.getD · 0)) (by simp) (hw xs).2 c' hsep
  have hz : ((w.argsort xs).map (xs.getD · 0)).zip ((w.argsort xs).map (ys.getD · 0)) =
      (w.argsort xs).map fun i => (xs.getD i 0, ys.getD i 0) := by
    rw [List.zip_map']
  have e : loss (fun x => decide (x ≤ c')) xs ys = loss (fun x => decide (x ≤ c')) ((w.argsort xs).map (xs.getD · 0)) ((w.argsort xs).map (ys.getD · 0)) := by
    apply loss_perm
    rw [hz]
    exact (sorted_rows hw xs ys hl).symm
  rw [e, hi2]
  have hin : -(SS (((w.argsort xs).map (ys.getD · 0)).take (i + 1)) + SS (((w.argsort xs).map (ys.getD · 0)).drop (i + 1))) ∈ gains := by
    rw [hg]
    refine List.mem_map.2 ⟨i, ?_, rfl⟩
    simp only [List.length_map, hlen] at hi
    simpa using hi
  rw [h3] at hin
  rcases List.mem_append.1 hin with hin | hin
  · exact h4 _ hin
  · rcases List.mem_cons.1 hin with hin | hin
    · exact hin.le
    · exact (h5 _ hin).le

/-- **C86 (partial).** When the numbers are different, the cut is the best one: it separates the rows, its gain is right, and no other cut that
separates leaves a smaller sum of squares.  With equal numbers the statement is false (`ties_violation`, `ties_leaf_violation`). -/
theorem numVariance_best_partial {w : World} (hw : Sorts w.argsort) {xs ys : List ℚ} (hl : xs.length = ys.length) (h2 : 2 ≤ ys.length)
    (hd : xs.Nodup) :
    ∃ g c, numVariance w xs ys = .ok (g, c) ∧ Separates (fun x => decide (x ≤ c)) xs ∧ g = -loss (fun x => decide (x ≤ c)) xs ys ∧
      ∀ c', Separates (fun x => decide (x ≤ c')) xs → loss (fun x => decide (x ≤ c)) xs ys ≤ loss (fun x => decide (x ≤ c')) xs ys := by
  obtain ⟨g, c, h1, hup⟩ := numVariance_upper hw hl h2
  have hlen : (w.argsort xs).length = ys.length := by rw [(hw xs).1.length_eq, List.length_range, hl]
  have hperm : ((w.argsort xs).map (xs.getD · 0)).Perm xs :=
    ((hw xs).1.map _).trans (List.Perm.of_eq (map_getD_range xs 0))
  have hstrict : ((w.argsort xs).map (xs.getD · 0)).Pairwise (· < ·) := by
    have h3 := (hw xs).2
    have h4 : ((w.argsort xs).map (xs.getD · 0)).Nodup := hperm.nodup_iff.2 hd
    exact (h3.and h4).imp fun h => lt_of_le_of_ne h.1 h.2
  have hzip : ((w.argsort xs).map (xs.getD · 0)).zip ((w.argsort xs).map (ys.getD · 0)) =
      (w.argsort xs).map fun i => (xs.getD i 0, ys.getD i 0) := by
    rw [List.zip_map']
  have eloss : ∀ c', loss (fun x => decide (x ≤ c')) xs ys =
      loss (fun x => decide (x ≤ c')) ((w.argsort xs).map (xs.getD · 0)) ((w.argsort xs).map (ys.getD · 0)) := by
    intro c'
    apply loss_perm
    rw [hzip]
    exact (sorted_rows hw xs ys hl).symm
  suffices hmain : Separates (fun x => decide (x ≤ c)) xs ∧ g = -loss (fun x => decide (x ≤ c)) xs ys by
    refine ⟨g, c, h1, hmain.1, hmain.2, fun c' hc' => ?_⟩
    have := hup c' hc'
    rw [hmain.2] at this
    linarith
  rw [numVariance_eq w hw xs ys hl (by rintro rfl; simp at h2)] at h1
  rw [eloss]
  have hvl : ((w.argsort xs).map (xs.getD · 0)).length = ys.length := by simp [hlen]
  have hpl : ((w.argsort xs).map (ys.getD · 0)).length = ys.length := by simp [hlen]
  have hsepiff : ∀ c, Separates (fun x => decide (x ≤ c)) ((w.argsort xs).map (xs.getD · 0)) → Separates (fun x => decide (x ≤ c)) xs := by
    rintro c ⟨⟨x, hx, h1⟩, ⟨z, hz, h2⟩⟩
    exact ⟨⟨x, hperm.mem_iff.1 hx, h1⟩, ⟨z, hperm.mem_iff.1 hz, h2⟩⟩
  generalize (w.argsort xs).map (xs.getD · 0) = vs at *
  generalize (w.argsort xs).map (ys.getD · 0) = ps at *
  obtain ⟨g', pre, post, h3, h4, h5, h6⟩ := pickCut_spec ys.length vs
    ((List.range (ys.length - 1)).map fun i => -(SS (ps.take (i + 1)) + SS (ps.drop (i + 1)))) (by
    intro h
    have := congrArg List.length h
    simp at this
    omega)
  rw [h6] at h1
  simp only [Except.ok.injEq, Prod.mk.injEq] at h1
  obtain ⟨rfl, rfl⟩ := h1
  have hi : pre.length < ys.length - 1 := by
    have := congrArg List.length h3
    simp at this
    omega
  have hg : g' = -(SS (ps.take (pre.length + 1)) + SS (ps.drop (pre.length + 1))) := by
    have := congrArg (fun l => l[pre.length]?) h3
    simp [hi] at this
    linarith
  set i := pre.length with hidef
  have hi1 : i < vs.length := by omega
  have hi2 : i + 1 < vs.length := by omega
  have hlt : vs[i] < vs[i + 1] := List.pairwise_iff_getElem.1 hstrict i (i + 1) hi1 hi2 (by omega)
  have hnext : nextHigher vs (vs.getD i 0) (ys.length - 1 - i) i = i + 1 := by
    obtain ⟨k, hk⟩ : ∃ k, ys.length - 1 - i = k + 1 := ⟨ys.length - 1 - i - 1, by omega⟩
    rw [hk, nextHigher, if_pos rfl]
    cases k with
    | zero => rfl
    | succ k =>
      rw [nextHigher, if_neg]
      rw [List.getD_eq_getElem _ _ hi1, List.getD_eq_getElem _ _ hi2]
      exact ne_of_gt hlt
  rw [hnext, List.getD_eq_getElem _ _ hi1, List.getD_eq_getElem _ _ hi2]
  have c1 : vs[i] ≤ (vs[i] + vs[i + 1]) / 2 := by linarith
  have c2 : (vs[i] + vs[i + 1]) / 2 < vs[i + 1] := by linarith
  refine ⟨hsepiff _ ⟨⟨vs[i], List.getElem_mem _, by simpa using c1⟩, ⟨vs[i + 1], List.getElem_mem _, by simpa using c2⟩⟩, ?_⟩
  rw [hg, loss]
  have key : vs.zip ps = (vs.zip ps).take (i + 1) ++ (vs.zip ps).drop (i + 1) := (List.take_append_drop _ _).symm
  have hfst : ∀ j (h : j < (vs.zip ps).length), ((vs.zip ps)[j]).1 = vs[j]'(by simp at h; omega) := by
    intro j h
    simp
  have hlo : ∀ z ∈ (vs.zip ps).take (i + 1), z.1 ≤ (vs[i] + vs[i + 1]) / 2 := by
    intro z hz
    obtain ⟨j, hj, rfl⟩ := List.getElem_of_mem hz
    simp only [List.length_take, List.length_zip] at hj
    rw [List.getElem_take, hfst]
    have hji : j ≤ i := by omega
    refine le_trans ?_ c1
    rcases Nat.lt_or_eq_of_le hji with h | h
    · exact (List.pairwise_iff_getElem.1 hstrict j i (by omega) hi1 h).le
    · subst h; exact le_refl _
  have hhi : ∀ z ∈ (vs.zip ps).drop (i + 1), (vs[i] + vs[i + 1]) / 2 < z.1 := by
    intro z hz
    obtain ⟨j, hj, rfl⟩ := List.getElem_of_mem hz
    simp only [List.length_drop, List.length_zip] at hj
    rw [List.getElem_drop, hfst]
    refine lt_of_lt_of_le c2 ?_
    rcases Nat.eq_zero_or_pos j with h | h
    · subst h; exact le_refl _
    · exact (List.pairwise_iff_getElem.1 hstrict (i + 1) (i + 1 + j) hi2 (by omega) (by omega)).le
  have t1 : those (fun x => decide (x ≤ (vs[i] + vs[i + 1]) / 2)) vs ps = ps.take (i + 1) := by
    rw [those, key, List.filter_append, List.filter_eq_self.2 (fun z hz => by simpa using hlo z hz),
      List.filter_eq_nil_iff.2 (fun z hz => by simpa using hhi z hz), List.append_nil, List.map_take,
      List.map_snd_zip (by omega)]
  have t2 : those (fun x => !decide (x ≤ (vs[i] + vs[i + 1]) / 2)) vs ps = ps.drop (i + 1) := by
    rw [those, key, List.filter_append, List.filter_eq_nil_iff.2 (fun z hz => by simpa using hlo z hz),
      List.filter_eq_self.2 (fun z hz => by simpa using hhi z hz), List.nil_append, List.map_drop,
      List.map_snd_zip (by omega)]
  rw [t1, t2]

end Verif.Cart
