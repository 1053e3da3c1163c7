import Verif.Cart.Grow
/-! # Growing trees: the loops find the first best, nothing is raised, growing ends (C85) -/

namespace Verif.Cart
open Avro

/-! ## First best, last best -/

theorem bestOf_some {α : Type} (f : α → ℚ) (y : α) (l : List α) :
    (bestOf f (some (f y, y)) l = some (f y, y) ∧ ∀ z ∈ l, f z ≤ f y) ∨
    ∃ x pre post, l = pre ++ x :: post ∧ f y < f x ∧ (∀ z ∈ pre, f z < f x) ∧ (∀ z ∈ post, f z ≤ f x) ∧
      bestOf f (some (f y, y)) l = some (f x, x) := by
  induction l generalizing y with
  | nil => exact .inl ⟨rfl, by simp⟩
  | cons a l ih =>
    simp only [bestOf]
    by_cases h : f a > f y
    · rw [if_pos h]
      right
      rcases ih a with ⟨h1, h2⟩ | ⟨x, pre, post, h1, h2, h3, h4, h5⟩
      · exact ⟨a, [], l, rfl, h, by simp, h2, h1⟩
      · refine ⟨x, a :: pre, post, by rw [h1]; rfl, h.trans h2, ?_, h4, h5⟩
        intro z hz
        rcases List.mem_cons.1 hz with rfl | hz
        · exact h2
        · exact h3 z hz
    · rw [if_neg h]
      push Not at h
      rcases ih y with ⟨h1, h2⟩ | ⟨x, pre, post, h1, h2, h3, h4, h5⟩
      · refine .inl ⟨h1, ?_⟩
        intro z hz
        rcases List.mem_cons.1 hz with rfl | hz
        · exact h
        · exact h2 z hz
      · refine .inr ⟨x, a :: pre, post, by rw [h1]; rfl, h2, ?_, h4, h5⟩
        intro z hz
        rcases List.mem_cons.1 hz with rfl | hz
        · exact lt_of_le_of_lt h h2
        · exact h3 z hz

/-- The loop over the combinations finds the first best one. -/
theorem bestOf_spec {α : Type} (f : α → ℚ) (l : List α) (hne : l ≠ []) :
    ∃ x pre post, l = pre ++ x :: post ∧ (∀ z ∈ pre, f z < f x) ∧ (∀ z ∈ post, f z ≤ f x) ∧ bestOf f none l = some (f x, x) := by
  cases l with
  | nil => exact absurd rfl hne
  | cons a l =>
    simp only [bestOf]
    rcases bestOf_some f a l with ⟨h1, h2⟩ | ⟨x, pre, post, h1, h2, h3, h4, h5⟩
    · exact ⟨a, [], l, rfl, by simp, h2, h1⟩
    · refine ⟨x, a :: pre, post, by rw [h1]; rfl, ?_, h4, h5⟩
      intro z hz
      rcases List.mem_cons.1 hz with rfl | hz
      · exact h2
      · exact h3 z hz

theorem bestOf_max {α : Type} {f : α → ℚ} {l : List α} {g : ℚ} {x : α} (h : bestOf f none l = some (g, x)) :
    x ∈ l ∧ g = f x ∧ ∀ z ∈ l, f z ≤ f x := by
  cases l with
  | nil => cases h
  | cons a l =>
    obtain ⟨y, pre, post, h1, h2, h3, h4⟩ := bestOf_spec f (a :: l) (by simp)
    rw [h4] at h
    cases h
    rw [h1]
    refine ⟨by simp, rfl, fun z hz => ?_⟩
    rcases List.mem_append.1 hz with hz | hz
    · exact (h2 z hz).le
    · rcases List.mem_cons.1 hz with rfl | hz
      · exact le_refl _
      · exact h3 z hz

/-- `numpy.argmax` gives the first place of the largest number. -/
theorem argmaxFrom_spec (best : ℚ) (place i : Nat) (xs : List ℚ) :
    (argmaxFrom best place i xs = place ∧ ∀ z ∈ xs, z ≤ best) ∨
    ∃ x pre post, xs = pre ++ x :: post ∧ best < x ∧ (∀ z ∈ pre, z < x) ∧ (∀ z ∈ post, z ≤ x) ∧
      argmaxFrom best place i xs = i + pre.length := by
  induction xs generalizing best place i with
  | nil => exact .inl ⟨rfl, by simp⟩
  | cons a xs ih =>
    simp only [argmaxFrom]
    by_cases h : best < a
    · rw [if_pos h]
      right
      rcases ih a i (i + 1) with ⟨h1, h2⟩ | ⟨x, pre, post, h1, h2, h3, h4, h5⟩
      · exact ⟨a, [], xs, rfl, h, by simp, h2, by simpa using h1⟩
      · refine ⟨x, a :: pre, post, by rw [h1]; rfl, h.trans h2, ?_, h4, by rw [h5]; simp; omega⟩
        intro z hz
        rcases List.mem_cons.1 hz with rfl | hz
        · exact h2
        · exact h3 z hz
    · rw [if_neg h]
      push Not at h
      rcases ih best place (i + 1) with ⟨h1, h2⟩ | ⟨x, pre, post, h1, h2, h3, h4, h5⟩
      · refine .inl ⟨h1, ?_⟩
        intro z hz
        rcases List.mem_cons.1 hz with rfl | hz
        · exact h
        · exact h2 z hz
      · refine .inr ⟨x, a :: pre, post, by rw [h1]; rfl, h2, ?_, h4, by rw [h5]; simp; omega⟩
        intro z hz
        rcases List.mem_cons.1 hz with rfl | hz
        · exact lt_of_le_of_lt h h2
        · exact h3 z hz

theorem argmax_spec (xs : List ℚ) (hne : xs ≠ []) :
    ∃ x pre post, xs = pre ++ x :: post ∧ (∀ z ∈ pre, z < x) ∧ (∀ z ∈ post, z ≤ x) ∧ argmax xs = .ok pre.length := by
  cases xs with
  | nil => exact absurd rfl hne
  | cons a xs =>
    simp only [argmax]
    rcases argmaxFrom_spec a 0 1 xs with ⟨h1, h2⟩ | ⟨x, pre, post, h1, h2, h3, h4, h5⟩
    · exact ⟨a, [], xs, rfl, by simp, h2, by simp [h1]⟩
    · refine ⟨x, a :: pre, post, by rw [h1]; rfl, ?_, h4, by rw [h5]; simp; omega⟩
      intro z hz
      rcases List.mem_cons.1 hz with rfl | hz
      · exact h2
      · exact h3 z hz

/-- The place of the best gain is the last one; the cut is between its value and the next that is different, or the last. -/
theorem pickCut_spec (n : Nat) (values gains : List ℚ) (hne : gains ≠ []) :
    ∃ g pre post, gains = pre ++ g :: post ∧ (∀ z ∈ pre, z ≤ g) ∧ (∀ z ∈ post, z < g) ∧
      pickCut n values gains = .ok (g, (values.getD pre.length 0 +
        values.getD (nextHigher values (values.getD pre.length 0) (n - 1 - pre.length) pre.length) 0) / 2) := by
  obtain ⟨x, pre, post, h1, h2, h3, h4⟩ := argmax_spec gains.reverse (by simpa using hne)
  have e : gains = post.reverse ++ x :: pre.reverse := by
    have := congrArg List.reverse h1
    simpa using this
  refine ⟨x, post.reverse, pre.reverse, e, by simpa using h3, by simpa using h2, ?_⟩
  unfold pickCut
  rw [h4]
  have hi : gains.length - 1 - pre.length = post.reverse.length := by
    rw [e]; simp
  simp only [hi]
  rw [e]
  congr 2
  rw [List.getD_eq_getElem _ _ (by simp)]
  simp

/-! ## Nothing is raised -/

theorem combinations_ne {α : Type} (xs : List α) (k : Nat) (h : k ≤ xs.length) : combinations k xs ≠ [] := by
  induction xs generalizing k with
  | nil =>
    have : k = 0 := by simpa using h
    subst this
    simp [combinations]
  | cons x xs ih =>
    cases k with
    | zero => simp [combinations]
    | succ k =>
      simp only [combinations]
      have := ih k (by simpa using h)
      simp [this]

theorem tried_ne {α : Type} (m : Option Nat) (hm : m ≠ some 0) (xs : List α) (h : xs ≠ []) : tried m xs ≠ [] := by
  have hl : 0 < xs.length := List.length_pos_of_ne_nil h
  have hk : 0 < largest m xs.length := by
    unfold largest
    cases m with
    | none => simp only; omega
    | some m =>
      have : m ≠ 0 := fun e => hm (by rw [e])
      simp only
      omega
  unfold tried
  have h1 := combinations_ne xs 1 hl
  obtain ⟨c, hc⟩ := List.exists_mem_of_ne_nil _ h1
  apply List.ne_nil_of_mem (a := c)
  rw [List.mem_flatten]
  exact ⟨combinations 1 xs, List.mem_map.2 ⟨0, List.mem_range.2 hk, rfl⟩, hc⟩

/-- The kind of the split is the kind of the field. -/
def SameKind (c : Cut) (f : Col) : Prop := (∃ q xs, c = .num q ∧ f = .num xs) ∨ (∃ cs xs ns, c = .cats cs ∧ f = .cat xs ns)

theorem canSplit_two {ys : List ℚ} (h : canSplit (.num ys) = true) : 2 ≤ ys.length := by
  simp only [canSplit, gt_iff_lt, decide_eq_true_eq] at h
  have := (List.dedup_sublist ys).length_le
  omega

theorem canSplit_ne {cs : List Nat} {ns : List String} (h : canSplit (.cat cs ns) = true) : cs ≠ [] := by
  rintro rfl
  simp [canSplit, distribution] at h

theorem cumsum_length (a : ℚ) (xs : List ℚ) : (cumsum a xs).length = xs.length := by
  induction xs generalizing a with
  | nil => rfl
  | cons x xs ih => simp [cumsum, ih]

/-- The best split of a field is found whenever the predictand can be split. -/
theorem gainTerm_ok {w : World} (hw : Sorts w.argsort) (hm : w.maxSub ≠ some 0) {y f : Col} (hl : f.len = y.len)
    (hc : ∀ xs ns, f = .cat xs ns → ∀ x ∈ xs, x < ns.length) (hs : canSplit y = true) :
    ∃ g c, gainTerm w y f = .ok (g, c) ∧ SameKind c f := by
  cases y with
  | num ys =>
    have h2 := canSplit_two hs
    cases f with
    | num xs =>
      simp only [Col.len] at hl
      have hlen : (w.argsort xs).length = ys.length := by rw [(hw xs).1.length_eq, List.length_range, hl]
      have : ∃ r, numVariance w xs ys = .ok r := by
        unfold numVariance
        obtain ⟨g, pre, post, -, -, -, h⟩ := pickCut_spec ys.length ((w.argsort xs).map (xs.getD · 0))
          (((cumsum 0 (List.replicate ((w.argsort xs).map (xs.getD · 0)).length 1)).zip
            ((cumsum 0 ((w.argsort xs).map (ys.getD · 0))).zip (cumsum 0 (((w.argsort xs).map (ys.getD · 0)).map (· ^ 2))))).dropLast.map fun p =>
              varGain ((cumsum 0 (List.replicate ((w.argsort xs).map (xs.getD · 0)).length 1)).getLastD 0)
                ((cumsum 0 ((w.argsort xs).map (ys.getD · 0))).getLastD 0)
                ((cumsum 0 (((w.argsort xs).map (ys.getD · 0)).map (· ^ 2))).getLastD 0) p.1 p.2.1 p.2.2) (by
            intro h
            have := congrArg List.length h
            simp only [List.length_map, List.length_dropLast, List.length_zip, cumsum_length, List.length_replicate, hlen,
              List.length_nil] at this
            omega)
        exact ⟨_, h⟩
      obtain ⟨⟨g, c⟩, hr⟩ := this
      exact ⟨g, .num c, by simp [gainTerm, hr], .inl ⟨c, xs, rfl, rfl⟩⟩
    | cat xs ns =>
      simp only [Col.len] at hl
      have hu : uniqueCodes xs ≠ [] := by
        intro h
        have h1 : (uniqueCodes xs).Perm xs.dedup := List.perm_insertionSort _ _
        rw [h] at h1
        have := h1.nil_eq
        rw [eq_comm, List.dedup_eq_nil] at this
        rw [this] at hl
        simp at hl
        omega
      obtain ⟨x, -, -, -, -, -, h⟩ := bestOf_spec (setVariance (partSums xs ys)) (tried w.maxSub (List.range (uniqueCodes xs).length))
        (tried_ne _ hm _ (by simpa using hu))
      refine ⟨setVariance (partSums xs ys) x, .cats x, ?_, .inr ⟨x, xs, ns, rfl, rfl⟩⟩
      simp only [gainTerm, catVariance]
      rw [h]
  | cat cs cn =>
    have h2 := canSplit_ne hs
    cases f with
    | num xs =>
      simp only [Col.len] at hl
      have : ∃ r, numEntropy w xs cs cn = .ok r := by
        unfold numEntropy
        obtain ⟨g, pre, post, -, -, -, h⟩ := pickCut_spec cs.length ((w.argsort xs).map (xs.getD · 0))
          ((List.range cs.length).map (entropyGain w.lg cs.length ((List.range cn.length).map fun c =>
            cumsum 0 (((w.argsort xs).map (cs.getD · 0)).map fun k => if k = c then 1 else 0)))) (by simpa using h2)
        exact ⟨_, h⟩
      obtain ⟨⟨g, c⟩, hr⟩ := this
      exact ⟨g, .num c, by simp [gainTerm, hr], .inl ⟨c, xs, rfl, rfl⟩⟩
    | cat xs ns =>
      simp only [Col.len] at hl
      have hr : ((List.range ns.length).filter fun i => decide (countEq xs i > 0)) ≠ [] := by
        cases xs with
        | nil => simp at hl; exact absurd (List.length_eq_zero_iff.1 hl.symm) h2
        | cons x xs =>
          apply List.ne_nil_of_mem (a := x)
          simp only [List.mem_filter, List.mem_range, countEq]
          refine ⟨hc (x :: xs) ns rfl x (by simp), ?_⟩
          simp
      obtain ⟨x, -, -, -, -, -, h⟩ := bestOf_spec (setEntropy w.lg xs cs ((List.range ns.length).filter fun i => decide (countEq xs i > 0))
        ((List.range cn.length).filter fun j => decide ((distribution cs cn).getD j 0 > 0)))
        (tried w.maxSub ((List.range ns.length).filter fun i => decide (countEq xs i > 0))) (tried_ne _ hm _ hr)
      refine ⟨setEntropy w.lg xs cs ((List.range ns.length).filter fun i => decide (countEq xs i > 0))
        ((List.range cn.length).filter fun j => decide ((distribution cs cn).getD j 0 > 0)) x, .cats x, ?_, .inr ⟨x, xs, ns, rfl, rfl⟩⟩
      simp only [gainTerm, catEntropy]
      rw [h]

/-- The loop over the fields, with what the fields give. -/
theorem bestField_eq {w : World} {y : Col} (fs : List Col) (gs : List (ℚ × Cut)) (i : Nat) (best : Option Split)
    (h : List.Forall₂ (fun f g => gainTerm w y f = .ok g) fs gs) :
    bestField w y best i fs = .ok ((bestOf Split.gain (best.map fun s => (s.gain, s))
      ((gs.zipIdx i).map fun p => (⟨p.1.1 + constant w y, p.1.2, p.2⟩ : Split))).map (·.2)) := by
  induction h generalizing i best with
  | nil => cases best <;> simp [bestField, bestOf]
  | @cons f g fs gs hg _ ih =>
    obtain ⟨g, c⟩ := g
    simp only [bestField]
    rw [hg]
    cases best with
    | none =>
      simp only [List.zipIdx_cons, List.map_cons, Option.map_none, bestOf]
      rw [ih]
      rfl
    | some b =>
      simp only [List.zipIdx_cons, List.map_cons, Option.map_some, bestOf]
      rw [ih]
      by_cases hgt : g + constant w y > b.gain
      · rw [if_pos hgt, if_pos hgt]; rfl
      · rw [if_neg hgt, if_neg hgt]; rfl

/-- **C85.** Among the fields the first with the largest gain is taken. -/
theorem bestField_spec {w : World} {y : Col} {fs : List Col} {gs : List (ℚ × Cut)} (hne : fs ≠ [])
    (h : List.Forall₂ (fun f g => gainTerm w y f = .ok g) fs gs) :
    ∃ s k, bestField w y none 0 fs = .ok (some s) ∧ gs[s.index]? = some (k, s.cut) ∧ s.gain = k + constant w y ∧
      (∀ (j : Nat) (g : ℚ × Cut), j < s.index → gs[j]? = some g → g.1 < k) ∧ (∀ (j : Nat) (g : ℚ × Cut), gs[j]? = some g → g.1 ≤ k) := by
  rw [bestField_eq fs gs 0 none h]
  have hgs : gs ≠ [] := by
    rintro rfl
    cases h
    exact hne rfl
  obtain ⟨s, pre, post, h1, h2, h3, h4⟩ := bestOf_spec Split.gain
    ((gs.zipIdx 0).map fun p => (⟨p.1.1 + constant w y, p.1.2, p.2⟩ : Split)) (by simpa using hgs)
  have hget : ∀ j : Nat, ((gs.zipIdx 0).map fun p => (⟨p.1.1 + constant w y, p.1.2, p.2⟩ : Split))[j]? =
      gs[j]?.map fun g => ⟨g.1 + constant w y, g.2, j⟩ := by
    intro j
    rw [List.getElem?_map, List.getElem?_zipIdx, Option.map_map]
    simp [Function.comp_def]
  have hs := hget pre.length
  rw [h1] at hs
  simp only [List.getElem?_append_right (le_refl _), Nat.sub_self, List.getElem?_cons_zero] at hs
  cases hx : gs[pre.length]? with
  | none => rw [hx] at hs; cases hs
  | some k =>
    rw [hx] at hs
    simp only [Option.map_some, Option.some.injEq] at hs
    refine ⟨s, k.1, by rw [Option.map_none, h4]; rfl, by rw [hs]; simp [hx], by rw [hs], ?_, ?_⟩
    · intro j g hj hg
      rw [hs] at hj
      simp only at hj
      have hj2 := hget j
      rw [h1, hg, List.getElem?_append_left hj] at hj2
      have := h2 _ (List.mem_of_getElem? hj2)
      rw [hs] at this
      simp only at this
      linarith
    · intro j g hg
      have hj2 := hget j
      rw [hg, h1] at hj2
      have hm := List.mem_of_getElem? hj2
      have : (g.1 + constant w y) ≤ s.gain := by
        rcases List.mem_append.1 hm with hm | hm
        · exact (h2 _ hm).le
        · rcases List.mem_cons.1 hm with hm | hm
          · rw [← hm]
          · exact h3 _ hm
      rw [hs] at this
      simp only at this
      linarith

theorem forall₂_exists {α β : Type} {R : α → β → Prop} (l : List α) (h : ∀ a ∈ l, ∃ b, R a b) : ∃ m, List.Forall₂ R l m := by
  induction l with
  | nil => exact ⟨[], .nil⟩
  | cons a l ih =>
    obtain ⟨b, hb⟩ := h a (by simp)
    obtain ⟨m, hm⟩ := ih fun x hx => h x (by simp [hx])
    exact ⟨b :: m, .cons hb hm⟩

theorem sound_at {n : Nat} {d : Data} {y : Col} (h : Sound n d y) {rs : List Nat} (hr : ∀ i ∈ rs, i < n) : Sound rs.length (d.at rs) (y.at rs) := by
  constructor
  · simpa [Data.at] using h.some_field
  · simpa [Data.at] using h.names
  · intro f hf
    simp only [Data.at, List.mem_map] at hf
    obtain ⟨g, -, rfl⟩ := hf
    exact at_len rs g
  · exact at_len rs y
  · intro xs ns hf x hx
    simp only [Data.at, List.mem_map] at hf
    obtain ⟨g, hg, he⟩ := hf
    cases g with
    | num => simp [Col.at] at he
    | cat zs ms =>
      simp only [Col.at, Col.cat.injEq] at he
      obtain ⟨rfl, rfl⟩ := he
      obtain ⟨i, hi, rfl⟩ := List.mem_map.1 hx
      have hl := h.len _ hg
      simp only [Col.len] at hl
      have hi2 : i < zs.length := by rw [hl]; exact hr i hi
      rw [List.getD_eq_getElem _ _ hi2]
      exact h.codes zs ms hg _ (List.getElem_mem hi2)
  · intro xs ns he x hx
    cases y with
    | num => simp [Col.at] at he
    | cat zs ms =>
      simp only [Col.at, Col.cat.injEq] at he
      obtain ⟨rfl, rfl⟩ := he
      obtain ⟨i, hi, rfl⟩ := List.mem_map.1 hx
      have hl := h.ylen
      simp only [Col.len] at hl
      have hi2 : i < zs.length := by rw [hl]; exact hr i hi
      rw [List.getD_eq_getElem _ _ hi2]
      exact h.ycodes zs ms rfl _ (List.getElem_mem hi2)

theorem splitOnce_ok {w : World} (hw : Sorts w.argsort) (hm : w.maxSub ≠ some 0) {n : Nat} {d : Data} {y : Col} (hd : Sound n d y)
    (hs : canSplit y = true) : ∃ t, splitOnce w d y = .ok t := by
  obtain ⟨gs, hgs⟩ := forall₂_exists (R := fun f (g : ℚ × Cut) => gainTerm w y f = .ok g ∧ SameKind g.2 f) d.fields (by
    intro f hf
    obtain ⟨g, c, h1, h2⟩ := gainTerm_ok hw hm (y := y) (f := f) ((hd.len f hf).trans hd.ylen.symm)
      (fun xs ns he x hx => hd.codes xs ns (he ▸ hf) x hx) hs
    exact ⟨(g, c), h1, h2⟩)
  obtain ⟨s, k, h1, h2, -⟩ := bestField_spec hd.some_field (hgs.imp fun _ _ h => h.1)
  have hkind : ∃ f, d.fields[s.index]? = some f ∧ SameKind s.cut f := by
    have hlt : s.index < gs.length := (List.getElem?_eq_some_iff.1 h2).1
    have hlt2 : s.index < d.fields.length := by rw [hgs.length_eq]; exact hlt
    refine ⟨d.fields[s.index], List.getElem?_eq_getElem hlt2, ?_⟩
    have := hgs.get (i := s.index) hlt2 hlt
    have h3 := (List.getElem?_eq_some_iff.1 h2).2
    simp only [List.get_eq_getElem] at this
    rw [h3] at this
    exact this.2
  obtain ⟨f, hf, hk⟩ := hkind
  unfold splitOnce
  rw [h1]
  simp only
  rw [hf]
  simp only
  have hp : ∃ sel, passSelection f s.cut = .ok sel := by
    rcases hk with ⟨q, xs, h3, rfl⟩ | ⟨cs, xs, ns, h3, rfl⟩ <;> rw [h3] <;> exact ⟨_, rfl⟩
  obtain ⟨sel, hsel⟩ := hp
  rw [hsel]
  simp only
  have hlen : ∀ sel, ∃ m, (d.select sel).len = .ok m := by
    intro sel
    unfold Data.len Data.select
    cases hdf : d.fields with
    | nil => exact absurd hdf hd.some_field
    | cons g gs => exact ⟨_, rfl⟩
  obtain ⟨a, ha⟩ := hlen sel
  obtain ⟨b, hb⟩ := hlen (sel.map not)
  rw [ha, hb]
  simp only
  split
  · exact ⟨_, rfl⟩
  · exact ⟨_, rfl⟩

theorem canSplit_pos {rs : List Nat} {y : Col} (h : canSplit (y.at rs) = true) : 0 < rs.length := by
  cases y with
  | num ys => have := canSplit_two h; simp at this; omega
  | cat cs ns => have := canSplit_ne h; simp at this; exact List.length_pos_of_ne_nil this

theorem filter_lt {rs : List Nat} {p : Nat → Bool} (h : (rs.filter fun i => !p i) ≠ []) : (rs.filter p).length < rs.length := by
  have := (List.filter_append_perm p rs).length_eq
  rw [List.length_append] at this
  have := List.length_pos_of_ne_nil h
  omega

/-- **C85.** Growing ends without an exception, whatever the condition; fuel as large as the number of rows is enough. -/
theorem splitUntil_total {w : World} (hw : Sorts w.argsort) (hm : w.maxSub ≠ some 0) {condition : Node → Nat → Bool} {n : Nat} {d : Data}
    {y : Col} (hd : Sound n d y) (fuel depth : Nat) (rs : List Nat) (hr : ∀ i ∈ rs, i < n) (hf : rs.length ≤ fuel) :
    ∃ t, ∀ m, rs.length ≤ m → splitUntil w condition m depth (d.at rs) (y.at rs) = .ok t := by
  induction fuel generalizing depth rs with
  | zero =>
    refine ⟨.leaf (d.at rs) (y.at rs) none, fun m _ => ?_⟩
    unfold splitUntil
    rw [if_neg]
    intro hc
    have := canSplit_pos hc
    omega
  | succ fuel ih =>
    by_cases hc : canSplit (y.at rs) = true
    · obtain ⟨t, ht⟩ := splitOnce_ok hw hm (sound_at hd hr) hc
      have step : ∀ m, rs.length ≤ m → ∃ m', m = m' + 1 ∧ rs.length ≤ m' + 1 := by
        intro m hm
        have := canSplit_pos hc
        exact ⟨m - 1, by omega, by omega⟩
      rcases splitOnce_cases ht with ⟨s, -, rfl, -, -⟩ | ⟨s, -, hs, h1, h2, rfl⟩
      · refine ⟨.leaf (d.at rs) (y.at rs) (some s), fun m hm => ?_⟩
        obtain ⟨m', rfl, -⟩ := step m hm
        unfold splitUntil
        rw [if_pos hc]
        simp only
        rw [ht]
      · have l1 := filter_lt h2
        have l2 := filter_lt (rs := rs) (p := fun i => !goesB d s i) (by simpa using h1)
        obtain ⟨p, hp⟩ := ih (depth + 1) (rs.filter (goesB d s)) (fun i hi => hr i (List.mem_filter.1 hi).1) (by omega)
        obtain ⟨f, hf⟩ := ih (depth + 1) (rs.filter fun i => !goesB d s i) (fun i hi => hr i (List.mem_filter.1 hi).1) (by omega)
        by_cases hcond : condition (.node (d.at rs) (y.at rs) s (.leaf (d.at (rs.filter (goesB d s))) (y.at (rs.filter (goesB d s))) none)
            (.leaf (d.at (rs.filter fun i => !goesB d s i)) (y.at (rs.filter fun i => !goesB d s i)) none)) depth = true
        · refine ⟨.node (d.at rs) (y.at rs) s p f, fun m hm => ?_⟩
          obtain ⟨m', rfl, hm'⟩ := step m hm
          unfold splitUntil
          rw [if_pos hc]
          simp only
          rw [ht]
          simp only
          rw [if_pos hcond, hp m' (by omega), hf m' (by omega)]
        · refine ⟨.node (d.at rs) (y.at rs) s (.leaf (d.at (rs.filter (goesB d s))) (y.at (rs.filter (goesB d s))) none)
            (.leaf (d.at (rs.filter fun i => !goesB d s i)) (y.at (rs.filter fun i => !goesB d s i)) none), fun m hm => ?_⟩
          obtain ⟨m', rfl, hm'⟩ := step m hm
          unfold splitUntil
          rw [if_pos hc]
          simp only
          rw [ht]
          simp only
          rw [if_neg hcond]
    · refine ⟨.leaf (d.at rs) (y.at rs) none, fun m _ => ?_⟩
      unfold splitUntil
      rw [if_neg hc]

/-- **C85.** A tree grows from every dataset, and it splits its rows. -/
theorem grow_total {w : World} (hw : Sorts w.argsort) (hm : w.maxSub ≠ some 0) (condition : Node → Nat → Bool) {n : Nat} {d : Data} {y : Col}
    (hd : Sound n d y) : ∃ t, grow w condition d y = .ok t ∧ Splits d y (List.range n) t := by
  obtain ⟨t, ht⟩ := splitUntil_total hw hm (condition := condition) hd n 1 (List.range n) (by simp) (by simp)
  have h := ht (y.len + 1) (by rw [hd.ylen]; simp)
  rw [data_at_all hd.len, at_all hd.ylen] at h
  exact ⟨t, h, grow_splits hd h⟩

end Verif.Cart
