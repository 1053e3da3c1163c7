import Verif.Score.Kernel
import Mathlib.Probability.Distributions.Gaussian.Real
/-! # Naive Bayes (`titus/lib/model/naive.py`)

Doubles are real numbers; `**` raises OverflowError at 2^1024 (see `Link`). The record forms of `multinomial` and `bernoulli` only
take the field `values` out (naive.py 110-111, 128-129). -/

namespace Verif.Score

/-! ## Model -/

/-- The fields `mean` and `variance` of a class model. -/
structure Feature where
  mean : ℝ
  variance : ℝ

/-- The body of the loops of `model.naive.gaussian` (naive.py 49-54, 63-68). -/
noncomputable def gaussStep (acc x : ℝ) (f : Feature) : Res ℝ :=
  if f.variance ≤ 0 then .error (.rt 10001)
  else do
    let sq ← pySq (x - f.mean)
    .ok (acc + -(1 / 2) * Real.log (2 * Real.pi * f.variance) + -(1 / 2) * (sq / f.variance))

/-- The loop over arrays (48-55). -/
noncomputable def gaussLoop : ℝ → List (ℝ × Feature) → Res ℝ
  | acc, [] => .ok acc
  | acc, (x, f) :: l => (gaussStep acc x f).bind fun a => gaussLoop a l

/-- `model.naive.gaussian` of arrays (44-55). -/
noncomputable def gaussian (datum : List ℝ) (model : List Feature) : Res ℝ :=
  if datum.length ≠ model.length then .error (.rt 10000) else gaussLoop 0 (datum.zip model)

/-- `set(d.keys()) == set(e.keys())`. -/
def sameKeys {α β : Type} (d : PyDict String α) (e : PyDict String β) : Bool :=
  (PyDict.keys d).all (fun k => decide (k ∈ PyDict.keys e)) && (PyDict.keys e).all fun k => decide (k ∈ PyDict.keys d)

/-- The loop over maps (61-69). -/
noncomputable def gaussMapLoop (model : PyDict String Feature) : ℝ → PyDict String ℝ → Res ℝ
  | acc, [] => .ok acc
  | acc, (k, x) :: l => match PyDict.get? model k with
    | none => .error (.py "KeyError")
    | some f => (gaussStep acc x f).bind fun a => gaussMapLoop model a l

/-- `model.naive.gaussian` of maps (44, 56-69). -/
noncomputable def gaussianMap (datum : PyDict String ℝ) (model : PyDict String Feature) : Res ℝ :=
  if sameKeys datum model = false then .error (.rt 10000) else gaussMapLoop model 0 datum

/-- `tiny` (29): the smallest normal double. -/
noncomputable def tiny : ℝ := 1 / 2 ^ 1022

open Classical in
/-- `doarray` (83-93). -/
noncomputable def multinomial (datum model : List ℝ) : Res ℝ :=
  if model.length = 0 ∨ ¬ ∀ x ∈ model, 0 < x then .error (.rt 10011)
  else if datum.length ≠ model.length then .error (.rt 10010)
  else .ok ((datum.zip model).foldl (fun ll p => ll + p.1 * Real.log (p.2 / model.sum + tiny)) 0)

/-- The loop of `domap` (104-107). -/
noncomputable def multiLoop (model : PyDict String ℝ) : ℝ → PyDict String ℝ → Res ℝ
  | acc, [] => .ok acc
  | acc, (k, d) :: l => match PyDict.get? model k with
    | none => .error (.py "KeyError")
    | some p => multiLoop model (acc + d * Real.log p) l

open Classical in
/-- `domap` (95-107). The variable `p` of line 105 is not used. -/
noncomputable def multinomialMap (datum model : PyDict String ℝ) : Res ℝ :=
  if model.length = 0 ∨ ¬ ∀ x ∈ model.map Prod.snd, 0 < x then .error (.rt 10011)
  else if sameKeys datum model = false then .error (.rt 10010)
  else multiLoop model 0 datum

open Classical in
/-- The first loop of `model.naive.bernoulli` (132-135). -/
noncomputable def bernLoop : ℝ → List ℝ → Res ℝ
  | acc, [] => .ok acc
  | acc, v :: l => if v ≤ 0 ∨ 1 ≤ v then .error (.rt 10020) else bernLoop (acc + Real.log (1 - v)) l

/-- The second loop (136-139). -/
noncomputable def bernItems (model : PyDict String ℝ) : ℝ → List String → ℝ
  | acc, [] => acc
  | acc, item :: l => match PyDict.get? model item with
    | none => bernItems model acc l
    | some p => bernItems model (acc + (Real.log p - Real.log (1 - p))) l

/-- `model.naive.bernoulli` (127-140). -/
noncomputable def bernoulli (datum : List String) (model : PyDict String ℝ) : Res ℝ := do
  let ll ← bernLoop 0 (model.map Prod.snd)
  .ok (bernItems model ll datum)

/-! ## gaussian -/

/-- The specification: Mathlib's density. -/
noncomputable def logDensity (f : Feature) (x : ℝ) : ℝ := Real.log (ProbabilityTheory.gaussianPDFReal f.mean f.variance.toNNReal x)

theorem gaussStep_ok (acc x : ℝ) (f : Feature) (hv : 0 < f.variance) (hx : (x - f.mean) ^ 2 < top) :
    gaussStep acc x f = .ok (acc + logDensity f x) := by
  unfold gaussStep pySq
  rw [if_neg (not_le.2 hv), if_neg (not_le.2 hx)]
  simp only [bind, Except.bind]
  congr 1
  unfold logDensity ProbabilityTheory.gaussianPDFReal
  have hpi := Real.pi_pos
  have hpos : 0 < 2 * Real.pi * f.variance := by positivity
  rw [Real.coe_toNNReal _ hv.le, Real.log_mul (by positivity) (Real.exp_ne_zero _), Real.log_exp, Real.log_inv, Real.log_sqrt hpos.le]
  field_simp
  ring

theorem gaussLoop_ok (acc : ℝ) (l : List (ℝ × Feature)) (h : ∀ p ∈ l, 0 < p.2.variance ∧ (p.1 - p.2.mean) ^ 2 < top) :
    gaussLoop acc l = .ok (acc + (l.map fun p => logDensity p.2 p.1).sum) := by
  induction l generalizing acc with
  | nil => simp [gaussLoop]
  | cons p l ih =>
    obtain ⟨x, f⟩ := p
    simp only [gaussLoop]
    rw [gaussStep_ok acc x f (h (x, f) (by simp)).1 (h (x, f) (by simp)).2]
    simp only [Except.bind]
    rw [ih _ fun p hp => h p (by simp [hp])]
    simp [add_assoc]

/-- `model.naive.gaussian` is the sum of the logarithms of the normal densities. -/
theorem gaussian_partial (datum : List ℝ) (model : List Feature) (hl : datum.length = model.length)
    (h : ∀ p ∈ datum.zip model, 0 < p.2.variance ∧ (p.1 - p.2.mean) ^ 2 < top) :
    gaussian datum model = .ok (List.zipWith (fun x f => logDensity f x) datum model).sum := by
  unfold gaussian
  rw [if_neg (by simpa using hl), gaussLoop_ok 0 _ h, zero_add]
  congr 2
  rw [List.zip, List.map_zipWith]

theorem gaussLoop_first (acc : ℝ) (pre post : List (ℝ × Feature)) (x : ℝ) (f : Feature)
    (h : ∀ p ∈ pre, 0 < p.2.variance ∧ (p.1 - p.2.mean) ^ 2 < top) (e : Err) (he : ∀ a, gaussStep a x f = .error e) :
    gaussLoop acc (pre ++ (x, f) :: post) = .error e := by
  induction pre generalizing acc with
  | nil =>
    simp only [List.nil_append, gaussLoop]
    rw [he]
    rfl
  | cons p pre ih =>
    obtain ⟨y, g⟩ := p
    simp only [List.cons_append, gaussLoop]
    rw [gaussStep_ok acc y g (h (y, g) (by simp)).1 (h (y, g) (by simp)).2]
    exact ih _ fun p hp => h p (by simp [hp])

/-- What is raised: other lengths; otherwise the first variance that is not positive. -/
theorem gaussian_errors (datum : List ℝ) (model : List Feature) :
    (datum.length ≠ model.length → gaussian datum model = .error (.rt 10000)) ∧
    ∀ pre x f post, datum.zip model = pre ++ (x, f) :: post → datum.length = model.length →
      (∀ p ∈ pre, 0 < p.2.variance ∧ (p.1 - p.2.mean) ^ 2 < top) →
      (f.variance ≤ 0 → gaussian datum model = .error (.rt 10001)) ∧
      (0 < f.variance → top ≤ (x - f.mean) ^ 2 → gaussian datum model = .error (.py "OverflowError")) := by
  refine ⟨fun h => by unfold gaussian; rw [if_pos h], ?_⟩
  intro pre x f post hz hl hp
  unfold gaussian
  rw [if_neg (by simpa using hl), hz]
  refine ⟨fun hv => gaussLoop_first 0 pre post x f hp _ fun a => ?_, fun hv ht => gaussLoop_first 0 pre post x f hp _ fun a => ?_⟩
  · unfold gaussStep; rw [if_pos hv]
  · unfold gaussStep pySq; rw [if_neg (not_le.2 hv), if_pos ht]; rfl

/-- A far datum raises a Python error. -/
theorem gaussian_overflow_violation : gaussian [2 ^ 512] [⟨0, 1⟩] = .error (.py "OverflowError") := by
  refine ((gaussian_errors [2 ^ 512] [⟨0, 1⟩]).2 [] (2 ^ 512) ⟨0, 1⟩ [] rfl rfl (by simp)).2 (by norm_num) ?_
  simp only [sub_zero]
  rw [← pow_mul]
  exact le_refl _

theorem sameKeys_iff {α β : Type} (d : PyDict String α) (e : PyDict String β) :
    sameKeys d e = true ↔ ∀ k, k ∈ PyDict.keys d ↔ k ∈ PyDict.keys e := by
  simp only [sameKeys, Bool.and_eq_true, List.all_eq_true, decide_eq_true_eq]
  exact ⟨fun h k => ⟨h.1 k, h.2 k⟩, fun h => ⟨fun k => (h k).1, fun k => (h k).2⟩⟩

/-- Maps: the same sum, over the features by name. -/
theorem gaussianMap_partial (datum : PyDict String ℝ) (model : PyDict String Feature) (g : String → Feature)
    (hk : ∀ k, k ∈ PyDict.keys datum ↔ k ∈ PyDict.keys model) (hg : ∀ k ∈ PyDict.keys model, PyDict.get? model k = some (g k))
    (h : ∀ p ∈ datum, 0 < (g p.1).variance ∧ (p.2 - (g p.1).mean) ^ 2 < top) :
    gaussianMap datum model = .ok (datum.map fun p => logDensity (g p.1) p.2).sum := by
  unfold gaussianMap
  rw [if_neg (by rw [(sameKeys_iff datum model).2 hk]; simp)]
  have : ∀ (l : PyDict String ℝ) (acc : ℝ), (∀ p ∈ l, p ∈ datum) →
      gaussMapLoop model acc l = .ok (acc + (l.map fun p => logDensity (g p.1) p.2).sum) := by
    intro l
    induction l with
    | nil => intro acc _; simp [gaussMapLoop]
    | cons p l ih =>
      intro acc hl
      obtain ⟨k, x⟩ := p
      have hm : (k, x) ∈ datum := hl _ (by simp)
      simp only [gaussMapLoop]
      rw [hg k ((hk k).1 (List.mem_map.2 ⟨_, hm, rfl⟩))]
      simp only
      rw [gaussStep_ok acc x (g k) (h _ hm).1 (h _ hm).2]
      simp only [Except.bind]
      rw [ih _ fun p hp => hl p (by simp [hp])]
      simp [add_assoc]
  rw [this datum 0 fun p hp => hp, zero_add]

theorem gaussianMap_errors (datum : PyDict String ℝ) (model : PyDict String Feature) :
    ((¬ ∀ k, k ∈ PyDict.keys datum ↔ k ∈ PyDict.keys model) → gaussianMap datum model = .error (.rt 10000)) ∧
    ((∀ k, k ∈ PyDict.keys datum ↔ k ∈ PyDict.keys model) → ∀ (g : String → Feature),
      (∀ k ∈ PyDict.keys model, PyDict.get? model k = some (g k)) → (∀ p ∈ datum, (p.2 - (g p.1).mean) ^ 2 < top) →
      (∃ p ∈ datum, (g p.1).variance ≤ 0) → gaussianMap datum model = .error (.rt 10001)) := by
  constructor
  · intro h
    unfold gaussianMap
    rw [if_pos]
    have : sameKeys datum model ≠ true := fun h' => h ((sameKeys_iff datum model).1 h')
    simpa using this
  · intro hk g hg hx hex
    unfold gaussianMap
    rw [if_neg (by rw [(sameKeys_iff datum model).2 hk]; simp)]
    have : ∀ (l : PyDict String ℝ) (acc : ℝ), (∀ p ∈ l, p ∈ datum) → (∃ p ∈ l, (g p.1).variance ≤ 0) →
        gaussMapLoop model acc l = .error (.rt 10001) := by
      intro l
      induction l with
      | nil => rintro acc _ ⟨p, hp, _⟩; simp at hp
      | cons p l ih =>
        intro acc hl hex
        obtain ⟨k, x⟩ := p
        have hm : (k, x) ∈ datum := hl _ (by simp)
        simp only [gaussMapLoop]
        rw [hg k ((hk k).1 (List.mem_map.2 ⟨_, hm, rfl⟩))]
        simp only
        by_cases hv : (g k).variance ≤ 0
        · unfold gaussStep
          rw [if_pos hv]
          rfl
        · rw [gaussStep_ok acc x (g k) (not_le.1 hv) (hx _ hm)]
          refine ih _ (fun p hp => hl p (by simp [hp])) ?_
          obtain ⟨p, hp, hpv⟩ := hex
          rcases List.mem_cons.1 hp with rfl | hp
          · exact absurd hpv hv
          · exact ⟨p, hp, hpv⟩
    exact this datum 0 (fun p hp => hp) hex

example : ∀ p ∈ [(1 : ℝ), 2].zip [(⟨0, 1⟩ : Feature), ⟨2, 3⟩], 0 < p.2.variance ∧ (p.1 - p.2.mean) ^ 2 < top := by
  have h := one_lt_top
  intro p hp
  simp only [List.zip_cons_cons, List.zip_nil_right, List.mem_cons, List.not_mem_nil, or_false] at hp
  rcases hp with rfl | rfl
  · refine ⟨by norm_num, ?_⟩
    norm_num
    exact h
  · refine ⟨by norm_num, ?_⟩
    norm_num
    linarith

/-! ## multinomial -/

/-- `∑ d log p` over the entries. -/
noncomputable def logLike (l : List (ℝ × ℝ)) : ℝ := (l.map fun p => p.1 * Real.log p.2).sum

theorem foldl_sum {α : Type} (f : α → ℝ) (l : List α) (a : ℝ) : l.foldl (fun acc p => acc + f p) a = a + (l.map f).sum := by
  induction l generalizing a with
  | nil => simp
  | cons b l ih => simp [ih, add_assoc]

/-- Arrays: `∑ d log (p / ∑ p + tiny)`. -/
theorem multinomial_spec (datum model : List ℝ) (hne : model ≠ []) (hpos : ∀ x ∈ model, 0 < x) (hl : datum.length = model.length) :
    multinomial datum model = .ok (logLike (datum.zip (model.map fun p => p / model.sum + tiny))) := by
  unfold multinomial
  rw [if_neg (by
    rintro (h | h)
    · exact hne (List.length_eq_zero_iff.1 h)
    · exact h hpos), if_neg (by simpa using hl), foldl_sum (fun p : ℝ × ℝ => p.1 * Real.log (p.2 / model.sum + tiny)), zero_add]
  unfold logLike
  rw [List.zip_map_right, List.map_map]
  rfl

theorem tiny_pos : 0 < tiny := by unfold tiny; positivity

theorem sum_pos_of {l : List ℝ} (hne : l ≠ []) (hpos : ∀ x ∈ l, 0 < x) : 0 < l.sum :=
  List.sum_pos l hpos hne

/-- The tiny constant changes the log-likelihood `∑ d log (p / ∑ p)` by at most `tiny * ∑ d / (p / ∑ p)`. -/
theorem multinomial_near (datum model : List ℝ) (hne : model ≠ []) (hpos : ∀ x ∈ model, 0 < x) (hl : datum.length = model.length)
    (hd : ∀ d ∈ datum, 0 ≤ d) : ∃ ll, multinomial datum model = .ok ll ∧
      logLike (datum.zip (model.map (· / model.sum))) ≤ ll ∧
      ll ≤ logLike (datum.zip (model.map (· / model.sum))) + tiny * ((datum.zip model).map fun p => p.1 / (p.2 / model.sum)).sum := by
  refine ⟨_, multinomial_spec datum model hne hpos hl, ?_⟩
  have hs := sum_pos_of hne hpos
  generalize model.sum = t at hs
  have key : ∀ l : List (ℝ × ℝ), (∀ p ∈ l, 0 ≤ p.1 ∧ 0 < p.2) →
      (l.map fun p => p.1 * Real.log (p.2 / t)).sum ≤ (l.map fun p => p.1 * Real.log (p.2 / t + tiny)).sum ∧
      (l.map fun p => p.1 * Real.log (p.2 / t + tiny)).sum ≤
        (l.map fun p => p.1 * Real.log (p.2 / t)).sum + tiny * (l.map fun p => p.1 / (p.2 / t)).sum := by
    intro l
    induction l with
    | nil => simp
    | cons p l ih =>
      intro h
      obtain ⟨h1, h2⟩ := h p (by simp)
      obtain ⟨i1, i2⟩ := ih fun p hp => h p (by simp [hp])
      have hq : 0 < p.2 / t := div_pos h2 hs
      have ht := tiny_pos
      have a1 : Real.log (p.2 / t) ≤ Real.log (p.2 / t + tiny) := Real.log_le_log hq (by linarith)
      have a2 : Real.log (p.2 / t + tiny) ≤ Real.log (p.2 / t) + tiny / (p.2 / t) := by
        have : p.2 / t + tiny = p.2 / t * (1 + tiny / (p.2 / t)) := by field_simp
        rw [this, Real.log_mul hq.ne' (by positivity)]
        have := Real.log_le_sub_one_of_pos (show 0 < 1 + tiny / (p.2 / t) by positivity)
        linarith
      simp only [List.map_cons, List.sum_cons]
      have b1 := mul_le_mul_of_nonneg_left a1 h1
      have b2 := mul_le_mul_of_nonneg_left a2 h1
      refine ⟨by linarith, ?_⟩
      have : p.1 * (Real.log (p.2 / t) + tiny / (p.2 / t)) = p.1 * Real.log (p.2 / t) + tiny * (p.1 / (p.2 / t)) := by ring
      rw [this] at b2
      linarith
  have := key (datum.zip model) (by
    intro p hp
    obtain ⟨ha, hb⟩ := List.of_mem_zip hp
    exact ⟨hd _ ha, hpos _ hb⟩)
  unfold logLike
  simpa [List.zip_map_right, List.map_map, Function.comp_def] using this

theorem multinomial_errors (datum model : List ℝ) :
    (model = [] ∨ (∃ x ∈ model, x ≤ 0) → multinomial datum model = .error (.rt 10011)) ∧
    (model ≠ [] → (∀ x ∈ model, 0 < x) → datum.length ≠ model.length → multinomial datum model = .error (.rt 10010)) := by
  constructor
  · intro h
    unfold multinomial
    rw [if_pos]
    rcases h with rfl | ⟨x, hx, h0⟩
    · exact .inl rfl
    · exact .inr fun h => absurd (h x hx) (not_lt.2 h0)
  · intro hne hpos hl
    unfold multinomial
    rw [if_neg (by
      rintro (h | h)
      · exact hne (List.length_eq_zero_iff.1 h)
      · exact h hpos), if_pos hl]

/-- Maps: `∑ d log p`, not normalized. -/
theorem multinomialMap_spec (datum model : PyDict String ℝ) (g : String → ℝ) (hne : model ≠ [])
    (hpos : ∀ x ∈ model.map Prod.snd, 0 < x) (hk : ∀ k, k ∈ PyDict.keys datum ↔ k ∈ PyDict.keys model)
    (hg : ∀ k ∈ PyDict.keys model, PyDict.get? model k = some (g k)) :
    multinomialMap datum model = .ok (logLike (datum.map fun p => (p.2, g p.1))) := by
  unfold multinomialMap
  rw [if_neg (by
    rintro (h | h)
    · exact hne (List.length_eq_zero_iff.1 h)
    · exact h hpos), if_neg (by rw [(sameKeys_iff datum model).2 hk]; simp)]
  have : ∀ (l : PyDict String ℝ) (acc : ℝ), (∀ p ∈ l, p ∈ datum) →
      multiLoop model acc l = .ok (acc + logLike (l.map fun p => (p.2, g p.1))) := by
    intro l
    induction l with
    | nil => intro acc _; simp [multiLoop, logLike]
    | cons p l ih =>
      intro acc hl
      obtain ⟨k, d⟩ := p
      have hm : (k, d) ∈ datum := hl _ (by simp)
      simp only [multiLoop]
      rw [hg k ((hk k).1 (List.mem_map.2 ⟨_, hm, rfl⟩))]
      simp only
      rw [ih _ fun p hp => hl p (by simp [hp])]
      simp [logLike, add_assoc]
  rw [this datum 0 fun p hp => hp, zero_add]

theorem multinomialMap_errors (datum model : PyDict String ℝ) :
    (model = [] ∨ (∃ x ∈ model.map Prod.snd, x ≤ 0) → multinomialMap datum model = .error (.rt 10011)) ∧
    (model ≠ [] → (∀ x ∈ model.map Prod.snd, 0 < x) → (¬ ∀ k, k ∈ PyDict.keys datum ↔ k ∈ PyDict.keys model) →
      multinomialMap datum model = .error (.rt 10010)) := by
  constructor
  · intro h
    unfold multinomialMap
    rw [if_pos]
    rcases h with rfl | ⟨x, hx, h0⟩
    · exact .inl rfl
    · exact .inr fun h => absurd (h x hx) (not_lt.2 h0)
  · intro hne hpos hk
    unfold multinomialMap
    rw [if_neg (by
      rintro (h | h)
      · exact hne (List.length_eq_zero_iff.1 h)
      · exact h hpos), if_pos]
    have : sameKeys datum model ≠ true := fun h' => hk ((sameKeys_iff datum model).1 h')
    simpa using this

/-- The same class model as an array and as a map has different scores: the map form is not normalized. A class model with larger
numbers but equal proportions scores higher. -/
theorem multinomial_map_violation :
    multinomialMap [("a", 1)] [("a", 2)] = .ok (Real.log 2) ∧
    (∃ ll, multinomial [1] [2] = .ok ll ∧ ll ≠ Real.log 2) ∧
    multinomialMap [("a", 1)] [("a", 4)] = .ok (Real.log 4) ∧ Real.log 2 < Real.log 4 ∧ multinomial [1] [2] = multinomial [1] [4] := by
  have h1 : ∀ v : ℝ, 0 < v → multinomialMap [("a", 1)] [("a", v)] = .ok (Real.log v) := by
    intro v hv
    rw [multinomialMap_spec _ _ (fun _ => v) (by simp) (by simpa using hv) (by simp [PyDict.keys])
      (by simp [PyDict.keys, PyDict.get?])]
    simp [logLike]
  have h2 : ∀ v : ℝ, 0 < v → multinomial [1] [v] = .ok (Real.log (1 + tiny)) := by
    intro v hv
    rw [multinomial_spec [1] [v] (by simp) (by simpa using hv) rfl]
    simp [logLike, hv.ne']
  refine ⟨h1 2 (by norm_num), ⟨_, h2 2 (by norm_num), ?_⟩, h1 4 (by norm_num), Real.log_lt_log (by norm_num) (by norm_num),
    by rw [h2 2 (by norm_num), h2 4 (by norm_num)]⟩
  have : tiny < 1 := by
    unfold tiny
    rw [div_lt_one (by positivity)]
    exact one_lt_pow₀ (by norm_num) (by norm_num)
  exact ne_of_lt (Real.log_lt_log (by linarith [tiny_pos]) (by linarith))

/-! ## bernoulli -/

theorem bernLoop_ok (acc : ℝ) (l : List ℝ) (h : ∀ v ∈ l, 0 < v ∧ v < 1) :
    bernLoop acc l = .ok (acc + (l.map fun v => Real.log (1 - v)).sum) := by
  induction l generalizing acc with
  | nil => simp [bernLoop]
  | cons v l ih =>
    have hv := h v (by simp)
    simp only [bernLoop]
    rw [if_neg (by push Not; exact hv), ih _ fun w hw => h w (by simp [hw])]
    simp [add_assoc]

theorem bernLoop_error (acc : ℝ) (l : List ℝ) (h : ∃ v ∈ l, v ≤ 0 ∨ 1 ≤ v) : bernLoop acc l = .error (.rt 10020) := by
  induction l generalizing acc with
  | nil => obtain ⟨v, hv, _⟩ := h; simp at hv
  | cons v l ih =>
    simp only [bernLoop]
    by_cases hv : v ≤ 0 ∨ 1 ≤ v
    · rw [if_pos hv]
    · rw [if_neg hv]
      obtain ⟨w, hw, hw'⟩ := h
      rcases List.mem_cons.1 hw with rfl | hw
      · exact absurd hw' hv
      · exact ih _ ⟨w, hw, hw'⟩

theorem bernItems_eq (model : PyDict String ℝ) (acc : ℝ) (l : List String) :
    bernItems model acc l = acc + (l.map fun k => match PyDict.get? model k with
      | none => 0
      | some p => Real.log p - Real.log (1 - p)).sum := by
  induction l generalizing acc with
  | nil => simp [bernItems]
  | cons k l ih =>
    simp only [bernItems]
    cases hk : PyDict.get? model k with
    | none =>
      simp only
      rw [ih]
      simp [hk]
    | some p =>
      simp only
      rw [ih]
      simp [hk, add_assoc]

/-- The sum over the items, by name of the model. -/
theorem items_count (model : PyDict String ℝ) (hw : PyDict.WF model) (c : ℝ → ℝ) (l : List String) :
    (l.map fun k => match PyDict.get? model k with
      | none => 0
      | some p => c p).sum = (model.map fun q => (l.count q.1 : ℝ) * c q.2).sum := by
  induction model with
  | nil =>
    have : (fun k : String => match PyDict.get? ([] : PyDict String ℝ) k with
      | none => (0 : ℝ)
      | some p => c p) = fun _ => 0 := by funext k; simp [PyDict.get?]
    rw [this]
    simp
  | cons q model ih =>
    obtain ⟨k, p⟩ := q
    have hw' : PyDict.WF model := (List.nodup_cons.1 hw).2
    have hk : k ∉ PyDict.keys model := (List.nodup_cons.1 hw).1
    rw [List.map_cons, List.sum_cons, ← ih hw']
    clear ih
    induction l with
    | nil => simp
    | cons a l il =>
      rw [List.map_cons, List.sum_cons, il, List.map_cons, List.sum_cons]
      by_cases ha : a = k
      · subst ha
        have h1 : PyDict.get? ((a, p) :: model) a = some p := by simp [PyDict.get?]
        have h2 : PyDict.get? model a = none := (PyDict.get?_eq_none_iff model a).2 hk
        rw [h1, h2]
        simp
        ring
      · have h1 : PyDict.get? ((k, p) :: model) a = PyDict.get? model a := by
          rw [PyDict.get?_cons, if_neg (by simpa using Ne.symm ha)]
        rw [h1]
        simp [List.count_cons, ha]
        ring

/-- Each item of the datum counts as often as it occurs. -/
theorem bernoulli_count (datum : List String) (model : PyDict String ℝ) (hw : PyDict.WF model)
    (h : ∀ q ∈ model, 0 < q.2 ∧ q.2 < 1) :
    bernoulli datum model =
      .ok (model.map fun q => Real.log (1 - q.2) + (datum.count q.1 : ℝ) * (Real.log q.2 - Real.log (1 - q.2))).sum := by
  unfold bernoulli
  rw [bernLoop_ok 0 _ (by
    intro v hv
    obtain ⟨q, hq, rfl⟩ := List.mem_map.1 hv
    exact h q hq)]
  simp only [bind, Except.bind]
  rw [bernItems_eq, items_count model hw (fun p => Real.log p - Real.log (1 - p)), zero_add, List.map_map]
  congr 1
  rw [← List.sum_map_add]
  rfl

/-- When no item occurs twice, the score is the log-likelihood: `log p` for the items of the datum, `log (1 - p)` for the others. -/
theorem bernoulli_partial (datum : List String) (hd : datum.Nodup) (model : PyDict String ℝ) (hw : PyDict.WF model)
    (h : ∀ q ∈ model, 0 < q.2 ∧ q.2 < 1) :
    bernoulli datum model = .ok (model.map fun q => if q.1 ∈ datum then Real.log q.2 else Real.log (1 - q.2)).sum := by
  rw [bernoulli_count datum model hw h]
  congr 2
  apply List.map_congr_left
  intro q _
  by_cases hq : q.1 ∈ datum
  · rw [if_pos hq, List.count_eq_one_of_mem hd hq]
    simp
  · rw [if_neg hq, List.count_eq_zero_of_not_mem hq]
    simp

theorem bernoulli_error (datum : List String) (model : PyDict String ℝ) (h : ∃ q ∈ model, q.2 ≤ 0 ∨ 1 ≤ q.2) :
    bernoulli datum model = .error (.rt 10020) := by
  unfold bernoulli
  obtain ⟨q, hq, hv⟩ := h
  rw [bernLoop_error 0 _ ⟨q.2, List.mem_map_of_mem hq, hv⟩]
  rfl

/-- An item that occurs twice is counted twice: the result is above the logarithm of any probability. -/
theorem bernoulli_twice_violation : ∃ ll, bernoulli ["a", "a"] [("a", 3 / 4)] = .ok ll ∧ 0 < ll := by
  refine ⟨_, bernoulli_count ["a", "a"] [("a", 3 / 4)] (by simp [PyDict.WF, PyDict.keys]) (by norm_num), ?_⟩
  have e : (1 : ℝ) - 3 / 4 = 1 / 4 := by norm_num
  simp [e]
  rw [Real.log_div (by norm_num) (by norm_num)]
  have h1 : Real.log 3 + Real.log 3 = Real.log 9 := by rw [← Real.log_mul (by norm_num) (by norm_num)]; norm_num
  have h2 := Real.log_lt_log (show (0 : ℝ) < 4 by norm_num) (show (4 : ℝ) < 9 by norm_num)
  linarith

example : PyDict.WF [("a", (1 / 4 : ℝ)), ("b", 1 / 2)] ∧ ["a", "c"].Nodup := by simp [PyDict.WF, PyDict.keys]

end Verif.Score
