import Verif.Py.Basic
import Mathlib.Analysis.SpecialFunctions.Sigmoid
import Mathlib.Analysis.SpecialFunctions.Trigonometric.Arctan
import Mathlib.Analysis.SpecialFunctions.Artanh
import Mathlib.Analysis.SpecialFunctions.Log.Basic
/-! # Link functions (`titus/lib/link.py`)

Doubles are real numbers here, but `math.exp` raises OverflowError when its result does not fit a double (at least 2^1024).
`m.link.probit` is not modelled (Mathlib has no error function). -/

namespace Verif.Score

/-! ## Model -/

/-- The limit of the doubles. -/
noncomputable def top : ℝ := 2 ^ 1024

/-- `math.exp`. -/
noncomputable def pyExp (x : ℝ) : Res ℝ := if top ≤ Real.exp x then .error (.py "OverflowError") else .ok (Real.exp x)

/-- `[f(v) for v in l]`. -/
def evalAll {α β : Type} (f : α → Res β) : List α → Res (List β)
  | [] => .ok []
  | a :: l => do
    let b ← f a
    let bs ← evalAll f l
    .ok (b :: bs)

/-- `max(l)` and `min(l)`. -/
noncomputable def maxOf (l : List ℝ) : ℝ := l.tail.foldl max (l.headD 0)
noncomputable def minOf (l : List ℝ) : ℝ := l.tail.foldl min (l.headD 0)

open Classical in
/-- `x[tmp.index(max(tmp))]` with `tmp = list(map(abs, x))` (link.py 61-62, 51-52). -/
noncomputable def pivot (x : List ℝ) : ℝ := (x.find? fun v => |v| = maxOf (x.map abs)).getD 0

open Classical in
/-- `m` (62-65, 52-55). -/
noncomputable def shift (x : List ℝ) : ℝ := if 0 ≤ pivot x then maxOf x else minOf x

/-- `m.link.softmax` of an array (47-48, 60-67). The exponentials are computed twice, with the same result. -/
noncomputable def softmax (x : List ℝ) : Res (List ℝ) :=
  if x.length = 0 then .error (.rt 25000)
  else do
    let es ← evalAll (fun v => pyExp (v - shift x)) x
    .ok (es.map (· / es.sum))

/-- `m.link.softmax` of a map (47-59): the values are replaced, the keys and their order remain. -/
noncomputable def softmaxMap (x : PyDict String ℝ) : Res (PyDict String ℝ) :=
  (softmax (x.map Prod.snd)).map fun ys => List.zip (x.map Prod.fst) ys

/-- What `unwrapForNorm` distinguishes (70-82). -/
inductive Arg
  | one (v : ℝ)
  | array (l : List ℝ)
  | map (d : PyDict String ℝ)

/-- `unwrapForNorm` (70-82). -/
noncomputable def unwrap (f : ℝ → Res ℝ) : Arg → Res Arg
  | .one v => (f v).map .one
  | .array l => (evalAll f l).map .array
  | .map d => (evalAll (fun p : String × ℝ => (f p.2).map (p.1, ·)) d).map .map

/-- `m.link.logit` (91). -/
noncomputable def logit (y : ℝ) : Res ℝ := do let e ← pyExp (-y); .ok (1 / (1 + e))
/-- `m.link.cloglog` (111). -/
noncomputable def cloglog (y : ℝ) : Res ℝ := do let e ← pyExp y; let g ← pyExp (-e); .ok (1 - g)
/-- `m.link.loglog` (121). -/
noncomputable def loglog (y : ℝ) : Res ℝ := do let e ← pyExp y; pyExp (-e)
/-- `m.link.cauchit` (131). -/
noncomputable def cauchit (y : ℝ) : Res ℝ := .ok (1 / 2 + 1 / Real.pi * Real.arctan y)
/-- `m.link.softplus` (141). -/
noncomputable def softplus (y : ℝ) : Res ℝ := do let e ← pyExp y; .ok (Real.log (1 + e))
/-- `m.link.relu` (151); nan is not a real number. -/
noncomputable def relu (y : ℝ) : Res ℝ := .ok (max 0 y)
/-- `m.link.tanh` (161). -/
noncomputable def tanh (y : ℝ) : Res ℝ := .ok (Real.tanh y)

/-! ## Lists -/

theorem evalAll_ok {α β : Type} (f : α → Res β) (l : List α) (bs : List β) :
    evalAll f l = .ok bs ↔ List.Forall₂ (fun a b => f a = .ok b) l bs := by
  induction l generalizing bs with
  | nil =>
    simp only [evalAll]
    constructor
    · intro h; cases h; exact .nil
    · intro h; cases h; rfl
  | cons a l ih =>
    simp only [evalAll, bind, Except.bind]
    constructor
    · intro h
      cases ha : f a with
      | error e => rw [ha] at h; cases h
      | ok b =>
        rw [ha] at h
        simp only at h
        cases hl : evalAll f l with
        | error e => rw [hl] at h; cases h
        | ok bs' =>
          rw [hl] at h
          cases h
          exact .cons ha ((ih bs').1 hl)
    · intro h
      cases h with
      | cons h1 h2 =>
        rw [h1]
        simp only
        rw [(ih _).2 h2]

/-- The first element that raises decides. -/
theorem evalAll_raises {α β : Type} (f : α → Res β) (l : List α) (e : Err) :
    evalAll f l = .error e ↔ ∃ pre a post, l = pre ++ a :: post ∧ f a = .error e ∧ ∀ b ∈ pre, ∃ v, f b = .ok v := by
  induction l with
  | nil =>
    simp only [evalAll]
    constructor
    · intro h; cases h
    · rintro ⟨pre, a, post, h, _⟩; simp at h
  | cons a l ih =>
    simp only [evalAll, bind, Except.bind]
    constructor
    · intro h
      cases ha : f a with
      | error e' =>
        rw [ha] at h
        cases h
        exact ⟨[], a, l, rfl, ha, by simp⟩
      | ok b =>
        rw [ha] at h
        simp only at h
        cases hl : evalAll f l with
        | error e' =>
          rw [hl] at h
          cases h
          obtain ⟨pre, c, post, rfl, h1, h2⟩ := ih.1 hl
          refine ⟨a :: pre, c, post, rfl, h1, ?_⟩
          intro d hd
          rcases List.mem_cons.1 hd with rfl | hd
          · exact ⟨b, ha⟩
          · exact h2 d hd
        | ok bs => rw [hl] at h; cases h
    · rintro ⟨pre, c, post, h1, h2, h3⟩
      cases pre with
      | nil =>
        simp only [List.nil_append, List.cons.injEq] at h1
        obtain ⟨rfl, rfl⟩ := h1
        rw [h2]
      | cons d pre =>
        simp only [List.cons_append, List.cons.injEq] at h1
        obtain ⟨rfl, rfl⟩ := h1
        obtain ⟨v, hv⟩ := h3 a (by simp)
        rw [hv]
        simp only
        rw [ih.2 ⟨pre, c, post, rfl, h2, fun b hb => h3 b (by simp [hb])⟩]

theorem evalAll_map {α β : Type} (f : α → Res β) (g : α → β) (l : List α) (h : ∀ a ∈ l, f a = .ok (g a)) :
    evalAll f l = .ok (l.map g) := by
  rw [evalAll_ok]
  induction l with
  | nil => exact .nil
  | cons a l ih => exact .cons (h a (by simp)) (ih fun b hb => h b (by simp [hb]))

theorem foldl_max_spec (l : List ℝ) (a : ℝ) : (∀ v ∈ a :: l, v ≤ l.foldl max a) ∧ l.foldl max a ∈ a :: l := by
  induction l generalizing a with
  | nil => simp
  | cons b l ih =>
    obtain ⟨h1, h2⟩ := ih (max a b)
    simp only [List.foldl_cons]
    refine ⟨?_, ?_⟩
    · intro v hv
      have h3 := h1 (max a b) (by simp)
      rcases List.mem_cons.1 hv with rfl | hv
      · exact (le_max_left _ _).trans h3
      · rcases List.mem_cons.1 hv with rfl | hv
        · exact (le_max_right _ _).trans h3
        · exact h1 v (by simp [hv])
    · rcases List.mem_cons.1 h2 with h | h
      · rcases max_choice a b with h' | h' <;> rw [h, h'] <;> simp
      · simp [h]

theorem maxOf_spec (l : List ℝ) (hl : l ≠ []) : (∀ v ∈ l, v ≤ maxOf l) ∧ maxOf l ∈ l := by
  cases l with
  | nil => exact absurd rfl hl
  | cons a l => exact foldl_max_spec l a

theorem foldl_min_spec (l : List ℝ) (a : ℝ) : (∀ v ∈ a :: l, l.foldl min a ≤ v) ∧ l.foldl min a ∈ a :: l := by
  induction l generalizing a with
  | nil => simp
  | cons b l ih =>
    obtain ⟨h1, h2⟩ := ih (min a b)
    simp only [List.foldl_cons]
    refine ⟨?_, ?_⟩
    · intro v hv
      have h3 := h1 (min a b) (by simp)
      rcases List.mem_cons.1 hv with rfl | hv
      · exact h3.trans (min_le_left _ _)
      · rcases List.mem_cons.1 hv with rfl | hv
        · exact h3.trans (min_le_right _ _)
        · exact h1 v (by simp [hv])
    · rcases List.mem_cons.1 h2 with h | h
      · rcases min_choice a b with h' | h' <;> rw [h, h'] <;> simp
      · simp [h]

theorem minOf_spec (l : List ℝ) (hl : l ≠ []) : (∀ v ∈ l, minOf l ≤ v) ∧ minOf l ∈ l := by
  cases l with
  | nil => exact absurd rfl hl
  | cons a l => exact foldl_min_spec l a

/-- The pivot is the first entry of the largest magnitude. -/
theorem pivot_spec (x : List ℝ) (hx : x ≠ []) :
    ∃ pre post, x = pre ++ pivot x :: post ∧ (∀ v ∈ pre, |v| < |pivot x|) ∧ ∀ v ∈ x, |v| ≤ |pivot x| := by
  classical
  have hm := maxOf_spec (x.map abs) (by simpa using hx)
  obtain ⟨w, hw, hwm⟩ := List.mem_map.1 hm.2
  cases hf : x.find? fun v => |v| = maxOf (x.map abs) with
  | none =>
    have := List.find?_eq_none.1 hf w hw
    simp [hwm] at this
  | some p =>
    have hp : pivot x = p := by
      unfold pivot
      rw [show (x.find? fun v => |v| = maxOf (x.map abs)) = some p from by convert hf]
      rfl
    obtain ⟨h1, pre, post, h2, h3⟩ := List.find?_eq_some_iff_append.1 hf
    have h1' : |p| = maxOf (x.map abs) := by simpa using h1
    rw [hp]
    refine ⟨pre, post, h2, ?_, ?_⟩
    · intro v hv
      rw [h1']
      have hne : |v| ≠ maxOf (x.map abs) := by simpa using h3 v hv
      exact lt_of_le_of_ne (hm.1 _ (List.mem_map_of_mem (by rw [h2]; simp [hv]))) hne
    · intro v hv
      rw [h1']
      exact hm.1 _ (List.mem_map_of_mem hv)

/-! ## softmax -/

/-- The specification: `exp x_i / ∑ exp x_j`. -/
noncomputable def soft (x : List ℝ) : List ℝ := x.map fun v => Real.exp v / (x.map Real.exp).sum

theorem pyExp_ok {x : ℝ} (h : Real.exp x < top) : pyExp x = .ok (Real.exp x) := by
  unfold pyExp
  rw [if_neg (not_le.2 h)]

theorem one_lt_top : (1 : ℝ) < top := by
  unfold top
  exact one_lt_pow₀ (by norm_num) (by norm_num)

theorem pyExp_nonpos {x : ℝ} (h : x ≤ 0) : pyExp x = .ok (Real.exp x) :=
  pyExp_ok (lt_of_le_of_lt (Real.exp_le_one_iff.2 h) one_lt_top)

theorem pyExp_raises {x : ℝ} (h : top ≤ Real.exp x) : pyExp x = .error (.py "OverflowError") := by
  unfold pyExp
  rw [if_pos h]

theorem sum_map_mul (c : ℝ) (l : List ℝ) : (l.map (· * c)).sum = l.sum * c := by
  induction l with
  | nil => simp
  | cons a l ih => simp [ih, add_mul]

/-- When no exponential overflows, softmax is `exp x_i / ∑ exp x_j`. -/
theorem softmax_fits (x : List ℝ) (hx : x ≠ []) (h : ∀ v ∈ x, Real.exp (v - shift x) < top) : softmax x = .ok (soft x) := by
  unfold softmax
  rw [if_neg (by simpa using hx), evalAll_map _ (fun v => Real.exp (v - shift x)) x fun v hv => pyExp_ok (h v hv)]
  simp only [bind, Except.bind]
  have e : (x.map fun v => Real.exp (v - shift x)) = (x.map Real.exp).map (· * Real.exp (-shift x)) := by
    rw [List.map_map]
    apply List.map_congr_left
    intro v _
    simp only [Function.comp_def]
    rw [← Real.exp_add, sub_eq_add_neg]
  rw [e, sum_map_mul, List.map_map, List.map_map]
  congr 1
  apply List.map_congr_left
  intro v _
  simp only [Function.comp_def]
  rw [mul_div_mul_right _ _ (Real.exp_ne_zero _)]

/-- `m.link.softmax` exactly: it raises when an entry is at least `log(2^1024)` above the smallest one and the first entry of the
largest magnitude is negative; otherwise it is the specification. -/
theorem softmax_cases (x : List ℝ) (hx : x ≠ []) :
    (pivot x < 0 ∧ top ≤ Real.exp (maxOf x - minOf x) ∧ softmax x = .error (.py "OverflowError")) ∨
      ((0 ≤ pivot x ∨ Real.exp (maxOf x - minOf x) < top) ∧ softmax x = .ok (soft x)) := by
  classical
  have hM := maxOf_spec x hx
  have hm := minOf_spec x hx
  by_cases hp : 0 ≤ pivot x
  · right
    refine ⟨.inl hp, softmax_fits x hx ?_⟩
    intro v hv
    have : shift x = maxOf x := by unfold shift; rw [if_pos hp]
    rw [this]
    exact lt_of_le_of_lt (Real.exp_le_one_iff.2 (by linarith [hM.1 v hv])) one_lt_top
  · have hsh : shift x = minOf x := by unfold shift; rw [if_neg hp]
    by_cases ht : Real.exp (maxOf x - minOf x) < top
    · right
      refine ⟨.inr ht, softmax_fits x hx ?_⟩
      intro v hv
      rw [hsh]
      exact lt_of_le_of_lt (Real.exp_le_exp.2 (by linarith [hM.1 v hv])) ht
    · left
      refine ⟨not_le.1 hp, not_lt.1 ht, ?_⟩
      unfold softmax
      rw [if_neg (by simpa using hx)]
      cases he : evalAll (fun v => pyExp (v - shift x)) x with
      | ok es =>
        exfalso
        have h2 := (evalAll_ok _ _ _).1 he
        have hall : ∀ v ∈ x, ∃ b, pyExp (v - shift x) = .ok b := by
          intro v hv
          obtain ⟨i, hi, rfl⟩ := List.mem_iff_getElem.1 hv
          have hlen := h2.length_eq
          exact ⟨es[i]'(by omega), h2.get hi (by omega)⟩
        obtain ⟨b, hb⟩ := hall _ hM.2
        rw [hsh, pyExp_raises (not_lt.1 ht)] at hb
        cases hb
      | error e =>
        obtain ⟨pre, a, post, _, ha, _⟩ := (evalAll_raises _ _ _).1 he
        unfold pyExp at ha
        split at ha
        · cases ha; rfl
        · cases ha

theorem expsum_pos (x : List ℝ) (hx : x ≠ []) : 0 < (x.map Real.exp).sum := by
  cases x with
  | nil => exact absurd rfl hx
  | cons a l =>
    rw [List.map_cons, List.sum_cons]
    have : 0 ≤ (l.map Real.exp).sum := List.sum_nonneg (by
      intro y hy
      obtain ⟨z, _, rfl⟩ := List.mem_map.1 hy
      exact (Real.exp_pos z).le)
    linarith [Real.exp_pos a]

/-- The specification is a probability distribution that keeps the order. -/
theorem soft_spec (x : List ℝ) (hx : x ≠ []) :
    (soft x).length = x.length ∧ (soft x).sum = 1 ∧ (∀ p ∈ soft x, 0 < p ∧ p ≤ 1) ∧
      ∀ (i j : Nat) (hi : i < x.length) (hj : j < x.length),
        ((soft x)[i]'(by simpa [soft] using hi) < (soft x)[j]'(by simpa [soft] using hj) ↔ x[i] < x[j]) := by
  have hpos := expsum_pos x hx
  have hsum : (soft x).sum = 1 := by
    unfold soft
    have e : (x.map fun v => Real.exp v / (x.map Real.exp).sum) = (x.map Real.exp).map (· * ((x.map Real.exp).sum)⁻¹) := by
      rw [List.map_map]; rfl
    rw [e, sum_map_mul, mul_inv_cancel₀ hpos.ne']
  refine ⟨by simp [soft], hsum, ?_, ?_⟩
  · intro p hp
    have hp0 : ∀ q ∈ soft x, 0 < q := by
      intro q hq
      obtain ⟨v, _, rfl⟩ := List.mem_map.1 hq
      exact div_pos (Real.exp_pos _) hpos
    refine ⟨hp0 p hp, ?_⟩
    rw [← hsum]
    exact List.single_le_sum (fun q hq => (hp0 q hq).le) p hp
  · intro i j hi hj
    simp only [soft, List.getElem_map]
    rw [div_lt_div_iff_of_pos_right hpos, Real.exp_lt_exp]

/-- No entry. -/
theorem softmax_empty : softmax [] = .error (.rt 25000) := rfl

/-- On maps: the softmax of the values, under the same keys. -/
theorem softmaxMap_spec (x : PyDict String ℝ) (hx : x ≠ []) :
    (softmax (x.map Prod.snd) = .ok (soft (x.map Prod.snd)) →
      ∃ y, softmaxMap x = .ok y ∧ y.map Prod.fst = x.map Prod.fst ∧ y.map Prod.snd = soft (x.map Prod.snd)) ∧
    (∀ e, softmax (x.map Prod.snd) = .error e → softmaxMap x = .error e) := by
  constructor
  · intro h
    refine ⟨_, by unfold softmaxMap; rw [h]; rfl, ?_, ?_⟩
    · rw [List.map_fst_zip]; simp [soft]
    · rw [List.map_snd_zip]; simp [soft]
  · intro e h
    unfold softmaxMap
    rw [h]
    rfl

theorem exp_big {x : ℝ} (h : 1024 ≤ x) : top ≤ Real.exp x := by
  have h2 : (2 : ℝ) ≤ Real.exp 1 := by
    have := Real.add_one_le_exp (1 : ℝ)
    linarith
  have : (2 : ℝ) ^ 1024 ≤ Real.exp 1 ^ 1024 := pow_le_pow_left₀ (by norm_num) h2 _
  rw [← Real.exp_nat_mul] at this
  unfold top
  refine this.trans (Real.exp_le_exp.2 ?_)
  norm_num
  exact h

/-- A softmax of moderate numbers raises a Python error. -/
theorem softmax_overflow_violation : softmax [-1024, 0] = .error (.py "OverflowError") := by
  have hmax : maxOf [(-1024 : ℝ), 0] = 0 := by norm_num [maxOf]
  have hmin : minOf [(-1024 : ℝ), 0] = -1024 := by norm_num [minOf]
  rcases softmax_cases [-1024, 0] (by simp) with ⟨_, _, h⟩ | ⟨h, _⟩
  · exact h
  · exfalso
    rw [hmax, hmin] at h
    rcases h with h | h
    · obtain ⟨pre, post, h1, h2, h3⟩ := pivot_spec [(-1024 : ℝ), 0] (by simp)
      have hm := h3 (-1024) (by simp)
      have : pivot [(-1024 : ℝ), 0] ∈ [(-1024 : ℝ), 0] := by
        have : pivot [(-1024 : ℝ), 0] ∈ pre ++ pivot [(-1024 : ℝ), 0] :: post := by simp
        rwa [← h1] at this
      simp only [List.mem_cons, List.not_mem_nil, or_false] at this
      rcases this with h' | h'
      · rw [h'] at h; norm_num at h
      · rw [h'] at hm; norm_num at hm
    · exact absurd (exp_big (x := 0 - -1024) (by norm_num)) (not_le.2 h)

/-- The order of the entries decides whether softmax raises. -/
theorem softmax_order_violation : softmax [600, -600] = .ok (soft [600, -600]) ∧ softmax [-600, 600] = .error (.py "OverflowError") := by
  constructor
  · rcases softmax_cases [600, -600] (by simp) with ⟨h, _⟩ | ⟨_, h⟩
    · exfalso
      obtain ⟨pre, post, h1, h2, h3⟩ := pivot_spec [(600 : ℝ), -600] (by simp)
      cases pre with
      | nil =>
        simp only [List.nil_append, List.cons.injEq] at h1
        rw [← h1.1] at h; norm_num at h
      | cons a pre =>
        simp only [List.cons_append, List.cons.injEq] at h1
        have := h2 a (by simp)
        have hm := (congrArg (fun l => pivot [(600 : ℝ), -600] ∈ l) h1.2).mpr (by simp)
        simp only [List.mem_singleton] at hm
        rw [← h1.1, hm] at this
        norm_num at this
    · exact h
  · have hmax : maxOf [(-600 : ℝ), 600] = 600 := by norm_num [maxOf]
    have hmin : minOf [(-600 : ℝ), 600] = -600 := by norm_num [minOf]
    rcases softmax_cases [-600, 600] (by simp) with ⟨_, _, h⟩ | ⟨h, _⟩
    · exact h
    · exfalso
      rw [hmax, hmin] at h
      rcases h with h | h
      · obtain ⟨pre, post, h1, h2, h3⟩ := pivot_spec [(-600 : ℝ), 600] (by simp)
        cases pre with
        | nil =>
          simp only [List.nil_append, List.cons.injEq] at h1
          rw [← h1.1] at h; norm_num at h
        | cons a pre =>
          simp only [List.cons_append, List.cons.injEq] at h1
          have := h2 a (by simp)
          have hm := (congrArg (fun l => pivot [(-600 : ℝ), 600] ∈ l) h1.2).mpr (by simp)
          simp only [List.mem_singleton] at hm
          rw [← h1.1, hm] at this
          norm_num at this
      · exact absurd (exp_big (x := 600 - -600) (by norm_num)) (not_le.2 h)

/-! ## The other functions -/

/-- Arrays and maps are treated entry by entry; the first error is raised. -/
theorem unwrap_spec (f : ℝ → Res ℝ) :
    (∀ v, unwrap f (.one v) = (f v).map .one) ∧
    (∀ l bs, List.Forall₂ (fun a b => f a = .ok b) l bs → unwrap f (.array l) = .ok (.array bs)) ∧
    (∀ (d : PyDict String ℝ) (bs : List ℝ), List.Forall₂ (fun a b => f a = .ok b) (d.map Prod.snd) bs →
      unwrap f (.map d) = .ok (.map ((d.map Prod.fst).zip bs))) ∧
    (∀ pre a post e, f a = .error e → (∀ b ∈ pre, ∃ v, f b = .ok v) → unwrap f (.array (pre ++ a :: post)) = .error e) := by
  refine ⟨fun _ => rfl, ?_, ?_, ?_⟩
  · intro l bs h
    simp only [unwrap]
    rw [(evalAll_ok f l bs).2 h]
    rfl
  · intro d bs h
    simp only [unwrap]
    rw [(evalAll_ok _ d ((d.map Prod.fst).zip bs)).2]
    · rfl
    · induction d generalizing bs with
      | nil => cases h; exact .nil
      | cons p d ih =>
        rw [List.map_cons] at h
        cases h with
        | cons h1 h2 =>
          rw [List.map_cons, List.zip_cons_cons]
          exact .cons (by rw [h1]; rfl) (ih _ h2)
  · intro pre a post e h1 h2
    simp only [unwrap]
    rw [(evalAll_raises f _ e).2 ⟨pre, a, post, rfl, h1, h2⟩]
    rfl

/-- `m.link.logit` is the sigmoid function of Mathlib, where `exp(-y)` fits. -/
theorem logit_partial (y : ℝ) (h : Real.exp (-y) < top) : logit y = .ok (Real.sigmoid y) := by
  unfold logit
  rw [pyExp_ok h]
  simp only [bind, Except.bind, Real.sigmoid_def, one_div]

/-- Below about -709.8 it raises a Python error, although the sigmoid is close to 0. -/
theorem logit_overflow_violation : logit (-1024) = .error (.py "OverflowError") := by
  unfold logit
  rw [pyExp_raises (exp_big (by norm_num))]
  rfl

/-- `m.link.cloglog` and `m.link.loglog`: between 0 and 1, complementary, increasing and decreasing. -/
theorem loglog_partial (y : ℝ) (h : Real.exp y < top) :
    ∃ p q, cloglog y = .ok p ∧ loglog y = .ok q ∧ p + q = 1 ∧ q = Real.exp (-Real.exp y) ∧ 0 < p ∧ p < 1 ∧ 0 < q ∧ q < 1 ∧
      ∀ z p' q', Real.exp z < top → cloglog z = .ok p' → loglog z = .ok q' → (p < p' ↔ y < z) ∧ (q' < q ↔ y < z) := by
  have hn : ∀ z : ℝ, pyExp (-Real.exp z) = .ok (Real.exp (-Real.exp z)) := fun z => pyExp_nonpos (by linarith [Real.exp_pos z])
  have e1 : ∀ z : ℝ, Real.exp z < top → cloglog z = .ok (1 - Real.exp (-Real.exp z)) := by
    intro z hz
    unfold cloglog
    rw [pyExp_ok hz]
    simp only [bind, Except.bind]
    rw [hn]
  have e2 : ∀ z : ℝ, Real.exp z < top → loglog z = .ok (Real.exp (-Real.exp z)) := by
    intro z hz
    unfold loglog
    rw [pyExp_ok hz]
    simp only [bind, Except.bind]
    rw [hn]
  have hlt : Real.exp (-Real.exp y) < 1 := by
    rw [Real.exp_lt_one_iff]
    linarith [Real.exp_pos y]
  refine ⟨_, _, e1 y h, e2 y h, by ring, rfl, by linarith, by linarith [Real.exp_pos (-Real.exp y)], Real.exp_pos _, hlt, ?_⟩
  intro z p' q' hz h1 h2
  rw [e1 z hz] at h1
  rw [e2 z hz] at h2
  injection h1 with h1
  injection h2 with h2
  rw [← h1, ← h2]
  have : Real.exp (-Real.exp z) < Real.exp (-Real.exp y) ↔ y < z := by
    rw [Real.exp_lt_exp, neg_lt_neg_iff, Real.exp_lt_exp]
  exact ⟨by rw [← this]; constructor <;> intro h <;> linarith, this⟩

theorem loglog_overflow_violation : cloglog 1024 = .error (.py "OverflowError") ∧ loglog 1024 = .error (.py "OverflowError") ∧
    softplus 1024 = .error (.py "OverflowError") := by
  refine ⟨?_, ?_, ?_⟩
  · unfold cloglog; rw [pyExp_raises (exp_big le_rfl)]; rfl
  · unfold loglog; rw [pyExp_raises (exp_big le_rfl)]; rfl
  · unfold softplus; rw [pyExp_raises (exp_big le_rfl)]; rfl

/-- `m.link.cauchit`: between 0 and 1, increasing, symmetric; never raises. -/
theorem cauchit_spec (y : ℝ) :
    ∃ p, cauchit y = .ok p ∧ 0 < p ∧ p < 1 ∧ cauchit (-y) = .ok (1 - p) ∧ ∀ z q, cauchit z = .ok q → (p < q ↔ y < z) := by
  have hpi := Real.pi_pos
  refine ⟨_, rfl, ?_, ?_, ?_, ?_⟩
  · have := Real.neg_pi_div_two_lt_arctan y
    have h2 : -(1 / 2) < 1 / Real.pi * Real.arctan y := by
      rw [div_mul_eq_mul_div, one_mul, lt_div_iff₀ hpi]
      linarith
    linarith
  · have := Real.arctan_lt_pi_div_two y
    have h2 : 1 / Real.pi * Real.arctan y < 1 / 2 := by
      rw [div_mul_eq_mul_div, one_mul, div_lt_iff₀ hpi]
      linarith
    linarith
  · unfold cauchit
    rw [Real.arctan_neg]
    congr 1
    ring
  · intro z q hq
    unfold cauchit at hq
    injection hq with hq
    rw [← hq, add_lt_add_iff_left, mul_lt_mul_iff_of_pos_left (by positivity)]
    exact Real.arctan_strictMono.lt_iff_lt

/-- `m.link.softplus`: above 0 and above its argument, increasing; its exponential is `1 + exp y`. -/
theorem softplus_partial (y : ℝ) (h : Real.exp y < top) :
    ∃ p, softplus y = .ok p ∧ Real.exp p = 1 + Real.exp y ∧ 0 < p ∧ y < p ∧
      ∀ z q, Real.exp z < top → softplus z = .ok q → (p < q ↔ y < z) := by
  have e : ∀ z : ℝ, Real.exp z < top → softplus z = .ok (Real.log (1 + Real.exp z)) := by
    intro z hz
    unfold softplus
    rw [pyExp_ok hz]
    rfl
  have hp := Real.exp_pos y
  refine ⟨_, e y h, Real.exp_log (by linarith), Real.log_pos (by linarith), ?_, ?_⟩
  · rw [Real.lt_log_iff_exp_lt (by linarith)]
    linarith
  · intro z q hz hq
    rw [e z hz] at hq
    injection hq with hq
    rw [← hq, Real.log_lt_log_iff (by linarith) (by linarith [Real.exp_pos z]), add_lt_add_iff_left, Real.exp_lt_exp]

/-- `m.link.relu`. -/
theorem relu_spec (y : ℝ) : (0 ≤ y → relu y = .ok y) ∧ (y ≤ 0 → relu y = .ok 0) := by
  refine ⟨?_, ?_⟩
  · intro h; unfold relu; rw [max_eq_right h]
  · intro h; unfold relu; rw [max_eq_left h]

/-- `m.link.tanh`: between -1 and 1, odd, increasing, `(exp y - exp (-y)) / (exp y + exp (-y))`. -/
theorem tanh_spec (y : ℝ) :
    ∃ p, tanh y = .ok p ∧ p = (Real.exp y - Real.exp (-y)) / (Real.exp y + Real.exp (-y)) ∧ -1 < p ∧ p < 1 ∧
      tanh (-y) = .ok (-p) ∧ ∀ z q, tanh z = .ok q → (p < q ↔ y < z) := by
  have ht : ∀ z : ℝ, Real.tanh z = (Real.exp z - Real.exp (-z)) / (Real.exp z + Real.exp (-z)) := by
    intro z
    rw [Real.tanh_eq_sinh_div_cosh, Real.sinh_eq, Real.cosh_eq]
    field_simp
  have hs : ∀ z : ℝ, Real.tanh z = 2 * Real.sigmoid (2 * z) - 1 := by
    intro z
    rw [ht, Real.sigmoid_def]
    have h1 : Real.exp (-(2 * z)) = Real.exp (-z) * Real.exp (-z) := by rw [← Real.exp_add]; ring_nf
    have h2 : Real.exp z * Real.exp (-z) = 1 := by rw [← Real.exp_add]; simp
    have h3 := Real.exp_pos z
    have h4 := Real.exp_pos (-z)
    rw [h1]
    have hd1 : Real.exp z + Real.exp (-z) ≠ 0 := by linarith
    have hd2 : 1 + Real.exp (-z) * Real.exp (-z) ≠ 0 := by positivity
    field_simp
    have : Real.exp z * Real.exp (-z) * Real.exp (-z) = Real.exp (-z) := by rw [h2, one_mul]
    nlinarith
  refine ⟨_, rfl, ht y, ?_, ?_, ?_, ?_⟩
  · rw [hs]; linarith [Real.sigmoid_pos (2 * y)]
  · rw [hs]; linarith [Real.sigmoid_lt_one (2 * y)]
  · unfold tanh; rw [Real.tanh_neg]
  · intro z q hq
    unfold tanh at hq
    injection hq with hq
    rw [← hq, hs, hs]
    have := Real.sigmoid_lt_iff (a := 2 * y) (b := 2 * z)
    constructor
    · intro h
      have : Real.sigmoid (2 * y) < Real.sigmoid (2 * z) := by linarith
      linarith [Real.sigmoid_lt_iff.1 this]
    · intro h
      have := Real.sigmoid_lt_iff.2 (show 2 * y < 2 * z by linarith)
      linarith

/-- The hypotheses are met: 0 and -3 do not overflow. -/
example : Real.exp 0 < top ∧ Real.exp (-3) < top :=
  ⟨by rw [Real.exp_zero]; exact one_lt_top, lt_of_le_of_lt (Real.exp_le_one_iff.2 (by norm_num)) one_lt_top⟩

end Verif.Score
