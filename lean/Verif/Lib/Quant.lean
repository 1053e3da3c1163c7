import Verif.Lib.Sort
import Verif.Lib.Round
import Mathlib.Analysis.SpecialFunctions.Pow.Real
import Mathlib.Algebra.Order.Floor.Ring
/-!
# Medians, quantiles, modes and means (C91)

Models `titus/lib/array.py` 706-825 (`a.lnsum`, `a.mean`, `a.geomean`, `a.median`, `a.mode`, `a.ntile`) and
1220-1232 (`a.logsumexp`).

`sorted` with `cmp_to_key` of a comparison is the stable sort `insertAll` of `Verif.Lib.Sort`.  `dataType is "double"`
compares the identity of strings; both come from constants of compiled code, which CPython interns, so the test is taken
as equality.  Elements of type double are rationals with exact arithmetic, except that the position `k` in `a.ntile` is
rounded by an arbitrary monotone rounding.  `math.log`, `math.exp` and powers are the real functions.
-/

namespace Verif.Lib.Quant
open Verif.Lib Verif.Lib.Round

variable {α κ : Type}

/-! ## Model -/

/-- `sa[i]`. -/
def at' (sa : List α) (i : Nat) : Res α :=
  match sa[i]? with
  | some x => .ok x
  | none => .error (.py "IndexError")

/-- `a.median` (array.py 750-766).  `avg` is `(x + y)/2.0` if the type is float or double, and the first of the two otherwise. -/
def median (lt : α → α → Bool) (avg : α → α → α) (a : List α) : Res α :=
  if a.length = 0 then .error (.rt 15450)
  else
    let sa := insertAll lt a []
    let half := sa.length / 2
    if sa.length % 2 ≠ 0 then at' sa half
    else do
      let x ← at' sa (half - 1)
      let y ← at' sa half
      .ok (avg x y)

/-- `(sa[half - 1] + sa[half])/2.0`. -/
def avgReal (x y : ℚ) : ℚ := (x + y) / 2

/-- The median of types that are not float or double. -/
def avgOther (x _ : α) : α := x

/-- One round of the counting loop of `a.mode` (779-784): the counter and the lookup have the same keys, so they are one
list. -/
def countStep [DecidableEq κ] (k : κ) (x : α) : List (κ × α × Nat) → List (κ × α × Nat)
  | [] => [(k, x, 1)]
  | (k', x', n) :: l => if k' = k then (k', x', n + 1) :: l else (k', x', n) :: countStep k x l

/-- The counting loop; `key` is `json.dumps`. -/
def countAll [DecidableEq κ] (key : α → κ) : List α → List (κ × α × Nat) → List (κ × α × Nat)
  | [], l => l
  | x :: a, l => countAll key a (countStep (key x) x l)

/-- The loop for `bestn` (785-788). -/
def bestCount (l : List (κ × α × Nat)) : Nat := l.foldl (fun b p => if p.2.2 > b then p.2.2 else b) 0

/-- `besties` (789). -/
def besties [DecidableEq κ] (key : α → κ) (a : List α) : List α :=
  let l := countAll key a []
  (l.filter (fun p => p.2.2 == bestCount l)).map (fun p => p.2.1)

/-- `a.mode` (769-790). -/
def mode [DecidableEq κ] (key : α → κ) (lt : α → α → Bool) (avg : α → α → α) (a : List α) : Res α :=
  if a.length = 0 then .error (.rt 15470) else median lt avg (besties key a)

/-- `a.ntile` (793-823).  `R` rounds the product `(len(a) - 1.0)*p`.  `inter x y c k f` is `x*(c - k) + y*(k - f)`, and `none` if the
type is not float or double; both branches there take `sa[int(k)]`, `int(f)` and `int(k)` being the same number. -/
def ntile (R : ℚ → ℚ) (lt : α → α → Bool) (inter : Option (α → α → ℚ → α)) (a : List α) (p : Dbl) : Res α :=
  if a.length = 0 then .error (.rt 15460)
  else match p with
    | .nan => .error (.rt 15461)
    | .inf true => firstOf (lowestN lt 1 a)
    | .inf false => firstOf (highestN lt 1 a)
    | .fin p =>
      if p ≤ 0 then firstOf (lowestN lt 1 a)
      else if p ≥ 1 then firstOf (highestN lt 1 a)
      else
        let sa := insertAll lt a []
        let k := R (((a.length : ℚ) - 1) * p)
        match inter with
        | some g =>
          if (⌊k⌋ : Int) = ⌈k⌉ then at' sa ⌊k⌋.toNat
          else do
            let x ← at' sa ⌊k⌋.toNat
            let y ← at' sa ⌈k⌉.toNat
            .ok (g x y k)
        | none => if sa.length % 2 = 1 then at' sa ⌊k⌋.toNat else at' sa ⌊k⌋.toNat

/-- `d0 + d1` (814-816). -/
def interReal (x y k : ℚ) : ℚ := x * (⌈k⌉ - k) + y * (k - ⌊k⌋)

/-! ## Specification -/

/-- `x` is an element of rank `k`, counted from zero: at most `k` elements are smaller, and more than `k` are not greater. -/
def HasRank (lt : α → α → Bool) (a : List α) (k : Nat) (x : α) : Prop :=
  x ∈ a ∧ a.countP (fun y => lt y x) ≤ k ∧ k < a.countP (fun y => !lt x y)

/-- The number of times the key of `x` occurs. -/
def occ [DecidableEq κ] (key : α → κ) (a : List α) (x : α) : Nat := a.countP (fun y => decide (key y = key x))

/-! ## Ranks -/

theorem at'_sorted {lt : α → α → Bool} (h : StrictWeak lt) (a : List α) (k : Nat) (hk : k < a.length) :
    ∃ x, at' (insertAll lt a []) k = .ok x ∧ HasRank lt a k x := by
  obtain ⟨hp, hs, _⟩ := insertAll_stable h a
  set sa := insertAll lt a [] with hsa
  have hl : k < sa.length := by rw [hp.length_eq]; exact hk
  refine ⟨sa[k], by simp [at', List.getElem?_eq_getElem hl], hp.mem_iff.1 (List.getElem_mem hl), ?_, ?_⟩
  · rw [← hp.countP_eq]
    generalize hv : sa[k] = v
    rw [← List.take_append_drop k sa, List.countP_append]
    subst hv
    have h2 : (sa.drop k).countP (fun y => lt y sa[k]) = 0 := by
      rw [List.countP_eq_zero]
      intro y hy
      obtain ⟨i, hi, rfl⟩ := List.getElem_of_mem hy
      rw [List.getElem_drop]
      by_cases h0 : i = 0
      · subst h0; simp [h.irrefl]
      · have := List.pairwise_iff_getElem.1 hs k (k + i) hl (by simp at hi; omega) (by omega)
        simp [this]
    rw [h2]
    exact (List.countP_le_length).trans (by simp)
  · rw [← hp.countP_eq]
    generalize hv : sa[k] = v
    rw [← List.take_append_drop (k + 1) sa, List.countP_append]
    subst hv
    have h2 : (sa.take (k + 1)).countP (fun y => !lt sa[k] y) = (sa.take (k + 1)).length := by
      rw [List.countP_eq_length]
      intro y hy
      obtain ⟨i, hi, rfl⟩ := List.getElem_of_mem hy
      rw [List.getElem_take]
      have hi' : i < k + 1 := by simp at hi; omega
      by_cases h0 : i = k
      · subst h0; simp [h.irrefl]
      · have := List.pairwise_iff_getElem.1 hs i k (by omega) hl (by omega)
        simp [this]
    rw [h2, List.length_take]
    omega

/-- Two elements of the same rank are not told apart by the order, and a greater rank is not a smaller element. -/
theorem rank_mono {lt : α → α → Bool} (h : StrictWeak lt) {a : List α} {j k : Nat} {x y : α}
    (hx : HasRank lt a j x) (hy : HasRank lt a k y) (hjk : j ≤ k) : lt y x = false := by
  by_contra hc
  rw [Bool.not_eq_false] at hc
  have : a.countP (fun z => !lt y z) ≤ a.countP (fun z => lt z x) := by
    apply List.countP_mono_left
    intro z _ hz
    simp only [Bool.not_eq_true'] at hz
    by_contra hn
    rw [Bool.not_eq_true] at hn
    rw [h.notlt_trans hn hz] at hc
    cases hc
  have := hx.2.1; have := hy.2.2
  omega

theorem first_rank {lt : α → α → Bool} (h : StrictWeak lt) (a : List α) (ha : a ≠ []) :
    ∃ x, firstOf (lowestN lt 1 a) = .ok x ∧ HasRank lt a 0 x := by
  obtain ⟨pre, x, post, h1, h2, h3, h4⟩ := (maxOne_spec h 0 a).2 ha
  have hl : a.length ≠ 0 := by simpa using ha
  rw [checkedOne, if_neg hl] at h1
  refine ⟨x, h1, by rw [h2]; simp, ?_, ?_⟩
  · refine Nat.le_of_eq (List.countP_eq_zero.2 ?_)
    intro y hy
    rw [h2] at hy
    rcases List.mem_append.1 hy with hy | hy
    · simp [h.asymm (h3 y hy)]
    · rcases List.mem_cons.1 hy with rfl | hy
      · simp [h.irrefl]
      · simp [h4 y hy]
  · exact List.countP_pos_iff.2 ⟨x, by rw [h2]; simp, by simp [h.irrefl]⟩

theorem last_rank {lt : α → α → Bool} (h : StrictWeak lt) (a : List α) (ha : a ≠ []) :
    ∃ x, firstOf (highestN lt 1 a) = .ok x ∧ HasRank lt a (a.length - 1) x := by
  obtain ⟨pre, x, post, h1, h2, h3, h4⟩ := (maxOne_spec h.flip 0 a).2 ha
  have hl : a.length ≠ 0 := by simpa using ha
  rw [checkedOne, if_neg hl] at h1
  have hmax : ∀ y ∈ a, lt x y = false := by
    intro y hy
    rw [h2] at hy
    rcases List.mem_append.1 hy with hy | hy
    · exact h.asymm (h3 y hy)
    · rcases List.mem_cons.1 hy with rfl | hy
      · exact h.irrefl _
      · exact h4 y hy
  have hx : x ∈ a := by rw [h2]; simp
  refine ⟨x, h1, hx, ?_, ?_⟩
  · have : a.countP (fun y => lt y x) < a.length := by
      refine lt_of_le_of_ne List.countP_le_length ?_
      intro e
      have := List.countP_eq_length.1 e x hx
      rw [h.irrefl] at this; cases this
    omega
  · have : a.countP (fun y => !lt x y) = a.length := List.countP_eq_length.2 (fun y hy => by simp [hmax y hy])
    omega

/-! ## Theorems -/

/-- `a.median`: an empty array raises; of an odd number of elements the middle one; of an even number the lower of the two
in the middle, or their average if the type is float or double. -/
theorem median_spec {lt : α → α → Bool} (h : StrictWeak lt) (avg : α → α → α) (a : List α) :
    (a = [] → median lt avg a = .error (.rt 15450)) ∧
    (a.length % 2 = 1 → ∃ x, median lt avg a = .ok x ∧ HasRank lt a (a.length / 2) x) ∧
    (a ≠ [] → a.length % 2 = 0 → ∃ x y, median lt avg a = .ok (avg x y) ∧ HasRank lt a (a.length / 2 - 1) x ∧
      HasRank lt a (a.length / 2) y) := by
  have hlen : (insertAll lt a []).length = a.length := (insertAll_stable h a).perm.length_eq
  refine ⟨?_, ?_, ?_⟩
  · rintro rfl; rfl
  · intro ho
    obtain ⟨x, hx, hr⟩ := at'_sorted h a (a.length / 2) (by omega)
    refine ⟨x, ?_, hr⟩
    rw [median, if_neg (by omega)]
    simp only [hlen]
    rw [if_pos (by omega), hx]
  · intro ha he
    have hl : a.length ≠ 0 := by simpa using ha
    obtain ⟨x, hx, hr⟩ := at'_sorted h a (a.length / 2 - 1) (by omega)
    obtain ⟨y, hy, hr'⟩ := at'_sorted h a (a.length / 2) (by omega)
    refine ⟨x, y, ?_, hr, hr'⟩
    rw [median, if_neg hl]
    simp only [hlen]
    rw [if_neg (by omega), hx, hy]
    rfl

theorem countP_add_gt {lt : α → α → Bool} (a : List α) (x : α) :
    a.countP (fun y => !lt x y) + a.countP (fun y => lt x y) = a.length := by
  induction a with
  | nil => rfl
  | cons z a ih =>
    rw [List.countP_cons, List.countP_cons, List.length_cons]
    cases lt x z <;> simp <;> omega

/-- The order of numbers. -/
def ltQ (x y : ℚ) : Bool := decide (x < y)

theorem ltQ_strict : StrictWeak ltQ where
  irrefl x := by simp [ltQ]
  trans x y z h1 h2 := by simp only [ltQ, decide_eq_true_eq] at *; exact h1.trans h2
  cotrans x y z h1 := by
    simp only [ltQ, decide_eq_true_eq] at *
    rcases lt_or_ge x z with h | h
    · exact .inl h
    · exact .inr (lt_of_le_of_lt h h1)

/-- Elements between two others in rank. -/
theorem count_below {a : List ℚ} {k : Nat} {y m : ℚ} (hy : HasRank ltQ a k y) (hm : m ≤ y) :
    a.countP (fun x => decide (x < m)) ≤ k := by
  refine le_trans (List.countP_mono_left ?_) hy.2.1
  intro x _ hx
  simp only [ltQ, decide_eq_true_eq] at *
  exact lt_of_lt_of_le hx hm

theorem count_above {a : List ℚ} {k : Nat} {x m : ℚ} (hx : HasRank ltQ a k x) (hm : x ≤ m) :
    a.countP (fun y => decide (m < y)) + k < a.length := by
  have h1 : a.countP (fun y => decide (m < y)) ≤ a.countP (fun y => ltQ x y) := by
    apply List.countP_mono_left
    intro y _ hy
    simp only [ltQ, decide_eq_true_eq] at *
    exact lt_of_le_of_lt hm hy
  have h2 := countP_add_gt (lt := ltQ) a x
  have := hx.2.2
  omega

/-- A median of numbers has at most half of the elements below it and at most half above it. -/
theorem median_splits (a : List ℚ) (m : ℚ) (hm : median ltQ avgReal a = .ok m) :
    2 * a.countP (fun x => decide (x < m)) ≤ a.length ∧ 2 * a.countP (fun x => decide (m < x)) ≤ a.length := by
  obtain ⟨h0, h1, h2⟩ := median_spec ltQ_strict avgReal a
  by_cases ha : a = []
  · rw [h0 ha] at hm; cases hm
  · rcases Nat.mod_two_eq_zero_or_one a.length with he | ho
    · obtain ⟨x, y, e, hx, hy⟩ := h2 ha he
      rw [e] at hm
      injection hm with hm
      have hxy : x ≤ y := by
        have := rank_mono ltQ_strict hx hy (by omega)
        simpa [ltQ] using this
      have b1 := count_below hy (m := m) (by rw [← hm, avgReal]; linarith)
      have b2 := count_above hx (m := m) (by rw [← hm, avgReal]; linarith)
      have : a.length ≠ 0 := by simpa using ha
      omega
    · obtain ⟨x, e, hx⟩ := h1 ho
      rw [e] at hm
      injection hm with hm
      have b1 := count_below hx (m := m) (le_of_eq hm.symm)
      have b2 := count_above hx (m := m) (le_of_eq hm)
      omega

/-- What is needed of the rounding of `(len(a) - 1.0)*p`: it keeps order and whole numbers up to the length. -/
structure Rounds (R : ℚ → ℚ) (n : Nat) : Prop where
  mono : ∀ x y, 0 ≤ x → x ≤ y → R x ≤ R y
  whole : ∀ i : Nat, i ≤ n → R i = i

theorem Rounds.between {R : ℚ → ℚ} {n : Nat} (hR : Rounds R n) {p : ℚ} (h0 : 0 ≤ p) (h1 : p ≤ 1) (hn : 0 < n) :
    0 ≤ R (((n : ℚ) - 1) * p) ∧ R (((n : ℚ) - 1) * p) ≤ ((n - 1 : Nat) : ℚ) := by
  have hq : (1 : ℚ) ≤ n := by exact_mod_cast hn
  constructor
  · have := hR.mono 0 (((n : ℚ) - 1) * p) le_rfl (mul_nonneg (by linarith) h0)
    have h := hR.whole 0 (by omega)
    simp only [Nat.cast_zero] at h
    rwa [h] at this
  · rw [← hR.whole (n - 1) (by omega)]
    have : 0 ≤ (n : ℚ) - 1 := by linarith
    apply hR.mono _ _ (mul_nonneg this h0)
    rw [Nat.cast_sub hn]
    push_cast
    nlinarith

theorem roundEven_monotone {q q' : ℚ} (h : q ≤ q') : Verif.Arith.roundEven q ≤ Verif.Arith.roundEven q' := by
  have hf := Int.floor_mono h
  rcases lt_or_eq_of_le hf with hlt | heq
  · have h1 : Verif.Arith.roundEven q ≤ ⌊q⌋ + 1 := by
      simp only [Verif.Arith.roundEven]; split_ifs <;> omega
    have h2 : ⌊q'⌋ ≤ Verif.Arith.roundEven q' := Verif.Arith.roundEven_mono (Int.floor_le q')
    omega
  · simp only [Verif.Arith.roundEven, ← heq]
    split_ifs <;> first | omega | (exfalso; linarith)

/-- Rounding to the nearest double keeps the order. -/
theorem rnd_monotone {x y : ℚ} (h0 : 0 ≤ x) (h : x ≤ y) : Verif.Arith.rnd x ≤ Verif.Arith.rnd y := by
  rcases eq_or_lt_of_le h0 with rfl | hx
  · rw [Verif.Arith.rnd_zero]
    rcases eq_or_lt_of_le h with rfl | hy
    · rw [Verif.Arith.rnd_zero]
    · have := Verif.Arith.le_rnd (q := y) (n := 0) hy.ne' (by simpa using hy.le)
      simpa using this
  · have hy : 0 < y := lt_of_lt_of_le hx h
    have hlog : Int.log 2 |x| ≤ Int.log 2 |y| := Int.log_mono_right (abs_pos.2 hx.ne') (by rwa [abs_of_pos hx, abs_of_pos hy])
    by_cases he : expo x = expo y
    · have hu : Verif.Arith.ulp x = Verif.Arith.ulp y := by
        unfold expo at he; unfold Verif.Arith.ulp; rw [he]
      rw [Verif.Arith.rnd, Verif.Arith.rnd, if_neg hx.ne', if_neg hy.ne', hu]
      have hp := Verif.Arith.ulp_pos y
      apply mul_le_mul_of_nonneg_right _ hp.le
      exact_mod_cast roundEven_monotone (div_le_div_of_nonneg_right h hp.le)
    · have hlt : Int.log 2 |x| < Int.log 2 |y| := by
        rcases lt_or_eq_of_le hlog with h | h
        · exact h
        · exact absurd (by unfold expo; rw [h]) he
      have hey : expo y = Int.log 2 |y| - 52 := by unfold expo at *; omega
      have hex : expo x ≤ Int.log 2 |y| := by unfold expo at *; omega
      have bx := (Verif.Arith.zpow_abs_bounds hx.ne').2
      have bY := (Verif.Arith.zpow_abs_bounds hy.ne').1
      rw [abs_of_pos hx] at bx
      have hxb : x ≤ ((1 : Int) : ℚ) * 2 ^ Int.log 2 |y| := by
        refine bx.le.trans ?_
        rw [Int.cast_one, one_mul]
        have : Int.log 2 |x| + 1 ≤ Int.log 2 |y| := by omega
        rw [abs_of_pos hx] at this
        exact zpow_le_zpow_right₀ (by norm_num) this
      have hyb : ((1 : Int) : ℚ) * 2 ^ Int.log 2 |y| ≤ y := by
        rw [Int.cast_one, one_mul]
        exact bY.trans (le_of_eq (abs_of_pos hy))
      exact (rnd_le_grid hx.ne' hex hxb).trans (le_rnd_grid hy.ne' (by omega) hyb)

/-- The rounding of doubles meets the requirement for every array shorter than 2^53. -/
theorem rounds_double (n : Nat) (hn : n ≤ 2 ^ 53) : Rounds Verif.Arith.rnd n where
  mono _ _ h0 h := rnd_monotone h0 h
  whole i hi := by
    have := Verif.Arith.rnd_double (Verif.Arith.isDouble_int (n := (i : Int)) (by
      rw [abs_of_nonneg (by omega)]; exact_mod_cast hi.trans hn))
    simpa using this

/-- `a.ntile` at a position strictly inside: the elements of the two ranks next to `(n - 1)*p`. -/
theorem ntile_inside {lt : α → α → Bool} (h : StrictWeak lt) {R : ℚ → ℚ} (a : List α) (hR : Rounds R a.length)
    (ha : a ≠ []) (p : ℚ) (h0 : 0 < p) (h1 : p < 1) :
    let k := R (((a.length : ℚ) - 1) * p)
    (∃ x, ntile R lt none a (.fin p) = .ok x ∧ HasRank lt a ⌊k⌋.toNat x) ∧
    ∀ g, ∃ x y, HasRank lt a ⌊k⌋.toNat x ∧ HasRank lt a ⌈k⌉.toNat y ∧
      ntile R lt (some g) a (.fin p) = .ok (if ⌊k⌋ = ⌈k⌉ then x else g x y k) := by
  intro k
  have hl : 0 < a.length := List.length_pos_iff.2 ha
  obtain ⟨hk0, hk1⟩ := hR.between h0.le h1.le hl
  have hf : ⌊k⌋.toNat < a.length := by
    have : ⌊k⌋ ≤ ((a.length - 1 : Nat) : Int) := by
      have := Int.floor_mono hk1
      rwa [Int.floor_natCast] at this
    omega
  have hc : ⌈k⌉.toNat < a.length := by
    have : ⌈k⌉ ≤ ((a.length - 1 : Nat) : Int) := Int.ceil_le.2 (by rw [Int.cast_natCast]; exact hk1)
    omega
  obtain ⟨x, hx, rx⟩ := at'_sorted h a _ hf
  obtain ⟨y, hy, ry⟩ := at'_sorted h a _ hc
  constructor
  · refine ⟨x, ?_, rx⟩
    simp only [ntile, if_neg (Nat.pos_iff_ne_zero.1 hl), if_neg (not_le.2 h0), if_neg (not_le.2 h1)]
    simp only [ite_self]
    exact hx
  · intro g
    refine ⟨x, y, rx, ry, ?_⟩
    simp only [ntile, if_neg (Nat.pos_iff_ne_zero.1 hl), if_neg (not_le.2 h0), ge_iff_le, if_neg (not_le.2 h1)]
    by_cases he : ⌊k⌋ = ⌈k⌉
    · rw [if_pos he, if_pos he]; exact hx
    · rw [if_neg he, if_neg he]
      rw [hx, hy]; rfl

/-- `a.ntile` elsewhere: the least element, the greatest element, and the errors. -/
theorem ntile_outside {lt : α → α → Bool} (h : StrictWeak lt) (R : ℚ → ℚ) (inter : Option (α → α → ℚ → α)) (a : List α)
    (ha : a ≠ []) :
    (∀ p, ntile R lt inter [] p = .error (.rt 15460)) ∧ ntile R lt inter a .nan = .error (.rt 15461) ∧
    (∃ x, HasRank lt a 0 x ∧ ntile R lt inter a (.inf true) = .ok x ∧ ∀ p ≤ 0, ntile R lt inter a (.fin p) = .ok x) ∧
    (∃ x, HasRank lt a (a.length - 1) x ∧ ntile R lt inter a (.inf false) = .ok x ∧
      ∀ p ≥ 1, ntile R lt inter a (.fin p) = .ok x) := by
  have hl : a.length ≠ 0 := by simpa using ha
  obtain ⟨x, hx, rx⟩ := first_rank h a ha
  obtain ⟨y, hy, ry⟩ := last_rank h a ha
  refine ⟨fun p => rfl, by simp only [ntile, if_neg hl], ⟨x, rx, by simp only [ntile, if_neg hl, hx], ?_⟩,
    ⟨y, ry, by simp only [ntile, if_neg hl, hy], ?_⟩⟩
  · intro p hp
    simp only [ntile, if_neg hl, if_pos hp, hx]
  · intro p hp
    simp only [ntile, if_neg hl, if_neg (show ¬ p ≤ 0 by linarith), if_pos hp, hy]

/-! ## Quantiles of numbers -/

/-- The value at position `k` between the elements in order: independent of sorting. -/
def AtPos (a : List ℚ) (k v : ℚ) : Prop :=
  ∃ x y, HasRank ltQ a ⌊k⌋.toNat x ∧ HasRank ltQ a ⌈k⌉.toNat y ∧ v = x + (y - x) * (k - ⌊k⌋)

theorem rank_eq {a : List ℚ} {k : Nat} {x y : ℚ} (hx : HasRank ltQ a k x) (hy : HasRank ltQ a k y) : x = y := by
  have h1 := rank_mono ltQ_strict hx hy le_rfl
  have h2 := rank_mono ltQ_strict hy hx le_rfl
  simp only [ltQ, decide_eq_false_iff_not, not_lt] at h1 h2
  exact le_antisymm h1 h2

theorem rank_le {a : List ℚ} {j k : Nat} {x y : ℚ} (hx : HasRank ltQ a j x) (hy : HasRank ltQ a k y) (h : j ≤ k) : x ≤ y := by
  simpa [ltQ] using rank_mono ltQ_strict hx hy h

/-- The value at a position is between the two elements. -/
theorem atPos_between {x y k : ℚ} (hxy : x ≤ y) : x ≤ x + (y - x) * (k - ⌊k⌋) ∧ x + (y - x) * (k - ⌊k⌋) ≤ y := by
  have h0 : 0 ≤ k - ⌊k⌋ := by have := Int.floor_le k; linarith
  have h1 : k - ⌊k⌋ ≤ 1 := by have := Int.lt_floor_add_one k; linarith
  have : 0 ≤ y - x := by linarith
  constructor <;> nlinarith

theorem ceil_of_not_int {k : ℚ} (h : ⌊k⌋ ≠ ⌈k⌉) : ⌈k⌉ = ⌊k⌋ + 1 := by
  have h1 := Int.ceil_le_floor_add_one k
  have h2 := Int.floor_le_ceil k
  omega

/-- There is only one value at a position, and it does not fall as the position rises. -/
theorem atPos_mono {a : List ℚ} {k k' v v' : ℚ} (h0 : 0 ≤ k) (hv : AtPos a k v) (hv' : AtPos a k' v') (hk : k ≤ k') :
    v ≤ v' := by
  obtain ⟨x, y, hx, hy, rfl⟩ := hv
  obtain ⟨x', y', hx', hy', rfl⟩ := hv'
  have hf0 : 0 ≤ ⌊k⌋ := Int.floor_nonneg.2 h0
  have hxy : x ≤ y := rank_le hx hy (Int.toNat_le_toNat (Int.floor_le_ceil k))
  have hxy' : x' ≤ y' := rank_le hx' hy' (Int.toNat_le_toNat (Int.floor_le_ceil k'))
  by_cases hc : ⌈k⌉ ≤ ⌊k'⌋
  · exact (atPos_between hxy).2.trans ((rank_le hy hx' (Int.toNat_le_toNat hc)).trans (atPos_between hxy').1)
  · have hff : ⌊k⌋ ≤ ⌊k'⌋ := Int.floor_mono hk
    have hcc := Int.ceil_le_floor_add_one k
    have hfe : ⌊k'⌋ = ⌊k⌋ := by omega
    have hce : ⌈k'⌉ = ⌈k⌉ := by
      have h1 : ⌈k⌉ ≤ ⌈k'⌉ := Int.ceil_mono hk
      have h2 := Int.ceil_le_floor_add_one k'
      omega
    rw [hfe] at hx'
    rw [hce] at hy'
    have e1 := rank_eq hx hx'
    have e2 := rank_eq hy hy'
    subst e1 e2
    rw [hfe]
    have : 0 ≤ y - x := by linarith
    nlinarith

theorem atPos_unique {a : List ℚ} {k v v' : ℚ} (h0 : 0 ≤ k) (hv : AtPos a k v) (hv' : AtPos a k v') : v = v' :=
  le_antisymm (atPos_mono h0 hv hv' le_rfl) (atPos_mono h0 hv' hv le_rfl)

/-- The position of a quantile. -/
def posOf (R : ℚ → ℚ) (n : Nat) (p : ℚ) : ℚ :=
  if p ≤ 0 then 0 else if p ≥ 1 then ((n - 1 : Nat) : ℚ) else R (((n : ℚ) - 1) * p)

/-- `a.ntile` of numbers is the value at the position `(n - 1)*p`, with `p` kept between zero and one. -/
theorem ntile_spec {R : ℚ → ℚ} (a : List ℚ) (hR : Rounds R a.length) (ha : a ≠ []) (p : ℚ) :
    ∃ v, ntile R ltQ (some interReal) a (.fin p) = .ok v ∧ AtPos a (posOf R a.length p) v := by
  obtain ⟨_, _, ⟨x, hx, _, hx'⟩, ⟨y, hy, _, hy'⟩⟩ := ntile_outside ltQ_strict R (some interReal) a ha
  by_cases h0 : p ≤ 0
  · exact ⟨x, hx' p h0, x, x, by simpa [posOf, h0] using hx, by simpa [posOf, h0] using hx, by ring⟩
  · by_cases h1 : p ≥ 1
    · refine ⟨y, hy' p h1, y, y, ?_, ?_, by ring⟩
      · rw [posOf, if_neg h0, if_pos h1, Int.floor_natCast, Int.toNat_natCast]; exact hy
      · rw [posOf, if_neg h0, if_pos h1, Int.ceil_natCast, Int.toNat_natCast]; exact hy
    · obtain ⟨x, y, rx, ry, e⟩ := (ntile_inside ltQ_strict a hR ha p (not_le.1 h0) (not_le.1 h1)).2 interReal
      refine ⟨_, e, x, y, by rw [posOf, if_neg h0, if_neg h1]; exact rx, by rw [posOf, if_neg h0, if_neg h1]; exact ry, ?_⟩
      rw [posOf, if_neg h0, if_neg h1]
      by_cases hc : ⌊R (((a.length : ℚ) - 1) * p)⌋ = ⌈R (((a.length : ℚ) - 1) * p)⌉
      · rw [if_pos hc]
        rw [← hc] at ry
        rw [rank_eq rx ry]; ring
      · rw [if_neg hc, interReal, ceil_of_not_int hc]
        push_cast; ring

/-- `a.ntile` does not fall as `p` rises. -/
theorem ntile_mono {R : ℚ → ℚ} (a : List ℚ) (hR : Rounds R a.length) (p q u v : ℚ) (hpq : p ≤ q)
    (hu : ntile R ltQ (some interReal) a (.fin p) = .ok u) (hv : ntile R ltQ (some interReal) a (.fin q) = .ok v) : u ≤ v := by
  by_cases ha : a = []
  · subst ha; cases hu
  · have hl : 0 < a.length := List.length_pos_iff.2 ha
    obtain ⟨u', e1, h1⟩ := ntile_spec a hR ha p
    obtain ⟨v', e2, h2⟩ := ntile_spec a hR ha q
    rw [hu] at e1; rw [hv] at e2
    cases e1; cases e2
    refine atPos_mono ?_ h1 h2 ?_
    · unfold posOf
      split
      · exact le_rfl
      · split
        · exact Nat.cast_nonneg _
        · exact (hR.between (by linarith) (by linarith) hl).1
    · unfold posOf
      by_cases p0 : p ≤ 0
      · rw [if_pos p0]
        split
        · exact le_rfl
        · split
          · exact Nat.cast_nonneg _
          · exact (hR.between (by linarith) (by linarith) hl).1
      · rw [if_neg p0, if_neg (show ¬ q ≤ 0 by linarith)]
        by_cases q1 : q ≥ 1
        · rw [if_pos q1]
          split
          · exact le_rfl
          · exact (hR.between (by linarith) (by linarith) hl).2
        · rw [if_neg q1, if_neg (show ¬ p ≥ 1 by linarith)]
          have : (1 : ℚ) ≤ a.length := by exact_mod_cast hl
          apply hR.mono _ _ (mul_nonneg (by linarith) (by linarith))
          nlinarith

/-- Without rounding the half quantile is the median. -/
theorem ntile_half (a : List ℚ) : a ≠ [] → ntile id ltQ (some interReal) a (.fin (1 / 2)) = median ltQ avgReal a := by
  intro ha
  have hl : 0 < a.length := List.length_pos_iff.2 ha
  obtain ⟨v, e, h⟩ := ntile_spec (R := id) a ⟨fun _ _ _ h => h, fun _ _ => rfl⟩ ha (1 / 2)
  rw [e]
  have hpos : posOf id a.length (1 / 2) = ((a.length : ℚ) - 1) / 2 := by
    rw [posOf, if_neg (by norm_num), if_neg (by norm_num)]; simp only [id]; ring
  rw [hpos] at h
  obtain ⟨_, h1, h2⟩ := median_spec ltQ_strict avgReal a
  have h0 : (0 : ℚ) ≤ ((a.length : ℚ) - 1) / 2 := by
    have : (1 : ℚ) ≤ a.length := by exact_mod_cast hl
    linarith
  rcases Nat.mod_two_eq_zero_or_one a.length with he | ho
  · obtain ⟨x, y, em, hx, hy⟩ := h2 ha he
    rw [em]
    congr 1
    refine atPos_unique h0 h ⟨x, y, ?_, ?_, ?_⟩
    all_goals
      obtain ⟨m, hm⟩ : ∃ m, a.length = 2 * m + 2 := ⟨a.length / 2 - 1, by omega⟩
      have hk : ((a.length : ℚ) - 1) / 2 = (m : ℚ) + 1 / 2 := by rw [hm]; push_cast; ring
      have hfl : ⌊((a.length : ℚ) - 1) / 2⌋ = (m : Int) := by
        rw [hk, Int.floor_eq_iff]; push_cast; constructor <;> linarith
      have hce : ⌈((a.length : ℚ) - 1) / 2⌉ = (m : Int) + 1 := by
        rw [hk, Int.ceil_eq_iff]; push_cast; constructor <;> linarith
    · rw [hfl]
      have : a.length / 2 - 1 = ((m : Int)).toNat := by omega
      rwa [← this]
    · rw [hce]
      have : a.length / 2 = ((m : Int) + 1).toNat := by omega
      rwa [← this]
    · rw [hfl, hk, avgReal]; push_cast; ring
  · obtain ⟨x, em, hx⟩ := h1 ho
    rw [em]
    congr 1
    obtain ⟨m, hm⟩ : ∃ m, a.length = 2 * m + 1 := ⟨a.length / 2, by omega⟩
    have hk : ((a.length : ℚ) - 1) / 2 = ((m : Nat) : ℚ) := by rw [hm]; push_cast; ring
    have hm2 : a.length / 2 = m := by omega
    rw [hm2] at hx
    refine atPos_unique h0 h ⟨x, x, ?_, ?_, by ring⟩
    · rw [hk, Int.floor_natCast, Int.toNat_natCast]; exact hx
    · rw [hk, Int.ceil_natCast, Int.toNat_natCast]; exact hx

/-- The lower median of other types is the half quantile, too. -/
theorem ntile_half_other {lt : α → α → Bool} (h : StrictWeak lt) (a : List α) :
    a ≠ [] → ntile id lt none a (.fin (1 / 2)) = median lt avgOther a := by
  intro ha
  have hl : 0 < a.length := List.length_pos_iff.2 ha
  have hlen : (insertAll lt a []).length = a.length := (insertAll_stable h a).perm.length_eq
  have hk : (⌊((a.length : ℚ) - 1) * (1 / 2)⌋).toNat = (a.length - 1) / 2 := by
    rcases Nat.mod_two_eq_zero_or_one a.length with he | ho
    · obtain ⟨m, hm⟩ : ∃ m, a.length = 2 * m + 2 := ⟨a.length / 2 - 1, by omega⟩
      have : ⌊((a.length : ℚ) - 1) * (1 / 2)⌋ = (m : Int) := by
        rw [hm, Int.floor_eq_iff]; push_cast; constructor <;> linarith
      rw [this]; omega
    · obtain ⟨m, hm⟩ : ∃ m, a.length = 2 * m + 1 := ⟨a.length / 2, by omega⟩
      have : ⌊((a.length : ℚ) - 1) * (1 / 2)⌋ = (m : Int) := by
        rw [hm, Int.floor_eq_iff]; push_cast; constructor <;> linarith
      rw [this]; omega
  simp only [ntile, median, if_neg (Nat.pos_iff_ne_zero.1 hl), hlen, id, ite_self]
  rw [if_neg (by norm_num), if_neg (by norm_num), hk]
  rcases Nat.mod_two_eq_zero_or_one a.length with he | ho
  · rw [if_neg (by omega)]
    obtain ⟨x, hx, _⟩ := at'_sorted h a (a.length / 2 - 1) (by omega)
    obtain ⟨y, hy, _⟩ := at'_sorted h a (a.length / 2) (by omega)
    rw [hx, hy]
    have : (a.length - 1) / 2 = a.length / 2 - 1 := by omega
    rw [this, hx]; rfl
  · rw [if_pos (by omega)]
    have : (a.length - 1) / 2 = a.length / 2 := by omega
    rw [this]

/-! ## Modes -/

variable [DecidableEq κ]

/-- What the list of counts says about the elements seen so far. -/
structure Counted (key : α → κ) (done : List α) (l : List (κ × α × Nat)) : Prop where
  nodup : (l.map Prod.fst).Nodup
  mem : ∀ k x n, (k, x, n) ∈ l ↔
    done.find? (fun y => decide (key y = k)) = some x ∧ n = done.countP (fun y => decide (key y = k))

theorem countStep_fst (k : κ) (x : α) (l : List (κ × α × Nat)) :
    (countStep k x l).map Prod.fst = if k ∈ l.map Prod.fst then l.map Prod.fst else l.map Prod.fst ++ [k] := by
  induction l with
  | nil => simp [countStep]
  | cons p l ih =>
    obtain ⟨k', x', n⟩ := p
    simp only [countStep]
    by_cases h : k' = k
    · rw [if_pos h, if_pos (by simp [h])]; rfl
    · rw [if_neg h, List.map_cons, ih, List.map_cons]
      by_cases hm : k ∈ l.map Prod.fst
      · rw [if_pos hm, if_pos (List.mem_cons_of_mem _ hm)]
      · rw [if_neg hm, if_neg]
        · rfl
        · intro hc
          rcases List.mem_cons.1 hc with e | hc
          · exact h e.symm
          · exact hm hc

theorem countStep_mem (k : κ) (x : α) (l : List (κ × α × Nat)) (hn : (l.map Prod.fst).Nodup) (k' : κ) (x' : α) (n : Nat) :
    (k', x', n) ∈ countStep k x l ↔
      (k' ≠ k ∧ (k', x', n) ∈ l) ∨ (k' = k ∧ ((∃ m, (k, x', m) ∈ l ∧ n = m + 1) ∨ (k ∉ l.map Prod.fst ∧ x' = x ∧ n = 1))) := by
  induction l with
  | nil =>
    simp only [countStep, List.mem_singleton, Prod.mk.injEq, List.not_mem_nil, and_false, false_or, false_and,
      exists_false, List.map_nil, not_false_eq_true, true_and]
  | cons p l ih =>
    obtain ⟨k0, x0, n0⟩ := p
    rw [List.map_cons, List.nodup_cons] at hn
    simp only [countStep]
    by_cases h : k0 = k
    · subst h
      rw [if_pos rfl]
      simp only [List.mem_cons, Prod.mk.injEq, List.map_cons]
      constructor
      · rintro (⟨rfl, rfl, rfl⟩ | hm)
        · exact .inr ⟨rfl, .inl ⟨n0, .inl ⟨trivial, rfl, rfl⟩, rfl⟩⟩
        · refine .inl ⟨?_, .inr hm⟩
          rintro rfl
          exact hn.1 (List.mem_map.2 ⟨_, hm, rfl⟩)
      · rintro (⟨hne, h⟩ | ⟨rfl, h⟩)
        · rcases h with ⟨rfl, _⟩ | h
          · exact absurd rfl hne
          · exact .inr h
        · rcases h with ⟨m, h, rfl⟩ | ⟨h, _⟩
          · rcases h with ⟨_, rfl, rfl⟩ | h
            · exact .inl ⟨rfl, rfl, rfl⟩
            · exact absurd (List.mem_map.2 ⟨_, h, rfl⟩) hn.1
          · exact absurd (.inl trivial) h
    · rw [if_neg h, List.mem_cons, ih hn.2]
      simp only [List.mem_cons, Prod.mk.injEq, List.map_cons, not_or]
      constructor
      · rintro (⟨rfl, rfl, rfl⟩ | ⟨hne, hm⟩ | ⟨rfl, ⟨m, hm, rfl⟩ | ⟨hk, rfl, rfl⟩⟩)
        · exact .inl ⟨h, .inl ⟨rfl, rfl, rfl⟩⟩
        · exact .inl ⟨hne, .inr hm⟩
        · exact .inr ⟨rfl, .inl ⟨m, .inr hm, rfl⟩⟩
        · exact .inr ⟨rfl, .inr ⟨⟨fun e => h e.symm, hk⟩, rfl, rfl⟩⟩
      · rintro (⟨hne, ⟨rfl, rfl, rfl⟩ | hm⟩ | ⟨rfl, ⟨m, ⟨e, _, _⟩ | hm, rfl⟩ | ⟨⟨_, hk⟩, rfl, rfl⟩⟩)
        · exact .inl ⟨rfl, rfl, rfl⟩
        · exact .inr (.inl ⟨hne, hm⟩)
        · exact absurd e.symm h
        · exact .inr (.inr ⟨rfl, .inl ⟨m, hm, rfl⟩⟩)
        · exact .inr (.inr ⟨rfl, .inr ⟨hk, rfl, rfl⟩⟩)

theorem Counted.keys {key : α → κ} {done : List α} {l : List (κ × α × Nat)} (h : Counted key done l) (k : κ) :
    k ∈ l.map Prod.fst ↔ ∃ y ∈ done, key y = k := by
  constructor
  · intro hk
    obtain ⟨⟨k', x, n⟩, hm, rfl⟩ := List.mem_map.1 hk
    have := ((h.mem _ _ _).1 hm).1
    exact ⟨x, List.mem_of_find?_eq_some this, by simpa using List.find?_some this⟩
  · rintro ⟨y, hy, hk⟩
    obtain ⟨x, hx⟩ := Option.isSome_iff_exists.1 (List.find?_isSome (p := fun y => decide (key y = k)) |>.2
      ⟨y, hy, by simpa using hk⟩)
    exact List.mem_map.2 ⟨(k, x, _), (h.mem _ _ _).2 ⟨hx, rfl⟩, rfl⟩

theorem counted_step {key : α → κ} {done : List α} {l : List (κ × α × Nat)} (h : Counted key done l) (x : α) :
    Counted key (done ++ [x]) (countStep (key x) x l) := by
  constructor
  · rw [countStep_fst]
    split
    · exact h.nodup
    · next hk => exact List.nodup_append.2 ⟨h.nodup, by simp, by
        intro a ha b hb e
        rw [List.mem_singleton] at hb
        subst hb; subst e; exact hk ha⟩
  · intro k' x' n
    rw [countStep_mem _ _ _ h.nodup, List.find?_append, List.countP_append]
    by_cases hk : k' = key x
    · subst hk
      simp only [ne_eq, not_true_eq_false, false_and, true_and, false_or, List.find?_singleton, decide_true, if_true,
        List.countP_singleton]
      by_cases hin : ∃ y ∈ done, key y = key x
      · have hk := (h.keys (key x)).2 hin
        obtain ⟨y, hy, e⟩ := hin
        obtain ⟨z, hz⟩ := Option.isSome_iff_exists.1 (List.find?_isSome (p := fun y => decide (key y = key x)) |>.2
          ⟨y, hy, by simpa using e⟩)
        rw [hz]
        constructor
        · rintro (⟨m, hm, rfl⟩ | ⟨hc, _⟩)
          · have := (h.mem _ _ _).1 hm
            rw [hz] at this
            exact ⟨this.1, by rw [this.2]⟩
          · exact absurd hk hc
        · rintro ⟨e1, rfl⟩
          exact .inl ⟨_, (h.mem _ _ _).2 ⟨by rw [hz]; exact e1, rfl⟩, rfl⟩
      · have hk : key x ∉ l.map Prod.fst := fun hc => hin ((h.keys _).1 hc)
        have hz : done.find? (fun y => decide (key y = key x)) = none := by
          rw [List.find?_eq_none]; intro y hy he; exact hin ⟨y, hy, by simpa using he⟩
        have hc0 : done.countP (fun y => decide (key y = key x)) = 0 := by
          rw [List.countP_eq_zero]; intro y hy he; exact hin ⟨y, hy, by simpa using he⟩
        rw [hz, hc0]
        constructor
        · rintro (⟨m, hm, rfl⟩ | ⟨_, rfl, rfl⟩)
          · exact absurd (List.mem_map.2 ⟨_, hm, rfl⟩) hk
          · exact ⟨rfl, rfl⟩
        · rintro ⟨e1, rfl⟩
          refine .inr ⟨hk, ?_, rfl⟩
          simpa using e1.symm
    · have hk' : ¬ key x = k' := fun e => hk e.symm
      rw [h.mem]
      simp [hk, hk', List.find?_singleton]

theorem counted_all {key : α → κ} (a done : List α) (l : List (κ × α × Nat)) (h : Counted key done l) :
    Counted key (done ++ a) (countAll key a l) := by
  induction a generalizing done l with
  | nil => simpa [countAll] using h
  | cons x a ih =>
    have := ih _ _ (counted_step h x)
    rwa [List.append_assoc] at this

theorem counted_init (key : α → κ) (a : List α) : Counted key a (countAll key a []) := by
  have := counted_all (key := key) a [] [] ⟨by simp, by simp⟩
  simpa using this

theorem bestCount_ge (l : List (κ × α × Nat)) (b : Nat) :
    b ≤ l.foldl (fun b p => if p.2.2 > b then p.2.2 else b) b ∧
    (∀ p ∈ l, p.2.2 ≤ l.foldl (fun b p => if p.2.2 > b then p.2.2 else b) b) ∧
    (l.foldl (fun b p => if p.2.2 > b then p.2.2 else b) b = b ∨
      ∃ p ∈ l, l.foldl (fun b p => if p.2.2 > b then p.2.2 else b) b = p.2.2) := by
  induction l generalizing b with
  | nil => simp
  | cons q l ih =>
    rw [List.foldl_cons]
    obtain ⟨h1, h2, h3⟩ := ih (if q.2.2 > b then q.2.2 else b)
    have hb : b ≤ (if q.2.2 > b then q.2.2 else b) ∧ q.2.2 ≤ (if q.2.2 > b then q.2.2 else b) := by split <;> omega
    refine ⟨by omega, ?_, ?_⟩
    · intro p hp
      rcases List.mem_cons.1 hp with rfl | hp
      · omega
      · exact h2 p hp
    · rcases h3 with h3 | ⟨p, hp, h3⟩
      · rw [h3]
        by_cases hq : q.2.2 > b
        · rw [if_pos hq]; exact .inr ⟨q, by simp, rfl⟩
        · rw [if_neg hq]; exact .inl rfl
      · exact .inr ⟨p, by simp [hp], h3⟩

/-- `besties`: the first elements of each kind that occurs as often as any. -/
theorem mem_besties (key : α → κ) (a : List α) (x : α) :
    x ∈ besties key a ↔ a.find? (fun y => decide (key y = key x)) = some x ∧ ∀ y ∈ a, occ key a y ≤ occ key a x := by
  have hc := counted_init key a
  obtain ⟨_, hge, hat⟩ := bestCount_ge (countAll key a []) 0
  have entry : ∀ y ∈ a, ∃ z, (key y, z, occ key a y) ∈ countAll key a [] := by
    intro y hy
    obtain ⟨z, hz⟩ := Option.isSome_iff_exists.1 (List.find?_isSome (p := fun w => decide (key w = key y)) |>.2
      ⟨y, hy, by simp⟩)
    exact ⟨z, (hc.mem _ _ _).2 ⟨hz, rfl⟩⟩
  simp only [besties, List.mem_map, List.mem_filter, beq_iff_eq]
  constructor
  · rintro ⟨⟨k, x', n⟩, ⟨hm, hn⟩, rfl⟩
    obtain ⟨hf, hcnt⟩ := (hc.mem _ _ _).1 hm
    have hk : key x' = k := by simpa using List.find?_some hf
    subst hk
    refine ⟨hf, fun y hy => ?_⟩
    obtain ⟨z, hz⟩ := entry y hy
    have := hge _ hz
    simp only at hn hcnt this
    show _ ≤ a.countP _
    rw [← hcnt, hn]
    exact this
  · rintro ⟨hf, hbest⟩
    have hm : (key x, x, occ key a x) ∈ countAll key a [] := (hc.mem _ _ _).2 ⟨hf, rfl⟩
    refine ⟨_, ⟨hm, ?_⟩, rfl⟩
    refine le_antisymm (hge _ hm) ?_
    rcases hat with h0 | ⟨⟨k, z, n⟩, hp, h0⟩
    · rw [bestCount, h0]; omega
    · obtain ⟨hz, hn⟩ := (hc.mem _ _ _).1 hp
      have hk : key z = k := by simpa using List.find?_some hz
      subst hk
      have := hbest z (List.mem_of_find?_eq_some hz)
      rw [bestCount, h0]
      simp only [hn]
      exact this

theorem besties_ne (key : α → κ) (a : List α) (ha : a ≠ []) : besties key a ≠ [] := by
  intro he
  have hc := counted_init key a
  obtain ⟨_, hge, hat⟩ := bestCount_ge (countAll key a []) 0
  have : ∃ p ∈ countAll key a [], p.2.2 = bestCount (countAll key a []) := by
    rcases hat with h0 | ⟨p, hp, h0⟩
    · obtain ⟨x, hx⟩ := List.exists_mem_of_ne_nil a ha
      obtain ⟨p, hp, _⟩ := List.mem_map.1 ((hc.keys (key x)).2 ⟨x, hx, rfl⟩)
      refine ⟨p, hp, ?_⟩
      have := hge p hp
      rw [bestCount, h0]; omega
    · exact ⟨p, hp, h0.symm⟩
  obtain ⟨p, hp, e⟩ := this
  have : p.2.1 ∈ besties key a := by
    simp only [besties, List.mem_map, List.mem_filter, beq_iff_eq]
    exact ⟨p, ⟨hp, e⟩, rfl⟩
  rw [he] at this; cases this

/-- `a.mode` of types that are not float or double: an element that occurs as often as any. -/
theorem mode_spec (key : α → κ) {lt : α → α → Bool} (h : StrictWeak lt) (a : List α) :
    (a = [] → mode key lt avgOther a = .error (.rt 15470)) ∧
    (a ≠ [] → ∃ x, mode key lt avgOther a = .ok x ∧ x ∈ a ∧ (∀ y ∈ a, occ key a y ≤ occ key a x) ∧
      HasRank lt (besties key a) (((besties key a).length - 1) / 2) x) := by
  constructor
  · rintro rfl; rfl
  · intro ha
    have hb := besties_ne key a ha
    have hl : a.length ≠ 0 := by simpa using ha
    obtain ⟨_, h1, h2⟩ := median_spec h avgOther (besties key a)
    have : ∃ x, mode key lt avgOther a = .ok x ∧ HasRank lt (besties key a) (((besties key a).length - 1) / 2) x := by
      rw [mode, if_neg hl]
      rcases Nat.mod_two_eq_zero_or_one (besties key a).length with he | ho
      · obtain ⟨x, y, e, hx, _⟩ := h2 hb he
        refine ⟨x, e, ?_⟩
        have : (besties key a).length ≠ 0 := by simpa using hb
        rwa [show ((besties key a).length - 1) / 2 = (besties key a).length / 2 - 1 by omega]
      · obtain ⟨x, e, hx⟩ := h1 ho
        refine ⟨x, e, ?_⟩
        rwa [show ((besties key a).length - 1) / 2 = (besties key a).length / 2 by omega]
    obtain ⟨x, e, hx⟩ := this
    have hm := (mem_besties key a x).1 hx.1
    exact ⟨x, e, List.mem_of_find?_eq_some hm.1, hm.2, hx⟩

/-- `a.mode` of numbers, if one value occurs more often than the others. -/
theorem mode_single_partial (key : ℚ → κ) (hk : Function.Injective key) (a : List ℚ) (x : ℚ) (hx : x ∈ a)
    (hb : ∀ y ∈ a, y ≠ x → a.count y < a.count x) : mode key ltQ avgReal a = .ok x := by
  have hocc : ∀ y, occ key a y = a.count y := by
    intro y
    rw [occ, List.count]
    congr 1
    funext z
    rw [Bool.eq_iff_iff]
    simp [hk.eq_iff]
  have hl : a.length ≠ 0 := by intro h0; rw [List.length_eq_zero_iff.1 h0] at hx; cases hx
  have hmem : ∀ y, y ∈ besties key a → y = x := by
    intro y hy
    have hm := (mem_besties key a y).1 hy
    by_contra hne
    have h1 := hb y (List.mem_of_find?_eq_some hm.1) hne
    have h2 := hm.2 x hx
    rw [hocc, hocc] at h2
    omega
  have hne := besties_ne key a (by rintro rfl; cases hx)
  obtain ⟨_, h1, h2⟩ := median_spec ltQ_strict avgReal (besties key a)
  rw [mode, if_neg hl]
  rcases Nat.mod_two_eq_zero_or_one (besties key a).length with he | ho
  · obtain ⟨y, z, e, hy, hz⟩ := h2 hne he
    rw [e, hmem y hy.1, hmem z hz.1, avgReal]
    congr 1; ring
  · obtain ⟨y, e, hy⟩ := h1 ho
    rw [e, hmem y hy.1]

/-- Two values that occur equally often: `a.mode` of doubles gives a number that does not occur. -/
theorem mode_tie_violation :
    mode (id : ℚ → ℚ) ltQ avgReal [1, 1, 4, 4, 7] = .ok (5 / 2) ∧ (5 / 2 : ℚ) ∉ [1, 1, 4, 4, 7] := by
  decide +kernel

/-- Examples. -/
example : median ltQ avgReal [5, 1, 2, 4] = .ok 3 ∧ median ltQ avgOther [5, 1, 2, 4] = .ok 2 ∧
    median ltQ avgReal [5, 1, 2] = .ok 2 := by decide +kernel
example : HasRank ltQ [5, 1, 2, 4] 2 4 := ⟨by simp, by decide +kernel, by decide +kernel⟩
example : ntile id ltQ (some interReal) [5, 1, 2, 4] (.fin (1 / 4)) = .ok (7 / 4) := by decide +kernel
example : ntile id ltQ none [5, 1, 2, 4] (.fin (3 / 4)) = .ok 4 := by decide +kernel
example : mode (id : ℚ → ℚ) ltQ avgOther [3, 1, 3, 1, 2] = .ok 1 := by decide +kernel
example : ∀ y ∈ ([3, 1, 3, 2] : List ℚ), y ≠ 3 → ([3, 1, 3, 2] : List ℚ).count y < ([3, 1, 3, 2] : List ℚ).count 3 := by
  decide +kernel

end Verif.Lib.Quant
