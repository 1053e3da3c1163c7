import Verif.La.Dicts
import Verif.La.Arrays
import Verif.Misc.Small
import Verif.Producer.Match
import Verif.Time.Theorems
/-! # Cases at the edges of functions modelled elsewhere (C65, C66, C73, C82)

Theorems that were added after wrong programs had passed: errors of `la.truncate`, infinities with the correction of `stat.change.zValue`, the classes
of Python in patterns, and instants that are not representable. -/

namespace Verif.La

variable {α : Type}

/-- `la.truncate` of arrays refuses exactly what is empty, has an empty first row, or has rows of different lengths. -/
theorem truncateRows_iff (x : Rows α) (keep : Int) :
    (truncateRows x keep = .error (.rt 24120) ↔ x = [] ∨ ∃ rs, x = [] :: rs) ∧
    (truncateRows x keep = .error (.rt 24121) ↔ ∃ r rs, x = r :: rs ∧ r ≠ [] ∧ ∃ s ∈ rs, s.length ≠ r.length) ∧
    ((∃ y, truncateRows x keep = .ok y) ↔ ∃ r rs, x = r :: rs ∧ r ≠ [] ∧ ∀ s ∈ rs, s.length = r.length) := by
  cases x with
  | nil => simp [truncateRows]
  | cons r rs =>
    cases r with
    | nil => simp [truncateRows]
    | cons a r =>
      have hr : ragged ((a :: r) :: rs) = true ↔ ∃ s ∈ rs, s.length ≠ (a :: r).length := by
        simp [ragged]
      by_cases h : ∃ s ∈ rs, s.length ≠ (a :: r).length
      · have e : truncateRows ((a :: r) :: rs) keep = .error (.rt 24121) := by
          simp [truncateRows, hr.2 h]
        rw [e]
        obtain ⟨s, hs, hl⟩ := h
        refine ⟨by simp, by simp; exact ⟨s, hs, by simpa using hl⟩, ?_⟩
        simp
        exact ⟨s, hs, by simpa using hl⟩
      · have e : truncateRows ((a :: r) :: rs) keep = .ok (((a :: r) :: rs).take keep.toNat) := by
          have : ragged ((a :: r) :: rs) = false := by
            rw [← Bool.not_eq_true, hr]; exact h
          simp [truncateRows, this]
        rw [e]
        simp only [not_exists, not_and, not_not] at h
        refine ⟨by simp, ?_, ?_⟩
        · simp; intro s hs; simpa using h s hs
        · simp; intro s hs; simpa using h s hs

/-- `la.truncate` of maps refuses exactly maps without entries. -/
theorem truncateMaps_iff (x : Maps α) (keep : List String) :
    (truncateMaps x keep = .error (.rt 24120) ↔ ∀ r ∈ x, r.2 = []) ∧ ((∃ y, truncateMaps x keep = .ok y) ↔ ∃ r ∈ x, r.2 ≠ []) := by
  by_cases h : ∃ r ∈ x, r.2 ≠ []
  · obtain ⟨y, hy, -⟩ := truncateMaps_spec x keep h
    rw [hy]
    obtain ⟨r, hr, hne⟩ := h
    exact ⟨⟨fun e => (by cases e), fun e => absurd (e r hr) hne⟩, ⟨fun _ => ⟨r, hr, hne⟩, fun _ => ⟨y, rfl⟩⟩⟩
  · have h' : ∀ r ∈ x, r.2 = [] := fun r hr => by
      by_contra hne; exact h ⟨r, hr, hne⟩
    have hc : colKeys x = [] := by
      by_contra hne
      obtain ⟨c, hc⟩ := List.exists_mem_of_ne_nil _ hne
      obtain ⟨r, hr, hk⟩ := (mem_colKeys x c).1 hc
      rw [h' r hr] at hk
      cases hk
    have e : truncateMaps x keep = .error (.rt 24120) := by
      simp [truncateMaps, hc]
    rw [e]
    exact ⟨⟨fun _ => h', fun _ => rfl⟩, ⟨fun hy => (by obtain ⟨y, hy⟩ := hy; cases hy), fun hx => absurd hx h⟩⟩

example : truncateMaps ([("a", [])] : Maps ℚ) ["a"] = .error (.rt 24120) := by decide +kernel

end Verif.La

namespace Verif.Misc

/-- With the correction: a variance of zero leaves the infinities as they are, the correction for no elements at all is zero, and there is none for
counts between 0 and 1. -/
theorem zValueCount_edge (x mean variance count : ℝ) :
    (1 < count ∨ count < 0 → mean < x → zValueCount x count mean 0 true = .ok .pinf) ∧
    (1 < count ∨ count < 0 → x < mean → zValueCount x count mean 0 true = .ok .ninf) ∧
    (0 < count → count < 1 → zValueCount x count mean variance true = .ok .nan) ∧
    (variance < 0 → count ≠ 1 → zValueCount x count mean variance true = .ok .nan) ∧
    (0 < variance → zValueCount x 0 mean variance true = .ok (.fin 0)) ∧
    zValueCount x 0 mean 0 true = .ok .nan := by
  have hpos : 1 < count ∨ count < 0 → 0 < count / (count - 1) := by
    rintro (h | h)
    · exact div_pos (by linarith) (by linarith)
    · exact div_pos_of_neg_of_neg h (by linarith)
  have hne : 1 < count ∨ count < 0 → count - 1 ≠ 0 := by
    rintro (h | h) h0 <;> linarith
  refine ⟨fun hc h => ?_, fun hc h => ?_, fun h0 h1 => ?_, fun h hc => ?_, fun h => ?_, ?_⟩
  · unfold zValueCount
    rw [if_neg (hne hc), (zValue_edge x mean 0).1 h, if_pos (hpos hc).le]
    simp only [if_true, zTimes, if_pos (Real.sqrt_pos.2 (hpos hc))]
  · unfold zValueCount
    rw [if_neg (hne hc), (zValue_edge x mean 0).2.1 h, if_pos (hpos hc).le]
    simp only [if_true, zTimes, if_pos (Real.sqrt_pos.2 (hpos hc))]
  · unfold zValueCount
    have : count / (count - 1) < 0 := div_neg_of_pos_of_neg h0 (by linarith)
    rw [if_neg (by intro h; linarith), if_neg (by linarith)]
    simp only [if_true]
    cases zValue x mean variance <;> rfl
  · unfold zValueCount
    rw [if_neg (fun h0 => hc (by linarith)), (zValue_edge x mean variance).2.2.2 h]
    simp only [if_true]
    split <;> rfl
  · have hs : √variance ≠ 0 := (Real.sqrt_pos.2 h).ne'
    have h1 : zValue x mean variance = .fin ((x - mean) / √variance) := by
      unfold zValue sigmaOf
      rw [if_pos h.le]
      exact if_neg hs
    unfold zValueCount
    rw [if_neg (by norm_num), h1]
    simp [zTimes]
  · unfold zValueCount
    rw [if_neg (by norm_num)]
    have : (0 : ℝ) ≤ 0 / (0 - 1) := by norm_num
    rw [if_pos this]
    have e : √((0 : ℝ) / (0 - 1)) = 0 := by norm_num
    simp only [if_true, e]
    cases h : zValue x mean 0 with
    | fin a =>
      exfalso
      have : zValue x mean 0 = if 0 < x - mean then .pinf else if x - mean < 0 then .ninf else .nan := by
        unfold zValue sigmaOf
        rw [if_pos (le_refl _), Real.sqrt_zero]
        exact if_pos rfl
      rw [this] at h
      split at h
      · cases h
      · split at h <;> cases h
    | pinf => simp [zTimes]
    | ninf => simp [zTimes]
    | nan => rfl

end Verif.Misc

namespace Verif.Producer
open Avro

/-- The classes of Python that a JSON value is an instance of. -/
inductive InstanceOf : Val → PyType → Prop
  | dict (d : List (String × Val)) : InstanceOf (.dict d) .dict
  | list (xs : List Val) : InstanceOf (.arr xs) .list
  | str (s : String) : InstanceOf (.str s) .str
  | int (i : Int) : InstanceOf (.int i) .int
  | boolInt (b : Bool) : InstanceOf (.bool b) .int
  | float (f : Flt) : InstanceOf (.flt f) .float
  | bool (b : Bool) : InstanceOf (.bool b) .bool
  | none : InstanceOf .null .none

/-- `isinstance`, which `Means.any` uses. -/
theorem has_iff (t : PyType) (v : Val) : t.has v = true ↔ InstanceOf v t := by
  constructor
  · intro h
    cases t <;> cases v <;> first | constructor | (simp [PyType.has] at h)
  · intro h
    cases h <;> rfl

/-- A pattern `Any` of classes means the values of one of these. -/
theorem any_means (types : List PyType) (v : Val) : Means (.any types) v ↔ types = [] ∨ ∃ t ∈ types, InstanceOf v t := by
  constructor
  · intro h
    cases h with
    | anything => exact .inl rfl
    | any ht h => exact .inr ⟨_, ht, (has_iff _ _).1 h⟩
  · rintro (rfl | ⟨t, ht, h⟩)
    · exact .anything
    · exact .any ht ((has_iff _ _).2 h)

example : Means (.any [.str, .int]) (.bool true) := (any_means _ _).2 (.inr ⟨.int, by simp, .boolInt true⟩)

end Verif.Producer

namespace Verif.Time

/-- In a zone, a local time whose instant is outside the years 1 to 9999 is an OverflowError, which is not documented. -/
theorem makeTimestamp_range_violation (zs : Zones) {y mo d h mi s ms : Int} (hn : Named y mo d h mi s ms) (zone : String) (hz : zone ≠ "")
    (z : Zone) (hzs : zs zone = some z)
    (hr : toMicros ⟨⟨y, mo, d⟩, h, mi, s, ms * 1000⟩ - z.loc (toMicros ⟨⟨y, mo, d⟩, h, mi, s, ms * 1000⟩) < minMicros ∨
      toMicros ⟨⟨y, mo, d⟩, h, mi, s, ms * 1000⟩ - z.loc (toMicros ⟨⟨y, mo, d⟩, h, mi, s, ms * 1000⟩) > maxMicros) :
    makeTimestamp zs y mo d h mi s ms zone = .error (.py "OverflowError") := by
  simp only [makeTimestamp, if_neg hz, hzs, mkDt_ok hn, catchValue, bind, Except.bind, seconds]
  rw [if_pos hr]

end Verif.Time
