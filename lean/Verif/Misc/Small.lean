import Verif.Stat.Num
import Verif.Misc.Bytes
import Mathlib.Data.List.Infix
import Mathlib.Data.Real.Sqrt
import Mathlib.Tactic.Linarith
/-! # impute.py, enum.py, fixed.py and stat/change.py -/

namespace Verif.Misc
open Verif.Stat (Num dbl)

variable {α : Type}

/-! ## Model -/

/-- A value of a union as Titus represents it: None, a dict (a tag with its value, or a map or record without tag) or anything else. -/
inductive UVal (α : Type)
  | none
  | dict (l : List (String × α))
  | other (v : α)

/-- What `impute.errorOnNull` and `impute.defaultOnNull` do with a value that is not None (impute.py 44-50, 61-67); `union` tells that
the type of the result is a union. -/
def unwrapUnion (union : Bool) (x : UVal α) : Res (UVal α) :=
  if union then .ok x
  else match x with
    | .dict [] => .error (.py "IndexError")
    | .dict ((_, v) :: _) => .ok (.other v)
    | x => .ok x

/-- `impute.errorOnNull` (41-50). -/
def errorOnNull (union : Bool) : UVal α → Res (UVal α)
  | .none => .error (.rt 21000)
  | x => unwrapUnion union x

/-- `impute.defaultOnNull` (58-67). -/
def defaultOnNull (union : Bool) (x default : UVal α) : Res (UVal α) :=
  match x with
  | .none => .ok default
  | x => unwrapUnion union x

/-- `impute.isnan`, `isinf`, `isnum` (76, 85, 94). -/
def isnum (x : Num) : Bool := !x.isNan && !x.isInf

/-- `impute.errorOnNonNum` (102-111). -/
def errorOnNonNum (x : Num) : Res Num :=
  if x.isNan then .error (.rt 21050)
  else if x.isInf then (if x.isPos then .error (.rt 21051) else .error (.rt 21052))
  else .ok x

/-- `impute.defaultOnNonNum` (119-123). -/
def defaultOnNonNum (x default : Num) : Num := if x.isNan || x.isInf then default else x

/-- `enum.toString` (enum.py 38-42). -/
def enumToString (symbols : List String) (x : String) : Res String := if x ∈ symbols then .ok x else .error .avro

/-- `list.index`. -/
def index? (x : String) : List String → Option Nat
  | [] => none
  | y :: l => if y = x then some 0 else (index? x l).map (· + 1)

/-- `enum.toInt` (49-53). -/
def enumToInt (symbols : List String) (x : String) : Res Nat :=
  match index? x symbols with
  | some i => .ok i
  | none => .error .avro

/-- `enum.numSymbols` (60-61). -/
def numSymbols (symbols : List String) : Nat := symbols.length

/-- `bytesToString` where needed. -/
def BVal.chars : BVal → List Nat
  | .str l => l
  | .raw l => l

/-- `fixed.toBytes` (fixed.py 38-41). -/
def fixedToBytes (x : BVal) : BVal := .str x.chars

/-- `fixed.fromBytes` (48-54). -/
def fixedFromBytes (original replacement : BVal) : BVal :=
  let o := original.chars
  let r := replacement.chars
  let length := min o.length r.length
  .str (r.take length ++ (o.take o.length).drop length)

/-- The record of `stat.change.updateTrigger`. -/
structure Trigger where
  numEvents : Int
  numRuns : Int
  currentRun : Int
  longestRun : Int
  deriving DecidableEq

/-- `stat.change.updateTrigger` (change.py 40-59). -/
def updateTrigger (predicate : Bool) (h : Trigger) : Res Trigger :=
  if h.numEvents < 0 ∨ h.numRuns < 0 ∨ h.currentRun < 0 ∨ h.longestRun < 0 then .error (.rt 37000)
  else if predicate then
    let numEvents := h.numEvents + 1
    let numRuns := if h.currentRun = 0 then h.numRuns + 1 else h.numRuns
    let currentRun := h.currentRun + 1
    let longestRun := if h.longestRun < currentRun then currentRun else h.longestRun
    .ok ⟨numEvents, numRuns, currentRun, longestRun⟩
  else .ok { h with currentRun := 0 }

/-- A real number, an infinity or nan. -/
inductive RNum
  | fin (x : ℝ)
  | pinf
  | ninf
  | nan

open Classical in
/-- `div(x - mean, sigma)` (util.py 84-105); `none` is nan. -/
noncomputable def zDiv (d : ℝ) : Option ℝ → RNum
  | none => .nan
  | some s => if s = 0 then (if 0 < d then .pinf else if d < 0 then .ninf else .nan) else .fin (d / s)

open Classical in
/-- `sigma` (change.py 72-75). -/
noncomputable def sigmaOf (variance : ℝ) : Option ℝ := if 0 ≤ variance then some √variance else none

/-- `stat.change.zValue` of a mean and a variance (69-77). -/
noncomputable def zValue (x mean variance : ℝ) : RNum := zDiv (x - mean) (sigmaOf variance)

open Classical in
/-- The product with the correction (79-86): `none` is nan; `math.sqrt` of a number that is not zero is not zero. -/
noncomputable def zTimes : RNum → Option ℝ → RNum
  | .fin a, some c => .fin (a * c)
  | .pinf, some c => if 0 < c then .pinf else .nan
  | .ninf, some c => if 0 < c then .ninf else .nan
  | _, _ => .nan

open Classical in
/-- `stat.change.zValue` with a count (69-88). -/
noncomputable def zValueCount (x count mean variance : ℝ) (unbiased : Bool) : Res RNum :=
  if count - 1 = 0 then .error (.py "ZeroDivisionError")
  else
    let correction := if 0 ≤ count / (count - 1) then some √(count / (count - 1)) else none
    .ok (if unbiased then zTimes (zValue x mean variance) correction else zValue x mean variance)

/-- `stat.change.updateCUSUM` (95-100). -/
def updateCUSUM (r : ℚ → Num) (llr last reset : Num) : Num :=
  let out := Num.add r llr last
  if Num.lt reset out then out else reset

/-! ## impute -/

/-- A tagged value is taken out of the union, null gives the error or the default; if the result is itself a union the tag remains. -/
theorem impute_partial (tag : String) (v : α) (x d : UVal α) :
    errorOnNull false (.none : UVal α) = .error (.rt 21000) ∧ errorOnNull true (.none : UVal α) = .error (.rt 21000) ∧
    errorOnNull false (.dict [(tag, v)]) = .ok (.other v) ∧ (x ≠ .none → errorOnNull true x = .ok x) ∧
    (∀ u, defaultOnNull u .none d = .ok d) ∧ defaultOnNull false (.dict [(tag, v)]) d = .ok (.other v) ∧
    (x ≠ .none → defaultOnNull true x d = .ok x) ∧ errorOnNull false (.other v) = .ok (.other v) ∧
    defaultOnNull false (.other v) d = .ok (.other v) := by
  refine ⟨rfl, rfl, rfl, ?_, fun _ => rfl, rfl, ?_, rfl, rfl⟩
  · intro h; cases x with
    | none => exact absurd rfl h
    | dict l => rfl
    | other v => rfl
  · intro h; cases x with
    | none => exact absurd rfl h
    | dict l => rfl
    | other v => rfl

/-- A map without a tag is mistaken for a tagged value: the result is its first value, and an empty one raises IndexError. -/
theorem impute_violation (a b : α) :
    errorOnNull false (.dict [("x", a), ("y", b)]) = .ok (.other a) ∧ errorOnNull false (.dict ([] : List (String × α))) =
      .error (.py "IndexError") := ⟨rfl, rfl⟩

/-- The functions on non-numbers. -/
theorem nonnum_spec (q : ℚ) (d : Num) :
    isnum (.fin q) = true ∧ isnum .nan = false ∧ isnum .pinf = false ∧ isnum .ninf = false ∧
    errorOnNonNum (.fin q) = .ok (.fin q) ∧ errorOnNonNum .nan = .error (.rt 21050) ∧ errorOnNonNum .pinf = .error (.rt 21051) ∧
    errorOnNonNum .ninf = .error (.rt 21052) ∧
    defaultOnNonNum (.fin q) d = .fin q ∧ defaultOnNonNum .nan d = d ∧ defaultOnNonNum .pinf d = d ∧ defaultOnNonNum .ninf d = d :=
  ⟨rfl, rfl, rfl, rfl, rfl, rfl, rfl, rfl, rfl, rfl, rfl, rfl⟩

/-! ## enum -/

theorem index?_spec (x : String) (l : List String) (i : Nat) :
    index? x l = some i ↔ l[i]? = some x ∧ ∀ j < i, l[j]? ≠ some x := by
  induction l generalizing i with
  | nil => simp [index?]
  | cons y l ih =>
    simp only [index?]
    by_cases h : y = x
    · rw [if_pos h]
      constructor
      · intro e; cases e; simp [h]
      · rintro ⟨h1, h2⟩
        cases i with
        | zero => rfl
        | succ i => exact absurd (by simp [h]) (h2 0 (by omega))
    · rw [if_neg h]
      cases i with
      | zero => simp [h]
      | succ i =>
        constructor
        · intro e
          obtain ⟨k, hk, e⟩ := Option.map_eq_some_iff.1 e
          have : k = i := by omega
          subst this
          obtain ⟨h1, h2⟩ := (ih k).1 hk
          refine ⟨by simpa using h1, ?_⟩
          intro j hj
          cases j with
          | zero => simp [h]
          | succ j => simpa using h2 j (by omega)
        · rintro ⟨h1, h2⟩
          rw [(ih i).2 ⟨by simpa using h1, fun j hj => by simpa using h2 (j + 1) (by omega)⟩]
          rfl

theorem index?_none (x : String) (l : List String) : index? x l = none ↔ x ∉ l := by
  induction l with
  | nil => simp [index?]
  | cons y l ih =>
    simp only [index?]
    by_cases h : y = x
    · simp [h]
    · rw [if_neg h]
      simp [ih, Ne.symm h]

/-- `enum.toInt` numbers the symbols of an enumeration (which are different) from 0 to `enum.numSymbols - 1`, one to one. -/
theorem enum_spec (symbols : List String) (hn : symbols.Nodup) :
    (∀ i (hi : i < symbols.length), enumToInt symbols symbols[i] = .ok i) ∧
    (∀ x i, enumToInt symbols x = .ok i → i < numSymbols symbols ∧ symbols[i]? = some x) ∧
    (∀ x, x ∉ symbols → enumToInt symbols x = .error .avro ∧ enumToString symbols x = .error .avro) ∧
    (∀ x, x ∈ symbols → enumToString symbols x = .ok x) := by
  refine ⟨?_, ?_, ?_, ?_⟩
  · intro i hi
    have : index? symbols[i] symbols = some i := by
      rw [index?_spec]
      refine ⟨by simp [hi], ?_⟩
      intro j hj e
      obtain ⟨hj', e⟩ := List.getElem?_eq_some_iff.1 e
      have := (List.Nodup.getElem_inj_iff hn).1 e
      omega
    unfold enumToInt
    rw [this]
  · intro x i h
    unfold enumToInt at h
    split at h
    next k hk =>
      cases h
      have := ((index?_spec x symbols i).1 hk).1
      exact ⟨(List.getElem?_eq_some_iff.1 this).1, this⟩
    next => cases h
  · intro x hx
    refine ⟨?_, ?_⟩
    · unfold enumToInt
      rw [(index?_none x symbols).2 hx]
    · unfold enumToString
      rw [if_neg hx]
  · intro x hx
    unfold enumToString
    rw [if_pos hx]

/-! ## fixed -/

/-- `fixed.fromBytes` keeps the length; the byte at each position is the one of the replacement if it is long enough, otherwise the
original one. `fixed.toBytes` changes nothing. -/
theorem fixed_spec (original replacement : BVal) :
    (fixedFromBytes original replacement).chars.length = original.chars.length ∧
    (∀ i, i < original.chars.length → (fixedFromBytes original replacement).chars[i]? =
      if i < replacement.chars.length then replacement.chars[i]? else original.chars[i]?) ∧
    (fixedToBytes original).chars = original.chars ∧
    (replacement.chars.length = original.chars.length → (fixedFromBytes original replacement).chars = replacement.chars) := by
  have key : (fixedFromBytes original replacement).chars = replacement.chars.take (min original.chars.length replacement.chars.length) ++
      (original.chars.take original.chars.length).drop (min original.chars.length replacement.chars.length) := rfl
  have key2 : (fixedToBytes original).chars = original.chars := rfl
  rw [key, key2]
  generalize original.chars = o
  generalize replacement.chars = r
  refine ⟨?_, ?_, rfl, ?_⟩
  · simp
  · intro i hi
    by_cases h : i < r.length
    · rw [if_pos h, List.getElem?_append_left (by simp; omega), List.getElem?_take, if_pos (by omega)]
    · rw [if_neg h, List.getElem?_append_right (by simp; omega), List.getElem?_drop, List.getElem?_take]
      have : min o.length r.length + (i - (r.take (min o.length r.length)).length) = i := by simp; omega
      rw [this, if_pos hi]
  · intro h
    rw [h]
    simp [← h]

/-! ## updateTrigger -/

/-- The state after the events `l`, from a new history. -/
def triggers (l : List Bool) : Res Trigger := l.foldlM (fun h b => updateTrigger b h) ⟨0, 0, 0, 0⟩

/-- A run starts where an event follows none. -/
def starts : Bool → List Bool → Nat
  | _, [] => 0
  | prev, b :: l => (if b && !prev then 1 else 0) + starts b l

theorem starts_append (p : Bool) (l : List Bool) (b : Bool) :
    starts p (l ++ [b]) = starts p l + if b && !(l.getLast?.getD p) then 1 else 0 := by
  induction l generalizing p with
  | nil => simp [starts]
  | cons a l ih =>
    simp only [List.cons_append, starts, ih]
    have : (a :: l).getLast?.getD p = l.getLast?.getD a := by
      cases l with
      | nil => rfl
      | cons c l => simp [List.getLast?_cons_cons]
                    rw [List.getLast?_eq_getLast_of_ne_nil (by simp)]
                    simp
    rw [this]
    omega

/-- The counters are: the number of events, the number of runs, the length of the run at the end and the length of the longest run
(there is a run of that length and none longer). -/
theorem trigger_spec (l : List Bool) : ∃ h : Trigger, triggers l = .ok h ∧ h.numEvents = l.count true ∧ h.numRuns = starts false l ∧
    h.currentRun = (l.reverse.takeWhile (· = true)).length ∧ 0 ≤ h.longestRun ∧ (List.replicate h.longestRun.toNat true <:+: l) ∧
    ∀ n, List.replicate n true <:+: l → (n : Int) ≤ h.longestRun := by
  induction l using List.reverseRecOn with
  | nil =>
    refine ⟨⟨0, 0, 0, 0⟩, rfl, rfl, rfl, rfl, le_refl _, by simp, ?_⟩
    intro n hn
    have := hn.length_le
    simp at this
    simp [this]
  | append_singleton l b ih =>
    obtain ⟨h, e, h1, h2, h3, h4, h5, h6⟩ := ih
    have hcur : l.getLast?.getD false = true ↔ h.currentRun ≠ 0 := by
      rw [h3]
      cases hr : l.reverse with
      | nil => simp at hr; simp [hr]
      | cons a m =>
        have : l = m.reverse ++ [a] := by rw [← List.reverse_reverse l, hr]; simp
        rw [this]
        cases a <;> simp <;> omega
    have hstep : triggers (l ++ [b]) = updateTrigger b h := by
      unfold triggers at e ⊢
      rw [List.foldlM_append, e]
      simp only [bind, Except.bind, List.foldlM]
      cases updateTrigger b h <;> rfl
    have hguard : ¬ (h.numEvents < 0 ∨ h.numRuns < 0 ∨ h.currentRun < 0 ∨ h.longestRun < 0) := by omega
    have suffix_run : ∀ n, List.replicate n true <:+ l → (n : Int) ≤ h.currentRun := by
      intro n hn
      obtain ⟨t, ht⟩ := hn
      rw [h3, ← ht]
      simp only [List.reverse_append, List.reverse_replicate]
      rw [List.takeWhile_append_of_pos (by simp)]
      simp
    have infix_snoc : ∀ n, List.replicate n true <:+: l ++ [b] → List.replicate n true <:+: l ∨ (b = true ∧ ∃ m, n = m + 1 ∧
        List.replicate m true <:+ l) := by
      intro n hn
      obtain ⟨s, t, ht⟩ := hn
      rcases List.eq_nil_or_concat t with rfl | ⟨t', c, rfl⟩
      · cases n with
        | zero => left; simp
        | succ m =>
          right
          rw [List.append_nil, List.replicate_succ', ← List.append_assoc] at ht
          obtain ⟨h1, h2⟩ := List.append_inj' ht rfl
          exact ⟨by simpa using h2.symm, m, rfl, s, h1⟩
      · left
        rw [List.concat_eq_append, ← List.append_assoc] at ht
        obtain ⟨h1, _⟩ := List.append_inj' ht rfl
        exact ⟨s, t', h1⟩
    cases b with
    | false =>
      refine ⟨{ h with currentRun := 0 }, ?_, ?_, ?_, ?_, h4, ?_, ?_⟩
      · rw [hstep]
        unfold updateTrigger
        rw [if_neg hguard]
        rfl
      · simp [h1]
      · rw [starts_append]; simp [h2]
      · simp
      · exact h5.trans (List.prefix_append l [false]).isInfix
      · intro n hn
        rcases infix_snoc n hn with hn | ⟨hb, _⟩
        · exact h6 n hn
        · cases hb
    | true =>
      refine ⟨⟨h.numEvents + 1, if h.currentRun = 0 then h.numRuns + 1 else h.numRuns, h.currentRun + 1,
        if h.longestRun < h.currentRun + 1 then h.currentRun + 1 else h.longestRun⟩, ?_, ?_, ?_, ?_, ?_, ?_, ?_⟩
      · rw [hstep]
        unfold updateTrigger
        rw [if_neg hguard]
        rfl
      · simp [h1]
      · rw [starts_append]
        simp only
        by_cases hc : h.currentRun = 0
        · have : l.getLast?.getD false = false := by
            have := mt hcur.1 (by simpa using hc)
            simpa using this
          rw [if_pos hc, this]
          simp [h2]
        · rw [if_neg hc, hcur.2 hc]
          simp [h2]
      · simp [h3]
      · simp only
        split <;> omega
      · simp only
        by_cases hl : h.longestRun < h.currentRun + 1
        · rw [if_pos hl]
          have hs : List.replicate h.currentRun.toNat true <:+ l := by
            have e1 : h.currentRun.toNat = (l.reverse.takeWhile (· = true)).length := by omega
            have e2 : l.reverse.takeWhile (· = true) = List.replicate h.currentRun.toNat true := by
              rw [List.eq_replicate_iff]
              refine ⟨e1.symm, fun c hc => ?_⟩
              have := List.mem_takeWhile_imp hc
              simpa using this
            have := List.takeWhile_prefix (l := l.reverse) (· = true)
            rw [e2] at this
            have := List.reverse_suffix.2 this
            simpa using this
          obtain ⟨s, hs⟩ := hs
          refine ⟨s, [], ?_⟩
          have : (h.currentRun + 1).toNat = h.currentRun.toNat + 1 := by omega
          rw [this, List.replicate_succ', List.append_nil, ← List.append_assoc, hs]
        · rw [if_neg hl]
          exact h5.trans (List.prefix_append l [true]).isInfix
      · intro n hn
        simp only
        rcases infix_snoc n hn with hn | ⟨_, m, rfl, hm⟩
        · have := h6 n hn
          split <;> omega
        · have := suffix_run m hm
          push_cast
          split <;> omega

/-- A negative counter is refused. -/
theorem trigger_error (b : Bool) (h : Trigger) (hn : h.numEvents < 0 ∨ h.numRuns < 0 ∨ h.currentRun < 0 ∨ h.longestRun < 0) :
    updateTrigger b h = .error (.rt 37000) := by
  unfold updateTrigger
  rw [if_pos hn]

/-- The counters are declared int but not kept within its range. -/
theorem trigger_violation : ∃ h, updateTrigger true ⟨2147483647, 1, 1, 1⟩ = .ok h ∧ h.numEvents = 2147483648 := ⟨_, rfl, rfl⟩

/-! ## zValue -/

/-- The distance from the mean in standard deviations, and with the correction √(n/(n-1)). -/
theorem zValue_partial (x mean variance count : ℝ) (hv : 0 < variance) (hc : 1 < count) :
    zValue x mean variance = .fin ((x - mean) / √variance) ∧
    zValueCount x count mean variance false = .ok (.fin ((x - mean) / √variance)) ∧
    zValueCount x count mean variance true = .ok (.fin ((x - mean) / √variance * √(count / (count - 1)))) := by
  have hs : √variance ≠ 0 := (Real.sqrt_pos.2 hv).ne'
  have h1 : zValue x mean variance = .fin ((x - mean) / √variance) := by
    unfold zValue sigmaOf
    rw [if_pos hv.le]
    exact if_neg hs
  have h2 : 0 ≤ count / (count - 1) := div_nonneg (by linarith) (by linarith)
  refine ⟨h1, ?_, ?_⟩
  · unfold zValueCount
    rw [if_neg (by linarith)]
    simp [h1]
  · unfold zValueCount
    rw [if_neg (by linarith)]
    simp only [h1, if_pos h2, if_true, zTimes]

/-- Without variance the result is infinite with the sign of the deviation, with a negative one it is nan. -/
theorem zValue_edge (x mean variance : ℝ) :
    (mean < x → zValue x mean 0 = .pinf) ∧ (x < mean → zValue x mean 0 = .ninf) ∧ zValue x x 0 = .nan ∧
    (variance < 0 → zValue x mean variance = .nan) := by
  have h0 : ∀ d : ℝ, zDiv d (sigmaOf 0) = if 0 < d then .pinf else if d < 0 then .ninf else .nan := by
    intro d
    unfold sigmaOf
    rw [if_pos (le_refl _), Real.sqrt_zero]
    exact if_pos rfl
  refine ⟨?_, ?_, ?_, ?_⟩
  · intro h
    unfold zValue; rw [h0, if_pos (by linarith)]
  · intro h
    unfold zValue; rw [h0, if_neg (by linarith), if_pos (by linarith)]
  · unfold zValue; rw [h0]; simp
  · intro h
    unfold zValue sigmaOf; rw [if_neg (by linarith)]; rfl

/-- With a count of 1 a Python error is raised, also when no correction was asked for. -/
theorem zValue_violation (x mean variance : ℝ) (u : Bool) : zValueCount x 1 mean variance u = .error (.py "ZeroDivisionError") := by
  unfold zValueCount
  rw [if_pos (by norm_num)]

/-! ## updateCUSUM -/

/-- The larger of the sum and the reset value; nan resets. For any rounding. -/
theorem cusum_step (r : ℚ → Num) (llr last reset : Num) :
    (Num.lt reset (Num.add r llr last) = true → updateCUSUM r llr last reset = Num.add r llr last) ∧
    (Num.lt reset (Num.add r llr last) = false → updateCUSUM r llr last reset = reset) ∧
    updateCUSUM r .nan last reset = reset := by
  refine ⟨fun h => ?_, fun h => ?_, ?_⟩
  · unfold updateCUSUM; simp only; rw [if_pos h]
  · unfold updateCUSUM; simp only; rw [if_neg (by simp [h])]
  · unfold updateCUSUM; simp only; rw [if_neg (by cases reset <;> simp [Num.add, Num.lt])]

/-- The state after the ratios `l`. -/
def cusums (reset : ℚ) (l : List ℚ) (last : ℚ) : Num := l.foldl (fun s x => updateCUSUM .fin (.fin x) s (.fin reset)) (.fin last)

/-- In exact arithmetic the state is the largest of: the initial value plus all ratios, and `reset` plus the last `k` ratios for
`k` less than their number. -/
theorem cusum_spec (reset : ℚ) (l : List ℚ) (last : ℚ) : ∃ v : ℚ, cusums reset l last = .fin v ∧ last + l.sum ≤ v ∧
    (∀ k < l.length, reset + (l.drop (l.length - k)).sum ≤ v) ∧
    (v = last + l.sum ∨ ∃ k < l.length, v = reset + (l.drop (l.length - k)).sum) := by
  induction l using List.reverseRecOn with
  | nil => exact ⟨last, rfl, by simp, by simp, by simp⟩
  | append_singleton l x ih =>
    obtain ⟨v, h1, h2, h3, h4⟩ := ih
    have hs : cusums reset (l ++ [x]) last = .fin (max (v + x) reset) := by
      unfold cusums at h1 ⊢
      rw [List.foldl_append, h1]
      simp only [List.foldl_cons, List.foldl_nil]
      unfold updateCUSUM
      simp only [Num.add, Num.lt, decide_eq_true_eq]
      by_cases h : reset < x + v
      · rw [if_pos h, max_eq_left (by linarith), add_comm]
      · rw [if_neg h, max_eq_right (by linarith)]
    have hd : ∀ k, k ≤ l.length → ((l ++ [x]).drop ((l ++ [x]).length - (k + 1))).sum = (l.drop (l.length - k)).sum + x := by
      intro k hk
      rw [List.drop_append_of_le_length (by simp)]
      simp
    refine ⟨_, hs, ?_, ?_, ?_⟩
    · simp only [List.sum_append, List.sum_singleton]
      exact le_max_of_le_left (by linarith)
    · intro k hk
      cases k with
      | zero => simp
      | succ k =>
        simp only [List.length_append, List.length_singleton] at hk
        rw [hd k (by omega)]
        have := h3 k (by omega)
        exact le_max_of_le_left (by linarith)
    · rcases max_choice (v + x) reset with h | h
      · rw [h]
        rcases h4 with h4 | ⟨k, hk, h4⟩
        · left; simp [h4]; ring
        · right
          refine ⟨k + 1, by simp; omega, ?_⟩
          rw [hd k (by omega), h4]; ring
      · rw [h]
        right
        exact ⟨0, by simp, by simp⟩

/-- Non-trivial cases. -/
theorem small_example : triggers [true, true, false, true] = .ok ⟨3, 2, 1, 2⟩ ∧ cusums 0 [1, -3, 2, 1] 0 = .fin 3 ∧
    enumToInt ["a", "b", "c"] "b" = .ok 1 ∧ fixedFromBytes (.raw [1, 2, 3]) (.str [9]) = .str [9, 2, 3] := by
  refine ⟨by decide +kernel, by decide +kernel, by decide +kernel, by decide +kernel⟩

end Verif.Misc
