import Verif.Stat.Hist
/-!
# stat.sample.fillHistogram2d: one weight goes to one place of a plane (C94)

Models `titus/lib/stat/sample.py` 604-717 (`FillHistogram2d`).
-/

namespace Verif.Stat.Plane
open Num

/-- The ten flow fields: for each axis below, within and above the range, and for nan and infinity. -/
inductive Flow where
  | underunder | undermid | underover | midunder | midover | overunder | overmid | overover | nanf | inff
  deriving DecidableEq, Repr

/-- The fields of the record that change; a flow field is `none` when the record type does not have it. -/
structure Hist where
  values : List (List Num)
  flow : Flow → Option Num

/-- Lines 652-674: where the datum flows, if anywhere. -/
def flowOf (hasInf : Bool) (x y xlow xhigh ylow yhigh : Num) : Option Flow :=
  if isNan x || isNan y then some .nanf
  else if hasInf && (isInf x || isInf y) then some .inff
  else if ge x xhigh && ge y yhigh then some .overover
  else if ge x xhigh && ge y ylow && lt y yhigh then some .overmid
  else if ge x xhigh && lt y ylow then some .overunder
  else if ge x xlow && lt x xhigh && ge y yhigh then some .midover
  else if ge x xlow && lt x xhigh && lt y ylow then some .midunder
  else if lt x xlow && ge y yhigh then some .underover
  else if lt x xlow && ge y ylow && lt y yhigh then some .undermid
  else if lt x xlow && lt y ylow then some .underunder
  else none

/-- Line 686: `newValues[xindex][yindex] = newValues[xindex][yindex] + w`. -/
def addAt2 (r : ℚ → Num) (values : List (List Num)) (xindex yindex : Int) (w : Num) : Res (List (List Num)) :=
  let i := if xindex < 0 then xindex + values.length else xindex
  if i < 0 then .error (.py "IndexError")
  else match values[i.toNat]? with
    | none => .error (.py "IndexError")
    | some row => match addAt r row yindex w with
      | .error e => .error e
      | .ok row' => .ok (values.set i.toNat row')

/-- Lines 690-713: the record with the new values and flows. -/
def update (r : ℚ → Num) (w : Num) (h : Hist) (newValues : List (List Num)) (f : Option Flow) : Hist where
  values := newValues
  flow g := (h.flow g).map fun v => add r v (if f = some g then w else .fin 0)

/-- Line 649. -/
def badRange (xlow xhigh ylow yhigh : Num) : Bool :=
  ge xlow xhigh || ge ylow yhigh || isNan xlow || isInf xlow || isNan xhigh || isInf xhigh ||
    isNan ylow || isInf ylow || isNan yhigh || isInf yhigh

/-- `stat.sample.fillHistogram2d` (631-715). -/
def fill (r : ℚ → Num) (x y w : Num) (xnumbins : Int) (xlow xhigh : Num) (ynumbins : Int) (ylow yhigh : Num) (h : Hist) : Res Hist :=
  if xnumbins < 1 || ynumbins < 1 then .error (.rt 14092)
  else if (h.values.length : Int) ≠ xnumbins || h.values.any (fun x => (x.length : Int) ≠ ynumbins) then .error (.rt 14090)
  else if badRange xlow xhigh ylow yhigh then .error (.rt 14091)
  else match flowOf (h.flow .inff).isSome x y xlow xhigh ylow yhigh with
    | some f => .ok (update r w h h.values (some f))
    | none =>
      match binIndex r x xlow xhigh xnumbins.toNat with
      | .error e => .error e
      | .ok xindex =>
        match binIndex r y ylow yhigh ynumbins.toNat with
        | .error e => .error e
        | .ok yindex =>
          match addAt2 r h.values xindex yindex w with
          | .error e => .error e
          | .ok vs => .ok (update r w h vs none)

/-! ## Specification -/

/-- Where a number is on an axis. -/
inductive Part where
  | under
  | bin (i : Nat)
  | over
  deriving DecidableEq, Repr

/-- A place a weight can go to. -/
inductive Spot where
  | bin (i j : Nat)
  | flow (f : Flow)
  deriving DecidableEq, Repr

/-- The part of an axis of `n` equal bins between `low` and `high` in which a number is. -/
def OnAxis (low high : ℚ) (n : Nat) : Num → Part → Prop
  | .nan, _ => False
  | .pinf, p => p = .over
  | .ninf, p => p = .under
  | .fin q, .under => q < low
  | .fin q, .bin i => i < n ∧ InBin low high n i q
  | .fin q, .over => high ≤ q

/-- The field for a part of each axis. -/
def spot : Part → Part → Spot
  | .under, .under => .flow .underunder
  | .under, .bin _ => .flow .undermid
  | .under, .over => .flow .underover
  | .bin _, .under => .flow .midunder
  | .bin i, .bin j => .bin i j
  | .bin _, .over => .flow .midover
  | .over, .under => .flow .overunder
  | .over, .bin _ => .flow .overmid
  | .over, .over => .flow .overover

open Classical in
/-- Where a datum belongs. -/
def Belongs (xlow xhigh : ℚ) (n : Nat) (ylow yhigh : ℚ) (m : Nat) (hasInf : Bool) (x y : Num) (s : Spot) : Prop :=
  if x = .nan ∨ y = .nan then s = .flow .nanf
  else if hasInf = true ∧ ¬ ((∃ q, x = .fin q) ∧ ∃ q, y = .fin q) then s = .flow .inff
  else ∃ p q, OnAxis xlow xhigh n x p ∧ OnAxis ylow yhigh m y q ∧ s = spot p q

/-- `h'` is `h` with the weight added in one place and nothing else changed. -/
structure Adds (w : Num) (s : Spot) (h h' : Hist) : Prop where
  rows : h'.values.length = h.values.length
  cols : ∀ i, (h'.values.getD i []).length = (h.values.getD i []).length
  bins : ∀ i j, (h'.values.getD i []).getD j (.fin 0) =
    if s = .bin i j then add .fin ((h.values.getD i []).getD j (.fin 0)) w else (h.values.getD i []).getD j (.fin 0)
  flows : ∀ f, h'.flow f = if s = .flow f then (h.flow f).map (fun v => add .fin v w) else h.flow f

/-! ## Proofs -/

theorem onAxis_total {low high : ℚ} {n : Nat} (hn : 0 < n) (hlh : low < high) (x : Num) (hx : x ≠ .nan) :
    ∃ p, OnAxis low high n x p := by
  cases x with
  | nan => exact absurd rfl hx
  | pinf => exact ⟨.over, rfl⟩
  | ninf => exact ⟨.under, rfl⟩
  | fin q =>
    by_cases h1 : q < low
    · exact ⟨.under, h1⟩
    · by_cases h2 : high ≤ q
      · exact ⟨.over, h2⟩
      · obtain ⟨i, -, hi, hb⟩ := floor_bin hn hlh (not_lt.1 h1) (not_le.1 h2)
        exact ⟨.bin i, hi, hb⟩

theorem onAxis_unique {low high : ℚ} {n : Nat} (hn : 0 < n) (hlh : low < high) {x : Num} {p q : Part}
    (hp : OnAxis low high n x p) (hq : OnAxis low high n x q) : p = q := by
  cases x with
  | nan => exact hp.elim
  | pinf => exact (show p = .over from hp).trans (show q = .over from hq).symm
  | ninf => exact (show p = .under from hp).trans (show q = .under from hq).symm
  | fin v =>
    cases p with
    | under =>
      cases q with
      | under => rfl
      | over => exact absurd (lt_of_lt_of_le (lt_trans (show v < low from hp) hlh) (show high ≤ v from hq)) (lt_irrefl _)
      | bin j =>
        obtain ⟨h1, h2⟩ : j < n ∧ InBin low high n j v := hq
        exact absurd (show v < low from hp) (not_lt.2 (inBin_range hn hlh h1 h2).1)
    | over =>
      cases q with
      | over => rfl
      | under => exact absurd (lt_of_lt_of_le (lt_trans (show v < low from hq) hlh) (show high ≤ v from hp)) (lt_irrefl _)
      | bin j =>
        obtain ⟨h1, h2⟩ : j < n ∧ InBin low high n j v := hq
        exact absurd (inBin_range hn hlh h1 h2).2 (not_lt.2 (show high ≤ v from hp))
    | bin i =>
      obtain ⟨g1, g2⟩ : i < n ∧ InBin low high n i v := hp
      cases q with
      | under => exact absurd (show v < low from hq) (not_lt.2 (inBin_range hn hlh g1 g2).1)
      | over => exact absurd (inBin_range hn hlh g1 g2).2 (not_lt.2 (show high ≤ v from hq))
      | bin j =>
        obtain ⟨h1, h2⟩ : j < n ∧ InBin low high n j v := hq
        rw [inBin_unique hn hlh g2 h2]

/-- The place is unique. -/
theorem belongs_unique {xlow xhigh ylow yhigh : ℚ} {n m : Nat} (hn : 0 < n) (hm : 0 < m) (hx : xlow < xhigh) (hy : ylow < yhigh)
    {hi : Bool} {x y : Num} {s t : Spot} (hs : Belongs xlow xhigh n ylow yhigh m hi x y s)
    (ht : Belongs xlow xhigh n ylow yhigh m hi x y t) : s = t := by
  unfold Belongs at hs ht
  split at hs
  · rename_i h; rw [if_pos h] at ht; exact hs.trans ht.symm
  · rename_i h
    rw [if_neg h] at ht
    split at hs
    · rename_i h'; rw [if_pos h'] at ht; exact hs.trans ht.symm
    · rename_i h'
      rw [if_neg h'] at ht
      obtain ⟨p, q, h1, h2, rfl⟩ := hs
      obtain ⟨p', q', g1, g2, rfl⟩ := ht
      rw [onAxis_unique hn hx h1 g1, onAxis_unique hm hy h2 g2]

/-- What the comparisons of the code say about the part of the axis. -/
theorem onAxis_tests {low high : ℚ} {n : Nat} (hn : 0 < n) (hlh : low < high) {x : Num} {p : Part} (h : OnAxis low high n x p) :
    isNan x = false ∧
    (p = .over ↔ ge x (.fin high) = true) ∧ (p = .under ↔ lt x (.fin low) = true) ∧
    (ge x (.fin low) = true ↔ p ≠ .under) ∧ (lt x (.fin high) = true ↔ p ≠ .over) := by
  cases x with
  | nan => exact h.elim
  | pinf => rw [show p = .over from h]; simp [isNan, ge, lt]
  | ninf => rw [show p = .under from h]; simp [isNan, ge, lt]
  | fin q =>
    cases p with
    | under =>
      have : q < low := h
      simp [isNan, ge, lt, this, lt_trans this hlh]
    | over =>
      have : high ≤ q := h
      have h2 : low ≤ q := hlh.le.trans this
      simp [isNan, ge, lt, this, h2]
    | bin i =>
      obtain ⟨h1, h2⟩ : i < n ∧ InBin low high n i q := h
      obtain ⟨h3, h4⟩ := inBin_range hn hlh h1 h2
      simp [isNan, ge, lt, h3, h4]

theorem adds_flow (w : Num) (h : Hist) (f : Flow) : Adds w (.flow f) h (update .fin w h h.values (some f)) where
  rows := rfl
  cols _ := rfl
  bins i j := by simp [update]
  flows g := by
    simp only [update, Option.some.injEq, Spot.flow.injEq]
    by_cases hfg : f = g <;> simp [hfg]

theorem addAt2_ok (vs : List (List Num)) (i j : Nat) (w : Num) (hi : i < vs.length) (hj : j < vs[i].length) (h : Hist)
    (hv : h.values = vs) : ∃ vs', addAt2 .fin vs i j w = .ok vs' ∧ Adds w (.bin i j) h (update .fin w h vs' none) := by
  obtain ⟨row, e1, e2, e3⟩ := addAt_ok vs[i] j w hj
  refine ⟨vs.set i row, ?_, ?_⟩
  · have h1 : ¬ ((i : Int) < 0) := by omega
    simp only [addAt2, h1, if_false, Int.toNat_natCast, List.getElem?_eq_getElem hi, e1]
  · subst hv
    have key : ∀ k, (h.values.set i row).getD k [] = if i = k then row else h.values.getD k [] := by
      intro k
      by_cases hk : i = k
      · subst hk; simp [hi]
      · simp [hk]
    have hrow : h.values.getD i [] = h.values[i] := by simp [hi]
    refine ⟨by simp [update], fun k => ?_, fun k l => ?_, fun f => by simp [update]⟩
    · simp only [update]
      rw [key]
      by_cases hk : i = k
      · subst hk; rw [if_pos rfl, hrow, e2]
      · rw [if_neg hk]
    · simp only [update, Spot.bin.injEq]
      rw [key]
      by_cases hk : i = k
      · subst hk
        rw [if_pos rfl, e3, hrow]
        simp
      · rw [if_neg hk, if_neg (fun h => hk h.1)]

theorem binIndex_ok {low high q : ℚ} {n i : Nat} (hn : 0 < n) (hlh : low < high) (hi : i < n) (hb : InBin low high n i q) :
    binIndex .fin (.fin q) (.fin low) (.fin high) (n : Int).toNat = .ok (i : Int) := by
  obtain ⟨h1, h2⟩ := inBin_range hn hlh hi hb
  obtain ⟨j, e, hj, hbj⟩ := floor_bin hn hlh h1 h2
  have hd : high - low ≠ 0 := by intro h0; linarith
  rw [inBin_unique hn hlh hb hbj, binIndex]
  simp only [sub_fin, Num.fin.injEq, if_neg hd, div_fin _ _ hd, mul_fin, pyFloor, Int.toNat_natCast, e]

/-- With exact arithmetic, a well-formed histogram and any datum, the weight goes to exactly the one place where the datum belongs, and
the numbers of bins stay. -/
theorem fill_spec_partial (x y w : Num) (n m : Nat) (hn : 0 < n) (hm : 0 < m) (xlow xhigh ylow yhigh : ℚ) (hx : xlow < xhigh)
    (hy : ylow < yhigh) (h : Hist) (hlen : h.values.length = n) (hcol : ∀ row ∈ h.values, row.length = m) :
    ∃ h' s, fill .fin x y w n (.fin xlow) (.fin xhigh) m (.fin ylow) (.fin yhigh) h = .ok h' ∧
      Belongs xlow xhigh n ylow yhigh m (h.flow .inff).isSome x y s ∧ Adds w s h h' := by
  have g1 : ¬ ((decide ((n : Int) < 1) || decide ((m : Int) < 1)) = true) := by simp; omega
  have g2 : ¬ ((decide ((h.values.length : Int) ≠ n) || h.values.any (fun x => decide ((x.length : Int) ≠ m))) = true) := by
    simp only [hlen, Bool.or_eq_true, List.any_eq_true, decide_eq_true_eq, not_or, not_exists, not_and, not_not, true_and]
    intro row hr
    rw [hcol row hr]
  have g3 : ¬ (badRange (.fin xlow) (.fin xhigh) (.fin ylow) (.fin yhigh) = true) := by
    simp [badRange, ge, lt, isNan, isInf, hx, hy]
  rw [fill, if_neg g1, if_neg g2, if_neg g3]
  by_cases hnan : x = .nan ∨ y = .nan
  · have : flowOf (h.flow .inff).isSome x y (.fin xlow) (.fin xhigh) (.fin ylow) (.fin yhigh) = some .nanf := by
      rcases hnan with rfl | rfl <;> simp [flowOf, isNan]
    rw [this]
    exact ⟨_, .flow .nanf, rfl, by rw [Belongs, if_pos hnan], adds_flow w h .nanf⟩
  · obtain ⟨hxn, hyn⟩ := not_or.1 hnan
    obtain ⟨p, hp⟩ := onAxis_total hn hx x hxn
    obtain ⟨q, hq⟩ := onAxis_total hm hy y hyn
    obtain ⟨a0, a1, a2, a3, a4⟩ := onAxis_tests hn hx hp
    obtain ⟨b0, b1, b2, b3, b4⟩ := onAxis_tests hm hy hq
    have hfin : ∀ z : Num, z ≠ .nan → (isInf z = false ↔ ∃ q, z = .fin q) := by
      intro z hz
      cases z <;> simp_all [isInf]
    by_cases hinf : (h.flow .inff).isSome = true ∧ ¬ ((∃ q, x = .fin q) ∧ ∃ q, y = .fin q)
    · have : flowOf (h.flow .inff).isSome x y (.fin xlow) (.fin xhigh) (.fin ylow) (.fin yhigh) = some .inff := by
        have h2 := hinf.2
        rw [← hfin x hxn, ← hfin y hyn] at h2
        have : (isInf x || isInf y) = true := by
          by_contra hc
          exact h2 (by simpa using hc)
        simp [flowOf, a0, b0, hinf.1, this]
      rw [this]
      exact ⟨_, .flow .inff, rfl, by rw [Belongs, if_neg hnan, if_pos hinf], adds_flow w h .inff⟩
    · have hb : Belongs xlow xhigh n ylow yhigh m (h.flow .inff).isSome x y (spot p q) := by
        rw [Belongs, if_neg hnan, if_neg hinf]
        exact ⟨p, q, hp, hq, rfl⟩
      have hno : ((h.flow .inff).isSome && (isInf x || isInf y)) = false := by
        by_cases hs : (h.flow .inff).isSome = true
        · have h2 : (∃ q, x = .fin q) ∧ ∃ q, y = .fin q := by
            by_contra hc
            exact hinf ⟨hs, hc⟩
          rw [← hfin x hxn, ← hfin y hyn] at h2
          simp [h2.1, h2.2]
        · simp [hs]
      have hflow : flowOf (h.flow .inff).isSome x y (.fin xlow) (.fin xhigh) (.fin ylow) (.fin yhigh) =
          match spot p q with
          | .flow f => some f
          | .bin _ _ => none := by
        unfold flowOf
        rw [a0, b0, hno]
        have c1 : ge x (.fin xhigh) = decide (p = .over) := by rw [Bool.eq_iff_iff, ← a1]; simp
        have c2 : lt x (.fin xlow) = decide (p = .under) := by rw [Bool.eq_iff_iff, ← a2]; simp
        have c3 : ge x (.fin xlow) = decide (p ≠ .under) := by rw [Bool.eq_iff_iff, a3]; simp
        have c4 : lt x (.fin xhigh) = decide (p ≠ .over) := by rw [Bool.eq_iff_iff, a4]; simp
        have d1 : ge y (.fin yhigh) = decide (q = .over) := by rw [Bool.eq_iff_iff, ← b1]; simp
        have d2 : lt y (.fin ylow) = decide (q = .under) := by rw [Bool.eq_iff_iff, ← b2]; simp
        have d3 : ge y (.fin ylow) = decide (q ≠ .under) := by rw [Bool.eq_iff_iff, b3]; simp
        have d4 : lt y (.fin yhigh) = decide (q ≠ .over) := by rw [Bool.eq_iff_iff, b4]; simp
        rw [c1, c2, c3, c4, d1, d2, d3, d4]
        cases p <;> cases q <;> simp [spot]
      rw [hflow]
      cases hs : spot p q with
      | flow f =>
        rw [hs] at hb
        exact ⟨_, .flow f, rfl, hb, adds_flow w h f⟩
      | bin i j =>
        rw [hs] at hb
        have : p = .bin i ∧ q = .bin j := by
          cases p <;> cases q <;> simp [spot] at hs
          simp [hs]
        obtain ⟨rfl, rfl⟩ := this
        cases x with
        | nan => exact absurd rfl hxn
        | pinf => cases (show Part.bin i = .over from hp)
        | ninf => cases (show Part.bin i = .under from hp)
        | fin u =>
          cases y with
          | nan => exact absurd rfl hyn
          | pinf => cases (show Part.bin j = .over from hq)
          | ninf => cases (show Part.bin j = .under from hq)
          | fin v =>
            obtain ⟨hi, hbi⟩ : i < n ∧ InBin xlow xhigh n i u := hp
            obtain ⟨hj, hbj⟩ : j < m ∧ InBin ylow yhigh m j v := hq
            have hil : i < h.values.length := by omega
            have hjl : j < h.values[i].length := by rw [hcol _ (List.getElem_mem hil)]; exact hj
            obtain ⟨vs', e1, e2⟩ := addAt2_ok h.values i j w hil hjl h rfl
            simp only [binIndex_ok hn hx hi hbi, binIndex_ok hm hy hj hbj, e1]
            exact ⟨_, .bin i j, rfl, hb, e2⟩

/-- What is refused, and with which code: no bins, a table of another size, a range that is not one. -/
theorem fill_errors (r : ℚ → Num) (x y w : Num) (n m : Int) (xlow xhigh ylow yhigh : Num) (h : Hist) :
    (n < 1 ∨ m < 1 → fill r x y w n xlow xhigh m ylow yhigh h = .error (.rt 14092)) ∧
    (1 ≤ n → 1 ≤ m → ((h.values.length : Int) ≠ n ∨ ∃ row ∈ h.values, (row.length : Int) ≠ m) →
      fill r x y w n xlow xhigh m ylow yhigh h = .error (.rt 14090)) ∧
    (1 ≤ n → 1 ≤ m → (h.values.length : Int) = n → (∀ row ∈ h.values, (row.length : Int) = m) →
      ¬ ((∃ a b : ℚ, xlow = .fin a ∧ xhigh = .fin b ∧ a < b) ∧ ∃ a b : ℚ, ylow = .fin a ∧ yhigh = .fin b ∧ a < b) →
      fill r x y w n xlow xhigh m ylow yhigh h = .error (.rt 14091)) := by
  refine ⟨fun h1 => ?_, fun h1 h2 h3 => ?_, fun h1 h2 h3 h4 h5 => ?_⟩
  · rw [fill, if_pos (by simpa using h1)]
  · rw [fill, if_neg (by simp; omega), if_pos]
    rcases h3 with h3 | ⟨row, h3, h4⟩
    · simp [h3]
    · simp only [Bool.or_eq_true, List.any_eq_true, decide_eq_true_eq]
      exact .inr ⟨row, h3, h4⟩
  · rw [fill, if_neg (by simp; omega), if_neg, if_pos]
    · by_contra hc
      apply h5
      simp only [badRange, Bool.or_eq_true, not_or, Bool.not_eq_true] at hc
      obtain ⟨⟨⟨⟨⟨⟨⟨⟨⟨c1, c2⟩, c3⟩, c4⟩, c5⟩, c6⟩, c7⟩, c8⟩, c9⟩, c10⟩ := hc
      cases xlow <;> simp [isNan, isInf] at c3 c4
      cases xhigh <;> simp [isNan, isInf] at c5 c6
      cases ylow <;> simp [isNan, isInf] at c7 c8
      cases yhigh <;> simp [isNan, isInf] at c9 c10
      refine ⟨⟨_, _, rfl, rfl, ?_⟩, _, _, rfl, rfl, ?_⟩
      · simpa [ge, lt] using c1
      · simpa [ge, lt] using c2
    · simp only [h3, Bool.or_eq_true, List.any_eq_true, decide_eq_true_eq, not_or, not_exists, not_and, not_not, true_and]
      exact h4

/-- A weight is lost when the record has no field for it. -/
theorem fill_lost_violation : ∃ h h' : Hist, fill .fin (.fin 7) (.fin 1) (.fin 1) 1 (.fin 0) (.fin 4) 1 (.fin 0) (.fin 4) h = .ok h' ∧
    h'.values = h.values ∧ ∀ f, h'.flow f = h.flow f := by
  refine ⟨⟨[[.fin 0]], fun _ => none⟩, ⟨[[.fin 0]], fun _ => none⟩, ?_, rfl, fun _ => rfl⟩
  simp [fill, badRange, ge, lt, isNan, isInf, flowOf, update]
  norm_num

example : (match fill .fin (.fin 3) (.fin 1) (.fin (1/2)) 4 (.fin 0) (.fin 4) 2 (.fin 0) (.fin 4)
      ⟨[[.fin 1, .fin 2], [.fin 3, .fin 4], [.fin 5, .fin 6], [.fin 7, .fin 8]], fun _ => none⟩ with
    | .ok h' => decide (h'.values = [[.fin 1, .fin 2], [.fin 3, .fin 4], [.fin 5, .fin 6], [.fin (15/2), .fin 8]])
    | .error _ => false) = true := by
  decide +kernel

end Verif.Stat.Plane
