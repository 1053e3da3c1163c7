import Verif.Stat.Num
import Verif.Lib.Eff
import Mathlib.Tactic.Linarith
import Mathlib.Tactic.Ring
import Mathlib.Tactic.NormNum
import Mathlib.Algebra.BigOperators.Group.List.Basic
import Mathlib.Algebra.Order.BigOperators.Group.List
import Mathlib.Data.List.GetD
/-! # Random numbers (`titus/lib/rand.py`)

The generator of Python's `random` is arbitrary, within what its documentation promises (`Gen.Good`). `rand.gaussian` only passes its
arguments on and is not modelled. -/

namespace Verif.Misc
open Verif.Stat (Num dbl)
open Verif.Lib (Eff)

variable {σ α : Type}

/-! ## Model -/

/-- `state.rand`: the methods the library calls. `sample n k` gives the positions `random.sample` takes. -/
structure Gen (σ : Type) where
  randint : Int → Int → σ → Int × σ
  random : σ → ℚ × σ
  sample : Nat → Nat → σ → List Nat × σ
  getrandbits : Nat → σ → Nat × σ

/-- What the documentation of `random` says about them. -/
structure Gen.Good (g : Gen σ) : Prop where
  randint : ∀ a b s, a ≤ b → a ≤ (g.randint a b s).1 ∧ (g.randint a b s).1 ≤ b
  random : ∀ s, 0 ≤ (g.random s).1 ∧ (g.random s).1 < 1
  sample : ∀ n k s, k ≤ n → (g.sample n k s).1.length = k ∧ (g.sample n k s).1.Nodup ∧ ∀ i ∈ (g.sample n k s).1, i < n
  getrandbits : ∀ k s, (g.getrandbits k s).1 < 2 ^ k

/-- `random.uniform(a, b)`: `a + (b - a) * self.random()`. -/
def uniform (r : ℚ → Num) (a b : Num) (u : ℚ) : Num := Num.add r a (Num.mul r (Num.sub r b a) (.fin u))

/-- `rand.int` and `rand.long` without arguments (rand.py 48-49, 61-62). -/
def randAll (g : Gen σ) (bits : Nat) : Eff σ Int := fun s =>
  let p := g.randint (-2 ^ (bits - 1)) (2 ^ (bits - 1) - 1) s
  (.ok p.1, p.2)

/-- `rand.int` (34000) and `rand.long` (34010) with limits (50-52, 63-65). -/
def randBetween (g : Gen σ) (code : Int) (low high : Int) : Eff σ Int := fun s =>
  if high ≤ low then (.error (.rt code), s)
  else
    let p := g.randint low (high - 1) s
    (.ok p.1, p.2)

/-- `rand.float` (34020) and `rand.double` (34030) (73-74, 82-83). -/
def randReal (r : ℚ → Num) (g : Gen σ) (code : Int) (low high : Num) : Eff σ Num := fun s =>
  if Num.ge low high then (.error (.rt code), s)
  else
    let p := g.random s
    (.ok (uniform r low high p.1), p.2)

/-- `population[state.rand.randint(0, len(population) - 1)]`. -/
def pickOne (g : Gen σ) (population : List α) : Eff σ α := fun s =>
  let p := g.randint 0 (population.length - 1) s
  match population[p.1.toNat]? with
  | some x => (.ok x, p.2)
  | none => (.error (.py "IndexError"), p.2)

/-- `[f() for x in range(n)]`. -/
def repeatEff (f : Eff σ α) : Nat → Eff σ (List α)
  | 0 => fun s => (.ok [], s)
  | n + 1 => fun s => match f s with
    | (.error e, s1) => (.error e, s1)
    | (.ok x, s1) => match repeatEff f n s1 with
      | (.error e, s2) => (.error e, s2)
      | (.ok xs, s2) => (.ok (x :: xs), s2)

/-- `rand.choice` (93-95). -/
def choice (g : Gen σ) (population : List α) : Eff σ α := fun s =>
  if population.length = 0 then (.error (.rt 34040), s) else pickOne g population s

/-- `rand.choices` (103-105); `range` of a negative number is empty. -/
def choices (g : Gen σ) (size : Int) (population : List α) : Eff σ (List α) := fun s =>
  if population.length = 0 then (.error (.rt 34050), s) else repeatEff (pickOne g population) size.toNat s

/-- `rand.sample` (113-117). `random.sample` raises ValueError for a negative size. -/
def sample (g : Gen σ) (size : Int) (population : List α) : Eff σ (List α) := fun s =>
  if population.length = 0 then (.error (.rt 34060), s)
  else if (population.length : Int) < size then (.error (.rt 34061), s)
  else if size < 0 then (.error (.py "ValueError"), s)
  else
    let p := g.sample population.length size.toNat s
    (.ok (p.1.filterMap (population[·]?)), p.2)

/-- `cumulativeSum` without its first entry, given the last one (128-134). -/
def cumulate (r : ℚ → Num) : Num → List Num → Res (List Num)
  | _, [] => .ok []
  | acc, x :: l =>
    if x.isNan || x.isInf then .error (.rt 34071)
    else if Num.lt x (.fin 0) then .error (.rt 34072)
    else do
      let rest ← cumulate r (Num.add r acc x) l
      .ok (Num.add r acc x :: rest)

/-- `for i, y in enumerate(cumulativeSum): if position < y: return i - 1` (139-141), from position `i`; `none` is None. -/
def locate (position : Num) : Int → List Num → Option Int
  | _, [] => none
  | i, y :: l => if Num.lt position y then some (i - 1) else locate position (i + 1) l

/-- `selectIndex` (127-141). -/
def selectIndex (r : ℚ → Num) (g : Gen σ) (dist : List Num) : Eff σ (Option Int) := fun s =>
  match cumulate r (.fin 0) dist with
  | .error e => (.error e, s)
  | .ok sums =>
    let total := (Num.fin 0 :: sums).getLastD (.fin 0)
    if total = .fin 0 then (.error (.rt 34070), s)
    else
      let p := g.random s
      (.ok (locate (uniform r (.fin 0) total p.1) 0 (.fin 0 :: sums)), p.2)

/-- `rand.histogram` of records (142-146): `distribution[None]` is a TypeError. -/
def histogramOf (r : ℚ → Num) (g : Gen σ) (prob : α → Num) (dist : List α) : Eff σ α := fun s =>
  match selectIndex r g (dist.map prob) s with
  | (.error e, s') => (.error e, s')
  | (.ok none, s') => (.error (.py "TypeError"), s')
  | (.ok (some i), s') => match dist[i.toNat]? with
    | some x => (.ok x, s')
    | none => (.error (.py "IndexError"), s')

/-- A text of random characters, as code points (162, 171, 183, 196). -/
def randChars (g : Gen σ) (low high : Int) (n : Nat) : Eff σ (List Int) :=
  repeatEff (fun s => ((.ok (g.randint low high s).1 : Res Int), (g.randint low high s).2)) n

/-- `rand.string` with one argument (160-162), and `rand.bytes` (181-183). -/
def randText (g : Gen σ) (code low high : Int) (size : Int) : Eff σ (List Int) := fun s =>
  if size ≤ 0 then (.error (.rt code), s) else randChars g low high size.toNat s

def randString (g : Gen σ) (size : Int) : Eff σ (List Int) := randText g 34080 1 0xD800 size
def randBytes (g : Gen σ) (size : Int) : Eff σ (List Int) := randText g 34090 0 255 size

/-- With a population (163-166, 184-191). -/
def randFrom (g : Gen σ) (code : Int) (size : Int) (population : List α) : Eff σ (List α) := fun s =>
  if size ≤ 0 then (.error (.rt code), s)
  else if population.length = 0 then (.error (.rt (code + 3)), s)
  else repeatEff (pickOne g population) size.toNat s

/-- With limits (167-171 with 34080, 1, 0xD800, 0xD800; 192-196 with 34090, 0, 255, 256). -/
def randRange (g : Gen σ) (code min maxLow maxHigh : Int) (size low high : Int) : Eff σ (List Int) := fun s =>
  if size ≤ 0 then (.error (.rt code), s)
  else if high ≤ low then (.error (.rt (code + 1)), s)
  else if low < min ∨ low > maxLow ∨ high < min ∨ high > maxHigh then (.error (.rt (code + 2)), s)
  else randChars g low (high - 1) size.toNat s

def stringRange (g : Gen σ) := randRange g 34080 1 0xD800 0xD800
def bytesRange (g : Gen σ) := randRange g 34090 0 255 256

/-- `{:0wx}` of a number below `16 ^ w`. -/
def hex : Nat → Nat → List Char
  | 0, _ => []
  | w + 1, n => hex w (n / 16) ++ [Nat.digitChar (n % 16)]

/-- `rand.uuid4` and `rand.uuid` (204, 212). -/
def uuid4 (g : Gen σ) : Eff σ (List Char) := fun s =>
  let a := g.getrandbits 32 s
  let b := g.getrandbits 16 a.2
  let c := g.getrandbits 12 b.2
  let d := g.getrandbits 12 c.2
  let e := g.getrandbits 64 d.2
  (.ok (hex 8 a.1 ++ '-' :: hex 4 b.1 ++ '-' :: '4' :: hex 3 c.1 ++ '-' :: '8' :: hex 3 d.1 ++ '-' :: hex 16 e.1), e.2)

/-! ## Numbers -/

/-- Every generator within its documentation gives an integer in the half-open range. -/
theorem randBetween_spec (g : Gen σ) (hg : g.Good) (code low high : Int) (s : σ) :
    (high ≤ low → randBetween g code low high s = (.error (.rt code), s)) ∧
    (low < high → ∃ n s', randBetween g code low high s = (.ok n, s') ∧ low ≤ n ∧ n < high) := by
  constructor
  · intro h; unfold randBetween; rw [if_pos h]
  · intro h
    have := hg.randint low (high - 1) s (by omega)
    exact ⟨_, _, by unfold randBetween; rw [if_neg (by omega)], this.1, by omega⟩

theorem randAll_spec (g : Gen σ) (hg : g.Good) (s : σ) :
    (∃ n s', randAll g 32 s = (.ok n, s') ∧ -2147483648 ≤ n ∧ n ≤ 2147483647) ∧
    (∃ n s', randAll g 64 s = (.ok n, s') ∧ -9223372036854775808 ≤ n ∧ n ≤ 9223372036854775807) := by
  have h1 := hg.randint (-2 ^ 31) (2 ^ 31 - 1) s (by norm_num)
  have h2 := hg.randint (-2 ^ 63) (2 ^ 63 - 1) s (by norm_num)
  norm_num at h1 h2
  exact ⟨⟨_, _, rfl, by simpa using h1.1, by simpa using h1.2⟩, ⟨_, _, rfl, by simpa using h2.1, by simpa using h2.2⟩⟩

/-- In exact arithmetic doubles are in the half-open range. -/
theorem randReal_partial (g : Gen σ) (hg : g.Good) (code : Int) (low high : ℚ) (s : σ) :
    (high ≤ low → randReal .fin g code (.fin low) (.fin high) s = (.error (.rt code), s)) ∧
    (low < high → ∃ x s', randReal .fin g code (.fin low) (.fin high) s = (.ok (.fin x), s') ∧ low ≤ x ∧ x < high) := by
  constructor
  · intro h; unfold randReal; rw [if_pos (by simp [Num.ge, Num.lt, Num.isNan, h])]
  · intro h
    have hu := hg.random s
    refine ⟨low + (high - low) * (g.random s).1, (g.random s).2, ?_, ?_, ?_⟩
    · unfold randReal
      rw [if_neg (by simp [Num.ge, Num.lt, Num.isNan, h])]
      simp [uniform, Num.add, Num.mul, Num.sub, Num.neg, sub_eq_add_neg]
    · nlinarith [hu.1]
    · nlinarith [hu.2]

/-- In binary64 the upper limit can be returned; a range wider than the doubles gives infinity; nan limits are accepted. -/
theorem randReal_violation :
    uniform dbl (.fin 1) (.fin (1 + 1 / 2 ^ 52)) (3 / 4) = .fin (1 + 1 / 2 ^ 52) ∧
    uniform dbl (.fin (-2 ^ 1023)) (.fin (2 ^ 1023)) (1 / 2) = .pinf ∧
    (∀ (g : Gen σ) (s : σ), ∃ s', randReal dbl g 34030 .nan (.fin 1) s = (.ok .nan, s')) := by
  refine ⟨by decide +kernel, by decide +kernel, fun g s => ⟨(g.random s).2, ?_⟩⟩
  unfold randReal
  rw [if_neg (by simp [Num.ge, Num.isNan])]
  simp [uniform, Num.add]

/-! ## Items -/

theorem pickOne_spec (g : Gen σ) (hg : g.Good) (population : List α) (hp : population ≠ []) (s : σ) :
    ∃ x s', pickOne g population s = (.ok x, s') ∧ x ∈ population := by
  have hlen : 0 < population.length := List.length_pos_iff.2 hp
  have h := hg.randint 0 (population.length - 1) s (by omega)
  have hi : ((g.randint 0 (population.length - 1) s).1).toNat < population.length := by omega
  refine ⟨population[((g.randint 0 (population.length - 1) s).1).toNat], (g.randint 0 (population.length - 1) s).2, ?_,
    List.getElem_mem hi⟩
  unfold pickOne
  simp only
  rw [List.getElem?_eq_getElem hi]

theorem repeatEff_spec (f : Eff σ α) (P : α → Prop) (hf : ∀ s, ∃ x s', f s = (.ok x, s') ∧ P x) (n : Nat) (s : σ) :
    ∃ xs s', repeatEff f n s = (.ok xs, s') ∧ xs.length = n ∧ ∀ x ∈ xs, P x := by
  induction n generalizing s with
  | zero => exact ⟨[], s, rfl, rfl, by simp⟩
  | succ n ih =>
    obtain ⟨x, s1, h1, h2⟩ := hf s
    obtain ⟨xs, s2, h3, h4, h5⟩ := ih s1
    refine ⟨x :: xs, s2, ?_, by simp [h4], ?_⟩
    · simp only [repeatEff]; rw [h1]; simp only; rw [h3]
    · intro y hy
      rcases List.mem_cons.1 hy with rfl | hy
      · exact h2
      · exact h5 y hy

/-- `rand.choice` and `rand.choices` return members of the population, as many as asked for. -/
theorem choice_spec (g : Gen σ) (hg : g.Good) (population : List α) (s : σ) :
    (population = [] → choice g population s = (.error (.rt 34040), s) ∧ ∀ size, choices g size population s = (.error (.rt 34050), s)) ∧
    (population ≠ [] → (∃ x s', choice g population s = (.ok x, s') ∧ x ∈ population) ∧
      ∀ size : Int, ∃ xs s', choices g size population s = (.ok xs, s') ∧ xs.length = size.toNat ∧ ∀ x ∈ xs, x ∈ population) := by
  constructor
  · rintro rfl; exact ⟨rfl, fun _ => rfl⟩
  · intro h
    have hl : ¬ population.length = 0 := fun h' => h (List.length_eq_zero_iff.1 h')
    refine ⟨?_, fun size => ?_⟩
    · unfold choice
      rw [if_neg hl]
      exact pickOne_spec g hg population h s
    · unfold choices
      rw [if_neg hl]
      exact repeatEff_spec _ (· ∈ population) (pickOne_spec g hg population h) _ s

/-- `rand.sample` takes entries at different positions. -/
theorem sample_partial (g : Gen σ) (hg : g.Good) (size : Int) (population : List α) (s : σ) (h0 : 0 ≤ size)
    (hp : population ≠ []) (hs : size ≤ population.length) :
    ∃ (is : List Nat) (s' : σ), is.Nodup ∧ (is.length : Int) = size ∧ (∀ i ∈ is, i < population.length) ∧
      sample g size population s = (.ok (is.filterMap (population[·]?)), s') ∧
      (is.filterMap (population[·]?)).length = is.length := by
  have h := hg.sample population.length size.toNat s (by omega)
  refine ⟨(g.sample population.length size.toNat s).1, (g.sample population.length size.toNat s).2, h.2.1, by rw [h.1]; omega, h.2.2, ?_, ?_⟩
  · unfold sample
    rw [if_neg (fun h' => hp (List.length_eq_zero_iff.1 h')), if_neg (by omega), if_neg (by omega)]
  · have : ∀ l : List Nat, (∀ i ∈ l, i < population.length) → (l.filterMap (population[·]?)).length = l.length := by
      intro l
      induction l with
      | nil => intro _; rfl
      | cons i l ih =>
        intro hl
        rw [List.filterMap_cons_some (List.getElem?_eq_getElem (hl i (by simp))), List.length_cons, List.length_cons,
          ih fun j hj => hl j (by simp [hj])]
    exact this _ h.2.2

theorem sample_errors (g : Gen σ) (size : Int) (population : List α) (s : σ) :
    (population = [] → sample g size population s = (.error (.rt 34060), s)) ∧
    (population ≠ [] → (population.length : Int) < size → sample g size population s = (.error (.rt 34061), s)) := by
  constructor
  · rintro rfl; rfl
  · intro hp h
    unfold sample
    rw [if_neg (fun h' => hp (List.length_eq_zero_iff.1 h')), if_pos h]

/-- A negative size raises a Python error. -/
theorem sample_negative_violation (g : Gen σ) (s : σ) : sample g (-1) [0, 1] s = (.error (.py "ValueError"), s) := by
  unfold sample
  rw [if_neg (by simp), if_neg (by simp), if_pos (by norm_num)]

/-! ## Histograms -/

theorem cumulate_ok (acc : ℚ) (l : List ℚ) (h : ∀ x ∈ l, 0 ≤ x) :
    cumulate .fin (.fin acc) (l.map .fin) = .ok ((List.range l.length).map fun i => Num.fin (acc + (l.take (i + 1)).sum)) := by
  induction l generalizing acc with
  | nil => rfl
  | cons x l ih =>
    simp only [List.map_cons, cumulate]
    rw [if_neg (by simp [Num.isNan, Num.isInf]), if_neg (by simpa [Num.lt] using h x (by simp))]
    simp only [Num.add]
    rw [ih (acc + x) fun y hy => h y (by simp [hy])]
    simp only [bind, Except.bind, List.length_cons, List.range_succ_eq_map, List.map_cons, List.map_map, Function.comp_def]
    simp [add_assoc]

theorem locate_spec (p : ℚ) (i : Int) (l : List ℚ) :
    (locate (.fin p) i (l.map .fin) = none ∧ ∀ y ∈ l, y ≤ p) ∨
    ∃ k : Nat, ∃ hk : k < l.length, locate (.fin p) i (l.map .fin) = some (i + k - 1) ∧ p < l[k] ∧
      ∀ j : Nat, ∀ hj : j < k, l[j] ≤ p := by
  induction l generalizing i with
  | nil => exact .inl ⟨rfl, by simp⟩
  | cons y l ih =>
    simp only [List.map_cons, locate]
    by_cases h : p < y
    · rw [if_pos (by simpa [Num.lt] using h)]
      exact .inr ⟨0, by simp, by simp, h, by intro j hj; omega⟩
    · rw [if_neg (by simpa [Num.lt] using h)]
      rcases ih (i + 1) with ⟨h1, h2⟩ | ⟨k, hk, h1, h2, h3⟩
      · left
        refine ⟨h1, ?_⟩
        intro z hz
        rcases List.mem_cons.1 hz with rfl | hz
        · exact not_lt.1 h
        · exact h2 z hz
      · right
        refine ⟨k + 1, by simp; omega, by rw [h1]; push_cast; congr 1; ring, by simpa using h2, ?_⟩
        intro j hj
        cases j with
        | zero => simpa using h
        | succ j => simpa using h3 j (by omega)

/-- `rand.histogram` in exact arithmetic: the position of the generator, `u * total`, is in the bin that is returned, so the bin of
length `dist[i]` out of `total` is chosen for a fraction `dist[i] / total` of the positions, and never when it is 0. -/
theorem histogram_partial (g : Gen σ) (hg : g.Good) (dist : List ℚ) (hd : ∀ x ∈ dist, 0 ≤ x) (hpos : 0 < dist.sum) (s : σ) :
    ∃ i : Nat, ∃ hi : i < dist.length, selectIndex .fin g (dist.map .fin) s = (.ok (some (i : Int)), (g.random s).2) ∧
      (dist.take i).sum ≤ (g.random s).1 * dist.sum ∧ (g.random s).1 * dist.sum < (dist.take i).sum + dist[i] ∧ 0 < dist[i] := by
  have hu := hg.random s
  have hl : dist ≠ [] := by rintro rfl; simp at hpos
  have hlen : 0 < dist.length := List.length_pos_iff.2 hl
  have hc := cumulate_ok 0 dist hd
  have hlist : Num.fin 0 :: (List.range dist.length).map (fun i => Num.fin (0 + (dist.take (i + 1)).sum)) =
      ((List.range (dist.length + 1)).map fun i => (dist.take i).sum).map Num.fin := by
    rw [List.range_succ_eq_map]
    simp [Function.comp_def]
  have htot : (((List.range (dist.length + 1)).map fun i => (dist.take i).sum).map Num.fin).getLastD (.fin 0) = .fin dist.sum := by
    rw [List.range_succ]
    simp
  have e : selectIndex .fin g (dist.map .fin) s =
      (.ok (locate (.fin ((g.random s).1 * dist.sum)) 0 (((List.range (dist.length + 1)).map fun i => (dist.take i).sum).map Num.fin)),
        (g.random s).2) := by
    unfold selectIndex
    rw [hc]
    simp only
    rw [hlist, htot, if_neg (by simpa using hpos.ne')]
    simp [uniform, Num.add, Num.mul, Num.sub, Num.neg, mul_comm]
  rcases locate_spec ((g.random s).1 * dist.sum) 0 ((List.range (dist.length + 1)).map fun i => (dist.take i).sum) with ⟨_, h2⟩ | ⟨k, hk, h1, h2, h3⟩
  · exfalso
    have := h2 dist.sum (List.mem_map.2 ⟨dist.length, by simp, by simp⟩)
    nlinarith [hu.2]
  · simp only [List.length_map, List.length_range] at hk
    have hk0 : k ≠ 0 := by
      rintro rfl
      simp at h2
      nlinarith [hu.1]
    obtain ⟨i, rfl⟩ : ∃ i, k = i + 1 := ⟨k - 1, by omega⟩
    have hi : i < dist.length := by omega
    have h4 := h3 i (by omega)
    simp only [List.getElem_map, List.getElem_range] at h2 h4
    have hs : (dist.take (i + 1)).sum = (dist.take i).sum + dist[i] := by
      rw [List.take_add_one, List.getElem?_eq_getElem hi, List.sum_append]
      simp [List.sum_cons]
    refine ⟨i, hi, ?_, h4, by rw [← hs]; exact h2, by linarith⟩
    rw [e, h1]
    simp

/-- Errors of `rand.histogram`: the first bad entry decides; all zero is refused. For any rounding. -/
theorem cumulate_raises (r : ℚ → Num) (acc : Num) (pre : List Num) (x : Num) (post : List Num)
    (hpre : ∀ y ∈ pre, ∃ q : ℚ, 0 ≤ q ∧ y = .fin q) :
    (x.isNan || x.isInf → cumulate r acc (pre ++ x :: post) = .error (.rt 34071)) ∧
    ((∃ q : ℚ, q < 0 ∧ x = .fin q) → cumulate r acc (pre ++ x :: post) = .error (.rt 34072)) := by
  induction pre generalizing acc with
  | nil =>
    constructor
    · intro h; simp only [List.nil_append, cumulate]; rw [if_pos h]
    · rintro ⟨q, hq, rfl⟩
      simp only [List.nil_append, cumulate]
      rw [if_neg (by simp [Num.isNan, Num.isInf]), if_pos (by simpa [Num.lt] using hq)]
  | cons y pre ih =>
    obtain ⟨q, hq, rfl⟩ := hpre y (by simp)
    have ih' := ih (Num.add r acc (.fin q)) fun z hz => hpre z (by simp [hz])
    constructor
    · intro h
      simp only [List.cons_append, cumulate]
      rw [if_neg (by simp [Num.isNan, Num.isInf]), if_neg (by simpa [Num.lt] using hq), ih'.1 h]
      rfl
    · intro h
      simp only [List.cons_append, cumulate]
      rw [if_neg (by simp [Num.isNan, Num.isInf]), if_neg (by simpa [Num.lt] using hq), ih'.2 h]
      rfl

theorem histogram_errors (r : ℚ → Num) (g : Gen σ) (s : σ) :
    (∀ pre x post, (∀ y ∈ pre, ∃ q : ℚ, 0 ≤ q ∧ y = .fin q) →
      (x.isNan || x.isInf → selectIndex r g (pre ++ x :: post) s = (.error (.rt 34071), s)) ∧
      ((∃ q : ℚ, q < 0 ∧ x = .fin q) → selectIndex r g (pre ++ x :: post) s = (.error (.rt 34072), s))) ∧
    (∀ n, selectIndex .fin g (List.replicate n (.fin 0)) s = (.error (.rt 34070), s)) := by
  constructor
  · intro pre x post hpre
    have h := cumulate_raises r (.fin 0) pre x post hpre
    constructor
    · intro hx; unfold selectIndex; rw [h.1 hx]
    · intro hx; unfold selectIndex; rw [h.2 hx]
  · intro n
    have h := cumulate_ok 0 (List.replicate n 0) (by intro x hx; rw [List.eq_of_mem_replicate hx])
    rw [List.map_replicate] at h
    unfold selectIndex
    rw [h]
    simp only
    rw [if_pos]
    have : ∀ m : Nat, (Num.fin 0 :: (List.range m).map fun i => Num.fin (0 + ((List.replicate n (0 : ℚ)).take (i + 1)).sum)) =
        List.replicate (m + 1) (.fin 0) := by
      intro m
      rw [List.eq_replicate_iff]
      refine ⟨by simp, ?_⟩
      intro b hb
      rcases List.mem_cons.1 hb with rfl | hb
      · rfl
      · obtain ⟨i, _, rfl⟩ := List.mem_map.1 hb
        simp [List.take_replicate]
    rw [this]
    simp [List.getLastD_eq_getLast?, List.getLast?_replicate]

/-- When the sum overflows, no index is found: `rand.histogram` returns None although declared int, and raises TypeError for records. -/
theorem histogram_overflow_violation (g : Gen σ) (s : σ) (h : 0 < (g.random s).1) :
    selectIndex dbl g [.fin (2 ^ 1023), .fin (2 ^ 1023)] s = (.ok none, (g.random s).2) ∧
    histogramOf dbl g (fun x : Num => x) [.fin (2 ^ 1023), .fin (2 ^ 1023)] s = (.error (.py "TypeError"), (g.random s).2) := by
  have hc : cumulate dbl (.fin 0) [.fin (2 ^ 1023), .fin (2 ^ 1023)] = .ok [.fin (2 ^ 1023), .pinf] := by decide +kernel
  have e : selectIndex dbl g [.fin (2 ^ 1023), .fin (2 ^ 1023)] s = (.ok none, (g.random s).2) := by
    unfold selectIndex
    rw [hc]
    simp only
    rw [if_neg (by simp)]
    have : uniform dbl (.fin 0) .pinf (g.random s).1 = .pinf := by
      simp [uniform, Num.add, Num.mul, Num.sub, Num.neg, Num.infOf, h]
    simp only [List.getLastD_cons, List.getLastD_nil]
    rw [this]
    simp [locate, Num.lt]
  refine ⟨e, ?_⟩
  unfold histogramOf
  rw [List.map_id', e]

/-- Records: the record of the index. -/
theorem histogramOf_spec (r : ℚ → Num) (g : Gen σ) (prob : α → Num) (dist : List α) (s s' : σ) (i : Nat) (hi : i < dist.length)
    (h : selectIndex r g (dist.map prob) s = (.ok (some (i : Int)), s')) : histogramOf r g prob dist s = (.ok dist[i], s') := by
  unfold histogramOf
  rw [h]
  simp only [Int.toNat_natCast]
  rw [List.getElem?_eq_getElem hi]

/-! ## Texts -/

theorem randChars_spec (g : Gen σ) (hg : g.Good) (low high : Int) (h : low ≤ high) (n : Nat) (s : σ) :
    ∃ xs s', randChars g low high n s = (.ok xs, s') ∧ xs.length = n ∧ ∀ x ∈ xs, low ≤ x ∧ x ≤ high :=
  repeatEff_spec _ (fun x => low ≤ x ∧ x ≤ high) (fun s => ⟨_, _, rfl, hg.randint low high s h⟩) n s

/-- `rand.bytes` and the forms with limits give characters within the limits; the forms with a population give members. -/
theorem text_spec (g : Gen σ) (hg : g.Good) (size : Nat) (hs : 0 < size) (s : σ) :
    (∃ xs s', randBytes g size s = (.ok xs, s') ∧ xs.length = size ∧ ∀ x ∈ xs, 0 ≤ x ∧ x < 256) ∧
    (∀ low high : Int, low < high → 1 ≤ low → high ≤ 0xD800 →
      ∃ xs s', stringRange g size low high s = (.ok xs, s') ∧ xs.length = size ∧ ∀ x ∈ xs, low ≤ x ∧ x < high) ∧
    (∀ low high : Int, low < high → 0 ≤ low → high ≤ 256 →
      ∃ xs s', bytesRange g size low high s = (.ok xs, s') ∧ xs.length = size ∧ ∀ x ∈ xs, low ≤ x ∧ x < high) ∧
    (∀ (code : Int) (population : List α), population ≠ [] →
      ∃ xs s', randFrom g code size population s = (.ok xs, s') ∧ xs.length = size ∧ ∀ x ∈ xs, x ∈ population) := by
  have hs' : ¬ (size : Int) ≤ 0 := by omega
  refine ⟨?_, ?_, ?_, ?_⟩
  · obtain ⟨xs, s', h1, h2, h3⟩ := randChars_spec g hg 0 255 (by norm_num) size s
    refine ⟨xs, s', ?_, h2, fun x hx => ⟨(h3 x hx).1, by have := (h3 x hx).2; omega⟩⟩
    unfold randBytes randText
    rw [if_neg hs']
    simpa using h1
  · intro low high h hl hh
    obtain ⟨xs, s', h1, h2, h3⟩ := randChars_spec g hg low (high - 1) (by omega) size s
    refine ⟨xs, s', ?_, h2, fun x hx => ⟨(h3 x hx).1, by have := (h3 x hx).2; omega⟩⟩
    unfold stringRange randRange
    rw [if_neg hs', if_neg (by omega), if_neg (by omega)]
    simpa using h1
  · intro low high h hl hh
    obtain ⟨xs, s', h1, h2, h3⟩ := randChars_spec g hg low (high - 1) (by omega) size s
    refine ⟨xs, s', ?_, h2, fun x hx => ⟨(h3 x hx).1, by have := (h3 x hx).2; omega⟩⟩
    unfold bytesRange randRange
    rw [if_neg hs', if_neg (by omega), if_neg (by omega)]
    simpa using h1
  · intro code population hp
    obtain ⟨xs, s', h1, h2, h3⟩ := repeatEff_spec _ (· ∈ population) (pickOne_spec g hg population hp) size s
    refine ⟨xs, s', ?_, h2, h3⟩
    unfold randFrom
    rw [if_neg hs', if_neg (fun h => hp (List.length_eq_zero_iff.1 h))]
    simpa using h1

theorem text_errors (g : Gen σ) (size low high : Int) (population : List α) (s : σ) :
    (size ≤ 0 → randString g size s = (.error (.rt 34080), s) ∧ randBytes g size s = (.error (.rt 34090), s) ∧
      stringRange g size low high s = (.error (.rt 34080), s) ∧ bytesRange g size low high s = (.error (.rt 34090), s) ∧
      ∀ code, randFrom g code size population s = (.error (.rt code), s)) ∧
    (0 < size → (high ≤ low → stringRange g size low high s = (.error (.rt 34081), s) ∧
        bytesRange g size low high s = (.error (.rt 34091), s)) ∧
      (low < high → low < 1 ∨ 0xD800 < high → stringRange g size low high s = (.error (.rt 34082), s)) ∧
      (low < high → low < 0 ∨ 256 < high → bytesRange g size low high s = (.error (.rt 34092), s)) ∧
      ∀ code, randFrom g code size ([] : List α) s = (.error (.rt (code + 3)), s)) := by
  constructor
  · intro h
    refine ⟨?_, ?_, ?_, ?_, fun code => ?_⟩
    · unfold randString randText; rw [if_pos h]
    · unfold randBytes randText; rw [if_pos h]
    · unfold stringRange randRange; rw [if_pos h]
    · unfold bytesRange randRange; rw [if_pos h]
    · unfold randFrom; rw [if_pos h]
  · intro h
    refine ⟨fun h1 => ⟨?_, ?_⟩, fun h1 h2 => ?_, fun h1 h2 => ?_, fun code => ?_⟩
    · unfold stringRange randRange; rw [if_neg (by omega), if_pos h1]; rfl
    · unfold bytesRange randRange; rw [if_neg (by omega), if_pos h1]; rfl
    · unfold stringRange randRange; rw [if_neg (by omega), if_neg (by omega), if_pos (by omega)]; rfl
    · unfold bytesRange randRange; rw [if_neg (by omega), if_neg (by omega), if_pos (by omega)]; rfl
    · unfold randFrom; rw [if_neg (by omega)]; exact if_pos rfl

/-- `rand.string` of a size gives characters from 1 to 0xD800. -/
theorem string_partial (g : Gen σ) (hg : g.Good) (size : Nat) (hs : 0 < size) (s : σ) :
    ∃ xs s', randString g size s = (.ok xs, s') ∧ xs.length = size ∧ ∀ x ∈ xs, 1 ≤ x ∧ x ≤ 0xD800 := by
  obtain ⟨xs, s', h1, h2, h3⟩ := randChars_spec g hg 1 0xD800 (by norm_num) size s
  refine ⟨xs, s', ?_, h2, h3⟩
  unfold randString randText
  rw [if_neg (by omega)]
  simpa using h1

/-- A generator that returns its upper limits. -/
def upper : Gen Unit where
  randint _ b _ := (b, ())
  random _ := (1 / 2, ())
  sample n k _ := ((List.range n).take k, ())
  getrandbits k _ := (2 ^ k - 1, ())

theorem upper_good : upper.Good where
  randint a b _ h := ⟨h, le_refl _⟩
  random _ := by simp only [upper]; norm_num
  sample n k _ h := by
    refine ⟨by simp [upper, h], ?_, ?_⟩
    · exact List.nodup_range.sublist (List.take_sublist _ _)
    · intro i hi
      exact List.mem_range.1 (List.mem_of_mem_take hi)
  getrandbits k _ := by
    have : 0 < 2 ^ k := Nat.two_pow_pos k
    simp only [upper]
    omega

/-- It can contain 0xD800, which is not a character (the first of the surrogates). -/
theorem string_surrogate_violation : ∃ g : Gen Unit, g.Good ∧ randString g 1 () = (.ok [0xD800], ()) ∧ ¬ Nat.isValidChar 0xD800 :=
  ⟨upper, upper_good, rfl, by simp [Nat.isValidChar]⟩

/-! ## UUIDs -/

theorem hex_length (w n : Nat) : (hex w n).length = w := by
  induction w generalizing n with
  | zero => rfl
  | succ w ih => simp [hex, ih]

/-- The number can be read back from the digits. -/
theorem hex_value (w n : Nat) (h : n < 16 ^ w) : (hex w n).foldl (fun a c => 16 * a + (c.toNat - if c.toNat < 58 then 48 else 87)) 0 = n := by
  induction w generalizing n with
  | zero => simp at h; simp [hex, h]
  | succ w ih =>
    simp only [hex, List.foldl_append, List.foldl_cons, List.foldl_nil]
    rw [ih (n / 16) (by rw [pow_succ] at h; omega)]
    have : ∀ k : Fin 16, (Nat.digitChar k).toNat - (if (Nat.digitChar k).toNat < 58 then 48 else 87) = k.1 := by decide
    have := this ⟨n % 16, Nat.mod_lt _ (by norm_num)⟩
    simp only at this
    rw [this]
    omega

/-- The text has the form 8-4-4-4-16 with version 4; a UUID has the form 8-4-4-4-12 and 36 characters, so no result is a UUID. -/
theorem uuid_violation (g : Gen σ) (s : σ) : ∃ t s', uuid4 g s = (.ok t, s') ∧ t.length = 40 ∧ t[14]? = some '4' ∧ t[19]? = some '8' ∧
    t[8]? = some '-' ∧ t[13]? = some '-' ∧ t[18]? = some '-' ∧ t[23]? = some '-' := by
  refine ⟨_, _, rfl, ?_, ?_, ?_, ?_, ?_, ?_, ?_⟩ <;> simp [hex_length, List.getElem?_append, List.getElem?_cons]

end Verif.Misc
