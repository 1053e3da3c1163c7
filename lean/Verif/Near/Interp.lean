import Verif.Near.Pick
import Mathlib.Tactic.FieldSimp
import Mathlib.Tactic.Ring
import Mathlib.Tactic.Linarith
import Mathlib.Tactic.LinearCombination
/-! # Interpolation (`titus/lib/interp.py`)

Numbers are `Stat.Num`, every function is parametric in what happens to a finite result (`Num.fin`: exact,
`dbl`: binary64). -/

namespace Verif.Near
open Verif.Stat (Num dbl)
open Verif.Lib (Eff)

variable {σ T : Type}

/-! ## Model -/

/-- `int(math.floor(x))`. -/
def pyFloor : Num → Res Int
  | .fin q => .ok ⌊q⌋
  | .nan => .error (.py "ValueError")
  | _ => .error (.py "OverflowError")

/-- `interp.bin`, first signature (interp.py 47-61). -/
def bin (r : ℚ → Num) (x : Num) (numbins : Int) (low high : Num) : Res Int :=
  if Num.ge low high || low.isNan || high.isNan then .error (.rt 22000)
  else if numbins < 1 then .error (.rt 22001)
  else if x.isNan || Num.lt x low || Num.ge x high then .error (.rt 22002)
  else do
    let out ← pyFloor (Num.mul r (.fin numbins) (Num.div r (Num.sub r x low) (Num.sub r high low)))
    if out < 0 ∨ out ≥ numbins then .error (.rt 22002) else .ok out

/-- `interp.bin`, second signature (62-71). -/
def binWidth (r : ℚ → Num) (x origin width : Num) : Res Int :=
  if origin.isNan || origin.isInf then .error (.rt 22000)
  else if Num.ge (.fin 0) width || width.isNan then .error (.rt 22001)
  else if x.isNan || x.isInf then .error (.rt 22002)
  else pyFloor (Num.div r (Num.sub r x origin) width)

/-- A row of the table; `val` is its field `to`. -/
structure Item (T : Type) where
  x : Num
  val : T
  deriving DecidableEq

/-- `abs(x)`. -/
def abs' : Num → Num
  | .fin q => .fin |q|
  | .nan => .nan
  | _ => .pinf

/-- `x**2`, which raises when the result is too large. -/
def sq (r : ℚ → Num) : Num → Res Num
  | .fin q =>
    match r (q * q) with
    | .pinf => .error (.py "OverflowError")
    | v => .ok v
  | .nan => .ok .nan
  | _ => .ok .pinf

/-- `sum((xi - yi)**2 for xi, yi in zip(x, y))` starting from `acc`. -/
def sumSq (r : ℚ → Num) (acc : Num) : List Num → List Num → Res Num
  | x :: xs, y :: ys => do
    let v ← sq r (Num.sub r x y)
    sumSq r (Num.add r acc v) xs ys
  | _, _ => .ok acc

/-- The `to` of the chosen row. -/
def chosen : Option (Item T × Num) → Res T
  | none => .error (.rt 22010)
  | some (it, _) => .ok it.val

/-- `interp.nearest`, first signature (107-116, with 81-82). -/
def nearest1 (r : ℚ → Num) (datum : Num) (table : List (Item T)) : Res T :=
  if table.length = 0 then .error (.rt 22010)
  else chosen (pick (fun _ => true) (fun it => abs' (Num.sub r datum it.x)) table)

/-- The distances of the second signature (97-102), in order. -/
def dists2 (r : ℚ → Num) (datum : List Num) : List (List Num × T) → Res (List (Num × T))
  | [] => .ok []
  | (x, t) :: rest =>
    if x.length ≠ datum.length then .error (.rt 22011)
    else do
      let d ← sumSq r (.fin 0) datum x
      let ds ← dists2 r datum rest
      .ok ((d, t) :: ds)

/-- `interp.nearest`, second signature (94-106, with 81-82). -/
def nearest2 (r : ℚ → Num) (datum : List Num) (table : List (List Num × T)) : Res T :=
  if table.length = 0 then .error (.rt 22010)
  else do
    let ds ← dists2 r datum table
    match pick (fun _ => true) Prod.fst ds with
    | none => .error (.rt 22010)
    | some ((_, t), _) => .ok t

/-- `interp.nearest`, third signature (83-93, with 81-82). -/
def nearest3 {X : Type} (metric : X → Eff σ Num) (table : List (X × T)) : Eff σ T := fun s =>
  if table.length = 0 then (.error (.rt 22010), s)
  else
    match callAll (fun p => metric p.1) table s with
    | (.error e, s') => (.error e, s')
    | (.ok l, s') =>
      match pick (fun _ => true) Prod.snd l with
      | none => (.error (.rt 22010), s')
      | some ((p, _), _) => (.ok p.2, s')

/-- `two is None or d < twod`. -/
def nearer (two : Option (Item T × Num)) (d : Num) : Bool :=
  match two with
  | none => true
  | some (_, twod) => Num.lt d twod

/-- The second loop of `closest` (140-153). -/
def twoStep (r : ℚ → Num) (datum : Num) : Option (Item T × Num) × Option (Item T × Num) → Item T →
    Option (Item T × Num) × Option (Item T × Num)
  | (none, two), it => (some (it, abs' (Num.sub r datum it.x)), two)
  | (some (one, oned), two), it =>
    let d := abs' (Num.sub r datum it.x)
    if Num.lt d oned then (some (it, d), some (one, oned))
    else if nearer two d && (d ≠ oned || d.isNan) then
      (some (one, oned), some (it, d))
    else (some (one, oned), two)

/-- `Linear.closest` (125-156). -/
def closest (r : ℚ → Num) (code : Int) (datum : Num) (table : List (Item T)) : Res (Item T × Item T × Bool) :=
  let below := pick (fun it => Num.ge datum it.x) (fun it => Num.sub r datum it.x) table
  let above := pick (fun it => Num.lt datum it.x) (fun it => Num.sub r it.x datum) table
  match below, above with
  | some (b, _), some (a, _) => .ok (b, a, true)
  | _, _ =>
    match table.foldl (twoStep r datum) (none, none) with
    | (some (one, _), some (two, _)) => .ok (one, two, false)
    | _ => .error (.rt code)

/-- `unitless` (163). -/
def unitless (r : ℚ → Num) (datum onex twox : Num) : Num := Num.div r (Num.sub r datum onex) (Num.sub r twox onex)

/-- `(1.0 - u)*y1 + u*y2`. -/
def mix (r : ℚ → Num) (u y1 y2 : Num) : Num := Num.add r (Num.mul r (Num.sub r (.fin 1) u) y1) (Num.mul r u y2)

/-- `interpolateSingle` (158-164). -/
def single (r : ℚ → Num) (datum : Num) (one two : Item Num) : Num := mix r (unitless r datum one.x two.x) one.val two.val

/-- `interpolateMulti` (166-174). -/
def multi (r : ℚ → Num) (code : Int) (datum : Num) (one two : Item (List Num)) : Res (List Num) :=
  if one.val.length ≠ two.val.length then .error (.rt code)
  else .ok (List.zipWith (mix r (unitless r datum one.x two.x)) one.val two.val)

/-- `interp.linear` (175-180). -/
def linear (r : ℚ → Num) (datum : Num) (table : List (Item Num)) : Res Num :=
  (closest r 22020 datum table).map fun c => single r datum c.1 c.2.1
def linearMulti (r : ℚ → Num) (datum : Num) (table : List (Item (List Num))) : Res (List Num) :=
  (closest r 22020 datum table).bind fun c => multi r 22021 datum c.1 c.2.1

/-- `interp.linearFlat` (188-195). -/
def linearFlat (r : ℚ → Num) (datum : Num) (table : List (Item Num)) : Res Num :=
  (closest r 22030 datum table).map fun c => if !c.2.2 then c.1.val else single r datum c.1 c.2.1
def linearFlatMulti (r : ℚ → Num) (datum : Num) (table : List (Item (List Num))) : Res (List Num) :=
  (closest r 22030 datum table).bind fun c => if !c.2.2 then .ok c.1.val else multi r 22031 datum c.1 c.2.1

/-- `interp.linearMissing` (203-210). -/
def linearMissing (r : ℚ → Num) (datum : Num) (table : List (Item Num)) : Res (Option Num) :=
  (closest r 22040 datum table).map fun c =>
    if !c.2.2 && (c.1.x ≠ datum || datum.isNan) then none else some (single r datum c.1 c.2.1)
def linearMissingMulti (r : ℚ → Num) (datum : Num) (table : List (Item (List Num))) : Res (Option (List Num)) :=
  (closest r 22040 datum table).bind fun c =>
    if !c.2.2 && (c.1.x ≠ datum || datum.isNan) then .ok none else (multi r 22041 datum c.1 c.2.1).map some

/-! ## Binning -/

/-- Bins of equal width: exact arithmetic. -/
theorem bin_spec (x low high : ℚ) (n : Int) (hn : 1 ≤ n) (hlh : low < high) (h1 : low ≤ x) (h2 : x < high) :
    ∃ k, bin .fin (.fin x) n (.fin low) (.fin high) = .ok k ∧ 0 ≤ k ∧ k < n ∧
      low + k * ((high - low) / n) ≤ x ∧ x < low + (k + 1) * ((high - low) / n) := by
  have hpos : 0 < high - low := by linarith
  have hnq : (1 : ℚ) ≤ n := by exact_mod_cast hn
  have hn0 : (0 : ℚ) < n := by linarith
  have hk := Int.floor_le ((n : ℚ) * ((x - low) / (high - low)))
  have hk' := Int.lt_floor_add_one ((n : ℚ) * ((x - low) / (high - low)))
  obtain ⟨k, hkd⟩ : ∃ k, k = ⌊(n : ℚ) * ((x - low) / (high - low))⌋ := ⟨_, rfl⟩
  rw [← hkd] at hk hk'
  have e : (n : ℚ) * ((x - low) / (high - low)) = (x - low) / ((high - low) / n) := by field_simp
  have hw : 0 < (high - low) / (n : ℚ) := div_pos hpos hn0
  rw [e] at hk hk'
  rw [le_div_iff₀ hw] at hk
  rw [div_lt_iff₀ hw] at hk'
  have hk0 : 0 ≤ k := by
    rw [hkd]
    apply Int.floor_nonneg.2
    apply mul_nonneg hn0.le (div_nonneg (by linarith) hpos.le)
  have hkn : k < n := by
    rw [hkd]
    rw [Int.floor_lt]
    have : (x - low) / (high - low) < 1 := by rw [div_lt_one hpos]; linarith
    nlinarith
  refine ⟨k, ?_, hk0, hkn, by linarith, by linarith⟩
  unfold bin
  have c1 : ¬ ((Num.ge (.fin low) (.fin high) || (Num.fin low).isNan || (Num.fin high).isNan) = true) := by
    simp [Num.ge, Num.lt, Num.isNan, hlh]
  have c2 : ¬ (((Num.fin x).isNan || Num.lt (.fin x) (.fin low) || Num.ge (.fin x) (.fin high)) = true) := by
    simp [Num.ge, Num.lt, Num.isNan, h1, h2]
  rw [if_neg c1, if_neg (by omega), if_neg c2]
  rw [Num.sub_fin, Num.sub_fin, Num.div_fin _ _ hpos.ne', Num.mul_fin]
  simp only [pyFloor, bind, Except.bind, ← hkd]
  rw [if_neg (by omega)]

/-- The errors of `interp.bin`, for any rounding. -/
theorem bin_errors (r : ℚ → Num) (x low high : ℚ) (n : Int) :
    (high ≤ low → bin r (.fin x) n (.fin low) (.fin high) = .error (.rt 22000)) ∧
    (low < high → n < 1 → bin r (.fin x) n (.fin low) (.fin high) = .error (.rt 22001)) ∧
    (low < high → 1 ≤ n → x < low ∨ high ≤ x → bin r (.fin x) n (.fin low) (.fin high) = .error (.rt 22002)) := by
  refine ⟨?_, ?_, ?_⟩
  · intro h
    unfold bin
    rw [if_pos (by simp [Num.ge, Num.lt, h])]
  · intro h h'
    unfold bin
    rw [if_neg (by simp [Num.ge, Num.lt, Num.isNan, h]), if_pos h']
  · intro h h' h2
    unfold bin
    rw [if_neg (by simp [Num.ge, Num.lt, Num.isNan, h]), if_neg (by omega), if_pos]
    rcases h2 with h2 | h2 <;> simp [Num.ge, Num.lt, Num.isNan, h2]

/-- Bins from an origin: exact arithmetic. -/
theorem binWidth_spec (x origin width : ℚ) (hw : 0 < width) :
    ∃ k, binWidth .fin (.fin x) (.fin origin) (.fin width) = .ok k ∧
      origin + k * width ≤ x ∧ x < origin + (k + 1) * width := by
  have hk := Int.floor_le ((x - origin) / width)
  have hk' := Int.lt_floor_add_one ((x - origin) / width)
  refine ⟨⌊(x - origin) / width⌋, ?_, ?_, ?_⟩
  · unfold binWidth
    rw [if_neg (by simp [Num.isNan, Num.isInf]), if_neg (by simp [Num.ge, Num.lt, Num.isNan, hw]),
      if_neg (by simp [Num.isNan, Num.isInf]), Num.sub_fin, Num.div_fin _ _ hw.ne']
    rfl
  · rw [le_div_iff₀ hw] at hk; linarith
  · rw [div_lt_iff₀ hw] at hk'; linarith

/-! ## The nearest row -/

/-- Rows with finite positions. -/
def fins (l : List (ℚ × T)) : List (Item T) := l.map fun p => ⟨.fin p.1, p.2⟩

/-- `t` belongs to the first row whose position is nearest to `x`. -/
def NearestRow (x : ℚ) (l : List (ℚ × T)) (t : T) : Prop :=
  ∃ pre q post, l = pre ++ (q, t) :: post ∧ (∀ p ∈ pre, |x - q| < |x - p.1|) ∧ (∀ p ∈ post, |x - q| ≤ |x - p.1|)

theorem fins_split {l : List (ℚ × T)} {pre post : List (Item T)} {p : Item T} (h : fins l = pre ++ p :: post) :
    ∃ pre' q post', l = pre' ++ (q, p.val) :: post' ∧ p.x = .fin q ∧ fins pre' = pre ∧ fins post' = post := by
  unfold fins at h
  obtain ⟨l1, l2, rfl, h1, h2⟩ := List.map_eq_append_iff.1 h
  cases l2 with
  | nil => simp at h2
  | cons a l2 =>
    simp only [List.map_cons, List.cons.injEq] at h2
    exact ⟨l1, a.1, l2, by rw [← h2.1], by rw [← h2.1], h1, h2.2⟩

/-- `interp.nearest` of numbers. -/
theorem nearest1_spec (x : ℚ) (l : List (ℚ × T)) (hl : l ≠ []) :
    ∃ t, nearest1 .fin (.fin x) (fins l) = .ok t ∧ NearestRow x l t := by
  have hlen : (fins l).length ≠ 0 := by simpa [fins] using hl
  unfold nearest1
  rw [if_neg hlen]
  rcases pick_spec (fun _ => true) (fun it : Item T => abs' (Num.sub .fin (.fin x) it.x)) (fins l) (by
      intro z hz _
      unfold fins at hz
      obtain ⟨p, _, rfl⟩ := List.mem_map.1 hz
      simp [abs']) with ⟨h, _⟩ | ⟨p, ⟨pre, post, h1, _, h2, h3⟩, h4⟩
  · exfalso
    cases l with
    | nil => exact hl rfl
    | cons a l => simpa using h ⟨.fin a.1, a.2⟩ (by simp [fins])
  · rw [h4]
    refine ⟨p.val, rfl, ?_⟩
    obtain ⟨pre', q, post', rfl, hq, rfl, rfl⟩ := fins_split h1
    refine ⟨pre', q, post', rfl, ?_, ?_⟩
    · intro a ha
      have := h2 ⟨.fin a.1, a.2⟩ (List.mem_map_of_mem ha) rfl
      simpa [hq, abs', Num.lt] using this
    · intro a ha
      have := h3 ⟨.fin a.1, a.2⟩ (List.mem_map_of_mem ha) rfl
      simpa [hq, abs', Num.lt] using this

/-- `interp.nearest` with a metric: all distances are computed in order, and the first row at the smallest distance is
chosen, if no distance is nan. -/
theorem nearest3_spec {X : Type} (metric : X → Eff σ Num) (table : List (X × T)) (s s' : σ) (tr : List ((X × T) × Num))
    (hne : table ≠ []) (h1 : tr.map Prod.fst = table) (h2 : Lib.Chain (fun p => metric p.1) s tr s')
    (hn : ∀ p ∈ tr, p.2 ≠ .nan) :
    ∃ p, FirstMin (fun _ => true) Prod.snd tr p ∧ nearest3 metric table s = (.ok p.1.2, s') := by
  unfold nearest3
  rw [if_neg (by simpa using hne), (callAll_chain _ table s s' tr).2 ⟨h1, h2⟩]
  simp only
  rcases pick_spec (fun _ => true) Prod.snd tr (fun z hz _ => hn z hz) with ⟨h, _⟩ | ⟨p, h3, h4⟩
  · exfalso
    cases tr with
    | nil => exact hne h1.symm
    | cons a tr => simpa using h a (by simp)
  · exact ⟨p, h3, by rw [h4]⟩

theorem nearest3_raises {X : Type} (metric : X → Eff σ Num) (table : List (X × T)) (s s' : σ) (e : Err)
    (tr : List ((X × T) × Num)) (a : X × T) (rest : List (X × T)) (s1 : σ)
    (h1 : table = tr.map Prod.fst ++ a :: rest) (h2 : Lib.Chain (fun p => metric p.1) s tr s1)
    (h3 : metric a.1 s1 = (.error e, s')) : nearest3 metric table s = (.error e, s') := by
  unfold nearest3
  rw [if_neg (by rw [h1]; simp), (callAll_raises _ table s s' e).2 ⟨tr, a, rest, s1, h1, h2, h3⟩]

/-- The square of the distance of two points. -/
def dist2 (x y : List ℚ) : ℚ := (List.zipWith (fun a b => (a - b) ^ 2) x y).sum

theorem sumSq_fin (x y : List ℚ) (acc : ℚ) :
    sumSq .fin (.fin acc) (x.map .fin) (y.map .fin) = .ok (.fin (acc + dist2 x y)) := by
  induction x generalizing y acc with
  | nil => simp [sumSq, dist2]
  | cons a x ih =>
    cases y with
    | nil => simp [sumSq, dist2]
    | cons b y =>
      simp only [List.map_cons, sumSq, Num.sub_fin, sq, bind, Except.bind, Num.add_fin]
      rw [ih]
      simp only [dist2, List.zipWith_cons_cons, List.sum_cons]
      congr 2
      ring

theorem dists2_fin (x : List ℚ) (l : List (List ℚ × T)) (hl : ∀ p ∈ l, p.1.length = x.length) :
    dists2 .fin (x.map .fin) (l.map fun p => (p.1.map .fin, p.2)) = .ok (l.map fun p => (.fin (dist2 x p.1), p.2)) := by
  induction l with
  | nil => rfl
  | cons a l ih =>
    simp only [List.map_cons, dists2, List.length_map]
    rw [if_neg (by simp [hl a (by simp)])]
    rw [sumSq_fin, ih fun p hp => hl p (by simp [hp])]
    simp [bind, Except.bind]

/-- `interp.nearest` of points: the first row at the smallest distance. -/
theorem nearest2_spec (x : List ℚ) (l : List (List ℚ × T)) (hne : l ≠ []) (hl : ∀ p ∈ l, p.1.length = x.length) :
    ∃ pre p post, l = pre ++ p :: post ∧ (∀ q ∈ pre, dist2 x p.1 < dist2 x q.1) ∧ (∀ q ∈ post, dist2 x p.1 ≤ dist2 x q.1) ∧
      nearest2 .fin (x.map .fin) (l.map fun p => (p.1.map .fin, p.2)) = .ok p.2 := by
  unfold nearest2
  rw [if_neg (by simpa using hne), dists2_fin x l hl]
  simp only [bind, Except.bind]
  rcases pick_spec (fun _ => true) Prod.fst (l.map fun p => (Num.fin (dist2 x p.1), p.2)) (by
      intro z hz _
      obtain ⟨p, _, rfl⟩ := List.mem_map.1 hz
      simp) with ⟨h, _⟩ | ⟨p, ⟨pre, post, h1, _, h2, h3⟩, h4⟩
  · exfalso
    cases l with
    | nil => exact hne rfl
    | cons a l => simpa using h _ (List.mem_map_of_mem (List.mem_cons_self))
  · obtain ⟨l1, l2, rfl, e1, e2⟩ := List.map_eq_append_iff.1 h1
    cases l2 with
    | nil => simp at e2
    | cons a l2 =>
      simp only [List.map_cons, List.cons.injEq] at e2
      obtain ⟨rfl, rfl⟩ := e2
      subst e1
      refine ⟨l1, a, l2, rfl, ?_, ?_, by rw [h4]⟩
      · intro q hq
        simpa [Num.lt] using h2 _ (List.mem_map_of_mem hq) rfl
      · intro q hq
        simpa [Num.lt] using h3 _ (List.mem_map_of_mem hq) rfl

/-- A point of another dimension raises the documented error. -/
theorem nearest2_dim (x : List ℚ) (l : List (List ℚ × T)) (h : ∃ p ∈ l, p.1.length ≠ x.length) :
    nearest2 .fin (x.map .fin) (l.map fun p => (p.1.map .fin, p.2)) = .error (.rt 22011) := by
  obtain ⟨p, hp, hne⟩ := h
  unfold nearest2
  rw [if_neg (by simp; intro h; rw [h] at hp; simp at hp)]
  have : dists2 .fin (x.map .fin) (l.map fun p => (p.1.map .fin, p.2)) = .error (.rt 22011) := by
    induction l with
    | nil => simp at hp
    | cons a l ih =>
      simp only [List.map_cons, dists2, List.length_map]
      by_cases ha : a.1.length = x.length
      · rw [if_neg (by simp [ha])]
        rcases List.mem_cons.1 hp with rfl | hp
        · exact absurd ha hne
        · rw [ih hp, sumSq_fin]; rfl
      · rw [if_pos (by simpa using ha)]
  rw [this]
  rfl

/-! ## Interpolation -/

/-- The two rows used for `x` inside the table. -/
structure Inside (x : ℚ) (l : List (ℚ × T)) (p q : ℚ × T) : Prop where
  first : ∃ pre post, l = pre ++ p :: post ∧ ∀ t ∈ pre, t.1 ≠ p.1
  last : ∃ pre post, l = pre ++ q :: post ∧ ∀ t ∈ pre, t.1 ≠ q.1
  le : p.1 ≤ x
  lt : x < q.1
  /-- no row comes between -/
  below : ∀ t ∈ l, t.1 ≤ x → t.1 ≤ p.1
  above : ∀ t ∈ l, x < t.1 → q.1 ≤ t.1

/-- The two rows used for `x` outside the table: the nearest and the next. -/
structure Outside (x : ℚ) (l : List (ℚ × T)) (p q : ℚ × T) : Prop where
  first : ∃ pre post, l = pre ++ p :: post ∧ ∀ t ∈ pre, t.1 ≠ p.1
  mem : q ∈ l
  ne : p.1 ≠ q.1
  nearest : ∀ t ∈ l, |x - p.1| ≤ |x - t.1|
  next : ∀ t ∈ l, t.1 ≠ p.1 → |x - q.1| ≤ |x - t.1|

/-- A row as an item. -/
def item (p : ℚ × T) : Item T := ⟨.fin p.1, p.2⟩

theorem firstMin_fins {ok : Item T → Bool} {d : Item T → Num} {l : List (ℚ × T)} {p : Item T} (h : FirstMin ok d (fins l) p) :
    ∃ pre q post, l = pre ++ q :: post ∧ p = item q ∧ ok (item q) = true ∧
      (∀ t ∈ pre, ok (item t) = true → Num.lt (d (item q)) (d (item t)) = true) ∧
      (∀ t ∈ l, ok (item t) = true → Num.lt (d (item t)) (d (item q)) = false) := by
  have hle := h.le
  obtain ⟨pre, post, h1, h2, h3, h4⟩ := h
  obtain ⟨pre', q, post', rfl, hq, rfl, rfl⟩ := fins_split h1
  have hp : p = item (q, p.val) := by cases p; simp only at hq; subst hq; rfl
  refine ⟨pre', (q, p.val), post', rfl, hp, by rwa [← hp], ?_, ?_⟩
  · intro t ht hok
    rw [← hp]
    exact h3 (item t) (List.mem_map_of_mem ht) hok
  · intro t ht hok
    rw [← hp]
    exact hle (item t) (List.mem_map_of_mem ht) hok

/-- Inside the table `closest` finds the neighbours. -/
theorem closest_inside (code : Int) (x : ℚ) (l : List (ℚ × T)) (hb : ∃ t ∈ l, t.1 ≤ x) (ha : ∃ t ∈ l, x < t.1) :
    ∃ p q, closest .fin code (.fin x) (fins l) = .ok (item p, item q, true) ∧ Inside x l p q := by
  obtain ⟨tb, htb, hb⟩ := hb
  obtain ⟨ta, hta, ha⟩ := ha
  have hnan1 : ∀ z ∈ fins l, Num.ge (.fin x) z.x = true → Num.sub .fin (.fin x) z.x ≠ .nan := by
    intro z hz _
    obtain ⟨p, _, rfl⟩ := List.mem_map.1 hz
    simp
  have hnan2 : ∀ z ∈ fins l, Num.lt (.fin x) z.x = true → Num.sub .fin z.x (.fin x) ≠ .nan := by
    intro z hz _
    obtain ⟨p, _, rfl⟩ := List.mem_map.1 hz
    simp
  rcases pick_spec (fun it : Item T => Num.ge (.fin x) it.x) (fun it => Num.sub .fin (.fin x) it.x) (fins l) hnan1 with
    ⟨h, _⟩ | ⟨p, hp, hp'⟩
  · have := h (item tb) (List.mem_map_of_mem htb)
    simp [item, Num.ge, Num.lt] at this
    exact absurd hb (not_le.2 this)
  rcases pick_spec (fun it : Item T => Num.lt (.fin x) it.x) (fun it => Num.sub .fin it.x (.fin x)) (fins l) hnan2 with
    ⟨h, _⟩ | ⟨q, hq, hq'⟩
  · have := h (item ta) (List.mem_map_of_mem hta)
    simp [item, Num.lt] at this
    exact absurd ha (not_lt.2 this)
  obtain ⟨pre1, p', post1, e1, rfl, k1, k2, k3⟩ := firstMin_fins hp
  obtain ⟨pre2, q', post2, e2, rfl, m1, m2, m3⟩ := firstMin_fins hq
  simp only [item, Num.ge, Num.lt, Num.sub_fin, Bool.not_eq_true', decide_eq_false_iff_not, decide_eq_true_eq, not_lt] at k1 k2 k3 m1 m2 m3
  refine ⟨p', q', ?_, ?_⟩
  · unfold closest
    simp only
    rw [hp', hq']
  · refine ⟨⟨pre1, post1, e1, ?_⟩, ⟨pre2, post2, e2, ?_⟩, k1, m1, ?_, ?_⟩
    · intro t ht he
      have := k2 t ht (by rw [he]; exact k1)
      rw [he] at this
      exact absurd this (lt_irrefl _)
    · intro t ht he
      have := m2 t ht (by rw [he]; exact m1)
      rw [he] at this
      exact absurd this (lt_irrefl _)
    · intro t ht h
      have := k3 t ht h
      linarith
    · intro t ht h
      have := m3 t ht h
      linarith

/-- What the second loop of `closest` keeps. -/
structure TwoInv (x : ℚ) (l : List (ℚ × T)) (p : ℚ × T) (two : Option (ℚ × T)) : Prop where
  first : ∃ pre post, l = pre ++ p :: post ∧ ∀ t ∈ pre, |x - p.1| < |x - t.1|
  nearest : ∀ t ∈ l, |x - p.1| ≤ |x - t.1|
  two : match two with
    | none => ∀ t ∈ l, |x - t.1| = |x - p.1|
    | some q => q ∈ l ∧ |x - q.1| ≠ |x - p.1| ∧ ∀ t ∈ l, |x - t.1| ≠ |x - p.1| → |x - q.1| ≤ |x - t.1|

def pairOf (x : ℚ) (p : ℚ × T) : Item T × Num := (item p, .fin |x - p.1|)

theorem twoLoop (x : ℚ) (l : List (ℚ × T)) (hl : l ≠ []) :
    ∃ p two, (fins l).foldl (twoStep .fin (.fin x)) (none, none) = (some (pairOf x p), two.map (pairOf x)) ∧ TwoInv x l p two := by
  induction l using List.reverseRecOn with
  | nil => exact absurd rfl hl
  | append_singleton l a ih =>
    have hsnoc : fins (l ++ [a]) = fins l ++ [item a] := by simp [fins, item]
    rw [hsnoc, List.foldl_append]
    by_cases hl0 : l = []
    · subst hl0
      refine ⟨a, none, ?_, ⟨⟨[], [], by simp, by simp⟩, by simp, by simp⟩⟩
      simp [fins, twoStep, pairOf, item, abs']
    · obtain ⟨p, two, h, ⟨⟨pre, post, e, hpre⟩, hn, ht⟩⟩ := ih hl0
      rw [h]
      simp only [List.foldl_cons, List.foldl_nil, twoStep, pairOf, item, Num.sub_fin, abs']
      by_cases h1 : |x - a.1| < |x - p.1|
      · rw [if_pos (by simpa [Num.lt] using h1)]
        refine ⟨a, some p, rfl, ⟨⟨l, [], by simp, ?_⟩, ?_, ?_⟩⟩
        · intro t ht'; exact lt_of_lt_of_le h1 (hn t ht')
        · intro t ht'
          rcases List.mem_append.1 ht' with ht' | ht'
          · exact (lt_of_lt_of_le h1 (hn t ht')).le
          · simp at ht'; subst ht'; exact le_refl _
        · refine ⟨by rw [e]; simp, h1.ne', ?_⟩
          intro t ht' hne
          rcases List.mem_append.1 ht' with ht' | ht'
          · exact hn t ht'
          · simp at ht'; subst ht'; exact absurd rfl hne
      · rw [if_neg (by simpa [Num.lt] using h1)]
        have h1' := not_lt.1 h1
        have hfirst : ∃ pre post, l ++ [a] = pre ++ p :: post ∧ ∀ t ∈ pre, |x - p.1| < |x - t.1| :=
          ⟨pre, post ++ [a], by rw [e]; simp, hpre⟩
        have hnear : ∀ t ∈ l ++ [a], |x - p.1| ≤ |x - t.1| := by
          intro t ht'
          rcases List.mem_append.1 ht' with ht' | ht'
          · exact hn t ht'
          · simp at ht'; subst ht'; exact h1'
        cases two with
        | none =>
          by_cases h2 : |x - a.1| = |x - p.1|
          · rw [if_neg (by simp [h2, Num.isNan])]
            refine ⟨p, none, rfl, ⟨hfirst, hnear, ?_⟩⟩
            intro t ht'
            rcases List.mem_append.1 ht' with ht' | ht'
            · exact ht t ht'
            · simp at ht'; subst ht'; exact h2
          · rw [if_pos (by simp [h2, nearer])]
            refine ⟨p, some a, rfl, ⟨hfirst, hnear, ⟨by simp, h2, ?_⟩⟩⟩
            intro t ht' hne
            rcases List.mem_append.1 ht' with ht' | ht'
            · exact absurd (ht t ht') hne
            · simp at ht'; subst ht'; exact le_refl _
        | some q =>
          obtain ⟨hq1, hq2, hq3⟩ := ht
          by_cases h2 : |x - a.1| < |x - q.1| ∧ |x - a.1| ≠ |x - p.1|
          · rw [if_pos (by simp [nearer, pairOf, Num.lt, h2.1, h2.2])]
            refine ⟨p, some a, rfl, ⟨hfirst, hnear, ⟨by simp, h2.2, ?_⟩⟩⟩
            intro t ht' hne
            rcases List.mem_append.1 ht' with ht' | ht'
            · exact (lt_of_lt_of_le h2.1 (hq3 t ht' hne)).le
            · simp at ht'; subst ht'; exact le_refl _
          · rw [if_neg]
            · refine ⟨p, some q, rfl, ⟨hfirst, hnear, ⟨by simp [hq1], hq2, ?_⟩⟩⟩
              intro t ht' hne
              rcases List.mem_append.1 ht' with ht' | ht'
              · exact hq3 t ht' hne
              · simp at ht'; subst ht'
                by_contra hc
                exact h2 ⟨not_le.1 hc, hne⟩
            · simp only [nearer, pairOf, Option.map_some, Num.lt, Num.isNan, Bool.or_false, Bool.and_eq_true, decide_eq_true_eq, ne_eq, Num.fin.injEq]
              exact h2

theorem eq_of_abs_eq {x a b : ℚ} (hs : (a ≤ x ∧ b ≤ x) ∨ (x < a ∧ x < b)) (h : |x - a| = |x - b|) : a = b := by
  rcases hs with ⟨h1, h2⟩ | ⟨h1, h2⟩
  · rw [abs_of_nonneg (by linarith), abs_of_nonneg (by linarith)] at h; linarith
  · rw [abs_of_neg (by linarith), abs_of_neg (by linarith)] at h; linarith

/-- Outside the table `closest` finds the two nearest positions, or raises when there is only one. -/
theorem closest_outside (code : Int) (x : ℚ) (l : List (ℚ × T)) (ho : (∀ t ∈ l, t.1 ≤ x) ∨ (∀ t ∈ l, x < t.1)) :
    ((∀ t ∈ l, ∀ u ∈ l, t.1 = u.1) ∧ closest .fin code (.fin x) (fins l) = .error (.rt code)) ∨
    ∃ p q, closest .fin code (.fin x) (fins l) = .ok (item p, item q, false) ∧ Outside x l p q := by
  have hside : ∀ t ∈ l, ∀ u ∈ l, (t.1 ≤ x ∧ u.1 ≤ x) ∨ (x < t.1 ∧ x < u.1) := by
    intro t ht u hu
    rcases ho with h | h
    · exact .inl ⟨h t ht, h u hu⟩
    · exact .inr ⟨h t ht, h u hu⟩
  have hc : closest .fin code (.fin x) (fins l) =
      match (fins l).foldl (twoStep .fin (.fin x)) (none, none) with
      | (some (one, _), some (two, _)) => .ok (one, two, false)
      | _ => .error (.rt code) := by
    unfold closest
    simp only
    rcases ho with h | h
    · have : pick (fun it : Item T => Num.lt (.fin x) it.x) (fun it => Num.sub .fin it.x (.fin x)) (fins l) = none := by
        rcases pick_spec (fun it : Item T => Num.lt (.fin x) it.x) (fun it => Num.sub .fin it.x (.fin x)) (fins l) (by
          intro z hz _
          obtain ⟨p, _, rfl⟩ := List.mem_map.1 hz
          simp) with ⟨_, h'⟩ | ⟨p, hp, _⟩
        · exact h'
        · obtain ⟨pre, q, post, e, rfl, k, _⟩ := firstMin_fins hp
          simp [item, Num.lt] at k
          exact absurd k (not_lt.2 (h q (by rw [e]; simp)))
      rw [this]
      split
      · next h' => cases h'
      · rfl
    · have : pick (fun it : Item T => Num.ge (.fin x) it.x) (fun it => Num.sub .fin (.fin x) it.x) (fins l) = none := by
        rcases pick_spec (fun it : Item T => Num.ge (.fin x) it.x) (fun it => Num.sub .fin (.fin x) it.x) (fins l) (by
          intro z hz _
          obtain ⟨p, _, rfl⟩ := List.mem_map.1 hz
          simp) with ⟨_, h'⟩ | ⟨p, hp, _⟩
        · exact h'
        · obtain ⟨pre, q, post, e, rfl, k, _⟩ := firstMin_fins hp
          simp [item, Num.lt, Num.ge] at k
          exact absurd k (not_le.2 (h q (by rw [e]; simp)))
      rw [this]
  rw [hc]
  by_cases hl : l = []
  · subst hl
    left
    exact ⟨by simp, rfl⟩
  · obtain ⟨p, two, h, ⟨⟨pre, post, e, hpre⟩, hn, ht⟩⟩ := twoLoop x l hl
    have hpm : p ∈ l := by rw [e]; simp
    rw [h]
    cases two with
    | none =>
      left
      refine ⟨?_, rfl⟩
      intro t ht' u hu
      exact eq_of_abs_eq (hside t ht' u hu) ((ht t ht').trans (ht u hu).symm)
    | some q =>
      right
      obtain ⟨hq1, hq2, hq3⟩ := ht
      refine ⟨p, q, rfl, ⟨⟨pre, post, e, ?_⟩, hq1, ?_, hn, ?_⟩⟩
      · intro t ht' he
        have := hpre t ht'
        rw [he] at this
        exact absurd this (lt_irrefl _)
      · intro he
        rw [he] at hq2
        exact hq2 rfl
      · intro t ht' hne
        apply hq3 t ht'
        intro he
        exact hne (eq_of_abs_eq (hside t ht' p hpm) he)

theorem single_fin (x : ℚ) (p q : ℚ × Num) (a b : ℚ) (hp : p.2 = .fin a) (hq : q.2 = .fin b) (hne : p.1 ≠ q.1) :
    single .fin (.fin x) (item p) (item q) = .fin (a + (x - p.1) / (q.1 - p.1) * (b - a)) := by
  unfold single mix unitless item
  simp only [hp, hq, Num.sub_fin]
  rw [Num.div_fin _ _ (sub_ne_zero.2 hne.symm)]
  simp only [Num.sub_fin, Num.mul_fin, Num.add_fin]
  congr 1
  ring

/-- Rows with finite values. -/
def rows (l : List (ℚ × ℚ)) : List (Item Num) := fins (l.map fun p => (p.1, .fin p.2))

theorem inside_map {l : List (ℚ × ℚ)} {x : ℚ} {p q : ℚ × Num} (h : Inside x (l.map fun p => (p.1, Num.fin p.2)) p q) :
    ∃ p' q', p = (p'.1, .fin p'.2) ∧ q = (q'.1, .fin q'.2) ∧ Inside x l p' q' := by
  obtain ⟨⟨pre1, post1, e1, k1⟩, ⟨pre2, post2, e2, k2⟩, h1, h2, h3, h4⟩ := h
  obtain ⟨a1, b1, f1, rfl, g1⟩ := List.map_eq_append_iff.1 e1
  obtain ⟨a2, b2, f2, rfl, g2⟩ := List.map_eq_append_iff.1 e2
  cases b1 with
  | nil => simp at g1
  | cons p' b1 =>
    cases b2 with
    | nil => simp at g2
    | cons q' b2 =>
      simp only [List.map_cons, List.cons.injEq] at g1 g2
      obtain ⟨rfl, -⟩ := g1
      obtain ⟨rfl, -⟩ := g2
      refine ⟨p', q', rfl, rfl, ⟨a1, b1, f1, ?_⟩, ⟨a2, b2, f2, ?_⟩, h1, h2, ?_, ?_⟩
      · intro t ht; exact k1 (t.1, .fin t.2) (List.mem_map_of_mem ht)
      · intro t ht; exact k2 (t.1, .fin t.2) (List.mem_map_of_mem ht)
      · intro t ht; exact h3 (t.1, .fin t.2) (List.mem_map_of_mem ht)
      · intro t ht; exact h4 (t.1, .fin t.2) (List.mem_map_of_mem ht)

theorem outside_map {l : List (ℚ × ℚ)} {x : ℚ} {p q : ℚ × Num} (h : Outside x (l.map fun p => (p.1, Num.fin p.2)) p q) :
    ∃ p' q', p = (p'.1, .fin p'.2) ∧ q = (q'.1, .fin q'.2) ∧ Outside x l p' q' := by
  obtain ⟨⟨pre1, post1, e1, k1⟩, hm, hne, h3, h4⟩ := h
  obtain ⟨a1, b1, f1, rfl, g1⟩ := List.map_eq_append_iff.1 e1
  obtain ⟨q', hq', rfl⟩ := List.mem_map.1 hm
  cases b1 with
  | nil => simp at g1
  | cons p' b1 =>
    simp only [List.map_cons, List.cons.injEq] at g1
    obtain ⟨rfl, -⟩ := g1
    refine ⟨p', q', rfl, rfl, ⟨a1, b1, f1, ?_⟩, hq', hne, ?_, ?_⟩
    · intro t ht; exact k1 (t.1, .fin t.2) (List.mem_map_of_mem ht)
    · intro t ht; exact h3 (t.1, .fin t.2) (List.mem_map_of_mem ht)
    · intro t ht; exact h4 (t.1, .fin t.2) (List.mem_map_of_mem ht)

/-- The value at `x` of the line through two points. -/
def Line (p q : ℚ × ℚ) (x y : ℚ) : Prop := (y - p.2) * (q.1 - p.1) = (x - p.1) * (q.2 - p.2)

theorem line_value (p q : ℚ × ℚ) (x : ℚ) (h : p.1 ≠ q.1) : Line p q x (p.2 + (x - p.1) / (q.1 - p.1) * (q.2 - p.2)) := by
  have : q.1 - p.1 ≠ 0 := sub_ne_zero.2 h.symm
  unfold Line
  field_simp
  ring

theorem side_cases (x : ℚ) {S : Type} (l : List (ℚ × S)) :
    ((∃ t ∈ l, t.1 ≤ x) ∧ (∃ t ∈ l, x < t.1)) ∨ ((∀ t ∈ l, t.1 ≤ x) ∨ (∀ t ∈ l, x < t.1)) := by
  by_cases h1 : ∃ t ∈ l, t.1 ≤ x
  · by_cases h2 : ∃ t ∈ l, x < t.1
    · exact .inl ⟨h1, h2⟩
    · right; left; intro t ht; by_contra hc; exact h2 ⟨t, ht, not_le.1 hc⟩
  · right; right; intro t ht; by_contra hc; exact h1 ⟨t, ht, not_lt.1 hc⟩

/-- What the three functions do, in one statement: inside the table all give the line through the neighbours; outside,
`linear` gives the line through the two nearest rows, `linearFlat` the value of the nearest row, `linearMissing` nothing
unless `x` is the position of the nearest row; with a single position all raise. -/
theorem linear_cases (x : ℚ) (l : List (ℚ × ℚ)) :
    (∃ p q y, Inside x l p q ∧ Line p q x y ∧ linear .fin (.fin x) (rows l) = .ok (.fin y) ∧
        linearFlat .fin (.fin x) (rows l) = .ok (.fin y) ∧ linearMissing .fin (.fin x) (rows l) = .ok (some (.fin y))) ∨
    (∃ p q y, ((∀ t ∈ l, t.1 ≤ x) ∨ (∀ t ∈ l, x < t.1)) ∧ Outside x l p q ∧ Line p q x y ∧
        linear .fin (.fin x) (rows l) = .ok (.fin y) ∧ linearFlat .fin (.fin x) (rows l) = .ok (.fin p.2) ∧
        linearMissing .fin (.fin x) (rows l) = .ok (if p.1 = x then some (.fin p.2) else none)) ∨
    ((∀ t ∈ l, ∀ u ∈ l, t.1 = u.1) ∧ linear .fin (.fin x) (rows l) = .error (.rt 22020) ∧
        linearFlat .fin (.fin x) (rows l) = .error (.rt 22030) ∧ linearMissing .fin (.fin x) (rows l) = .error (.rt 22040)) := by
  unfold linear linearFlat linearMissing rows
  rcases side_cases x (l.map fun p => (p.1, Num.fin p.2)) with ⟨h1, h2⟩ | ho
  · left
    obtain ⟨p, q, hc, hin⟩ := closest_inside 22020 x _ h1 h2
    obtain ⟨p', q', rfl, rfl, hin'⟩ := inside_map hin
    have hne : p'.1 ≠ q'.1 := by have := hin'.le; have := hin'.lt; intro h; linarith
    have hcode : ∀ code, closest .fin code (.fin x) (fins (l.map fun p => (p.1, Num.fin p.2))) =
        .ok (item (p'.1, Num.fin p'.2), item (q'.1, Num.fin q'.2), true) := by
      intro code
      obtain ⟨p2, q2, hc2, -⟩ := closest_inside code x _ h1 h2
      have : closest .fin code (.fin x) (fins (l.map fun p => (p.1, Num.fin p.2))) =
          closest .fin 22020 (.fin x) (fins (l.map fun p => (p.1, Num.fin p.2))) := by
        rw [hc, hc2]
        unfold closest at hc hc2
        simp only at hc hc2
        revert hc hc2
        split
        · intro a b; rw [← a, ← b]
        · split
          · intro a b; rw [← a, ← b]
          · intro a; cases a
      rw [this, hc]
    have hs := single_fin x (p'.1, Num.fin p'.2) (q'.1, Num.fin q'.2) p'.2 q'.2 rfl rfl hne
    refine ⟨p', q', _, hin', line_value p' q' x hne, ?_, ?_, ?_⟩
    · rw [hcode, ← hs]; rfl
    · rw [hcode, ← hs]; rfl
    · rw [hcode, ← hs]; rfl
  · right
    have ho' : (∀ t ∈ l, t.1 ≤ x) ∨ (∀ t ∈ l, x < t.1) := by
      rcases ho with h | h
      · exact .inl fun t ht => h (t.1, .fin t.2) (List.mem_map_of_mem ht)
      · exact .inr fun t ht => h (t.1, .fin t.2) (List.mem_map_of_mem ht)
    by_cases hall : ∀ t ∈ l, ∀ u ∈ l, t.1 = u.1
    · right
      have hcode : ∀ code, closest .fin code (.fin x) (fins (l.map fun p => (p.1, Num.fin p.2))) = .error (.rt code) := by
        intro code
        rcases closest_outside code x _ ho with ⟨_, h⟩ | ⟨p, q, _, hout⟩
        · exact h
        · obtain ⟨p', q', rfl, rfl, hout'⟩ := outside_map hout
          obtain ⟨pre, post, e, _⟩ := hout'.first
          exact absurd (hall p' (by rw [e]; simp) q' hout'.mem) hout'.ne
      refine ⟨hall, ?_, ?_, ?_⟩ <;> rw [hcode] <;> rfl
    · left
      rcases closest_outside 22020 x _ ho with ⟨h, _⟩ | ⟨p, q, hc, hout⟩
      · exact absurd (fun (t : ℚ × ℚ) ht (u : ℚ × ℚ) hu => h (t.1, .fin t.2) (List.mem_map_of_mem ht) (u.1, .fin u.2) (List.mem_map_of_mem hu)) hall
      · obtain ⟨p', q', rfl, rfl, hout'⟩ := outside_map hout
        have hcode : ∀ code, closest .fin code (.fin x) (fins (l.map fun p => (p.1, Num.fin p.2))) =
            .ok (item (p'.1, Num.fin p'.2), item (q'.1, Num.fin q'.2), false) := by
          intro code
          unfold closest at hc ⊢
          simp only at hc ⊢
          revert hc
          split
          · intro a; exact a
          · split
            · intro a; exact a
            · intro a; cases a
        have hs := single_fin x (p'.1, Num.fin p'.2) (q'.1, Num.fin q'.2) p'.2 q'.2 rfl rfl hout'.ne
        refine ⟨p', q', _, ho', hout', line_value p' q' x hout'.ne, ?_, ?_, ?_⟩
        · rw [hcode, ← hs]; rfl
        · rw [hcode]; rfl
        · rw [hcode]
          simp only [Except.map, Bool.not_false, Bool.true_and]
          by_cases hx : p'.1 = x
          · subst hx
            rw [if_neg (by simp [item, Num.isNan]), if_pos rfl, hs]
            simp
          · rw [if_pos (by simp [item, hx]), if_neg hx]

/-- A table of points of one line gives the line back, everywhere. -/
theorem linear_line (x a b : ℚ) (l : List (ℚ × ℚ)) (hl : ∀ t ∈ l, t.2 = a * t.1 + b) (h2 : ∃ t ∈ l, ∃ u ∈ l, t.1 ≠ u.1) :
    linear .fin (.fin x) (rows l) = .ok (.fin (a * x + b)) := by
  have key : ∀ p q y, p ∈ l → q ∈ l → p.1 ≠ q.1 → Line p q x y → y = a * x + b := by
    intro p q y hp hq hne hline
    unfold Line at hline
    rw [hl p hp, hl q hq] at hline
    have : q.1 - p.1 ≠ 0 := sub_ne_zero.2 hne.symm
    have h3 : (y - (a * x + b)) * (q.1 - p.1) = 0 := by linear_combination hline
    rcases mul_eq_zero.1 h3 with h | h
    · linarith
    · exact absurd h this
  rcases linear_cases x l with ⟨p, q, y, hin, hline, h, -⟩ | ⟨p, q, y, -, hout, hline, h, -⟩ | ⟨h, -⟩
  · obtain ⟨pre, post, e, -⟩ := hin.first
    obtain ⟨pre', post', e', -⟩ := hin.last
    rw [h, key p q y (by rw [e]; simp) (by rw [e']; simp) (by have := hin.le; have := hin.lt; intro h; linarith) hline]
  · obtain ⟨pre, post, e, -⟩ := hout.first
    rw [h, key p q y (by rw [e]; simp) hout.mem hout.ne hline]
  · obtain ⟨t, ht, u, hu, hne⟩ := h2
    exact absurd (h t ht u hu) hne

/-- Inside the table the value lies between the values of the neighbours. -/
theorem line_between {x y : ℚ} {l : List (ℚ × ℚ)} {p q : ℚ × ℚ} (h : Inside x l p q) (hl : Line p q x y) :
    min p.2 q.2 ≤ y ∧ y ≤ max p.2 q.2 := by
  have h1 := h.le
  have h2 := h.lt
  unfold Line at hl
  have hd : 0 < q.1 - p.1 := by linarith
  have h3 : 0 ≤ x - p.1 := by linarith
  have h4 : x - p.1 ≤ q.1 - p.1 := by linarith
  rcases le_total p.2 q.2 with hpq | hpq
  · rw [min_eq_left hpq, max_eq_right hpq]
    constructor
    · by_contra hc
      have : y - p.2 < 0 := by linarith [not_le.1 hc]
      nlinarith [mul_nonneg h3 (sub_nonneg.2 hpq)]
    · by_contra hc
      have : q.2 - p.2 < y - p.2 := by linarith [not_le.1 hc]
      nlinarith [mul_le_mul_of_nonneg_right h4 (sub_nonneg.2 hpq)]
  · rw [min_eq_right hpq, max_eq_left hpq]
    constructor
    · by_contra hc
      have : y - p.2 < q.2 - p.2 := by linarith [not_le.1 hc]
      nlinarith [mul_le_mul_of_nonneg_right h4 (sub_nonneg.2 hpq)]
    · by_contra hc
      have : 0 < y - p.2 := by linarith [not_le.1 hc]
      nlinarith [mul_nonneg h3 (sub_nonneg.2 hpq)]

/-- At a position of the table all three functions give the value of the first row with that position. -/
theorem linear_at (l : List (ℚ × ℚ)) (p : ℚ × ℚ) (pre post : List (ℚ × ℚ)) (e : l = pre ++ p :: post) (hpre : ∀ t ∈ pre, t.1 ≠ p.1)
    (h2 : ∃ t ∈ l, ∃ u ∈ l, t.1 ≠ u.1) :
    linear .fin (.fin p.1) (rows l) = .ok (.fin p.2) ∧ linearFlat .fin (.fin p.1) (rows l) = .ok (.fin p.2) ∧
      linearMissing .fin (.fin p.1) (rows l) = .ok (some (.fin p.2)) := by
  have hpm : p ∈ l := by rw [e]; simp
  have uniq : ∀ q : ℚ × ℚ, q.1 = p.1 → (∃ pre post, l = pre ++ q :: post ∧ ∀ t ∈ pre, t.1 ≠ q.1) → q = p := by
    rintro q hq ⟨pre', post', e', hpre'⟩
    rw [e] at e'
    have hf1 : (pre ++ p :: post).find? (fun t => t.1 = p.1) = some p := by
      rw [List.find?_append, List.find?_eq_none.2 (by simpa using hpre)]
      simp
    have hf2 : (pre' ++ q :: post').find? (fun t => t.1 = p.1) = some q := by
      rw [List.find?_append, List.find?_eq_none.2 (by intro t ht; simpa [hq] using hpre' t ht)]
      simp [hq]
    rw [e', hf2] at hf1
    exact Option.some.inj hf1
  rcases linear_cases p.1 l with ⟨a, q, y, hin, hline, h1, h3, h4⟩ | ⟨a, q, y, ho, hout, hline, h1, h3, h4⟩ | ⟨h, -⟩
  · have ha : a.1 = p.1 := le_antisymm hin.le (hin.below p hpm (le_refl _))
    have := uniq a ha hin.first
    subst this
    have hy : y = a.2 := by
      unfold Line at hline
      have : q.1 - a.1 ≠ 0 := by have := hin.lt; linarith
      rw [sub_self, zero_mul] at hline
      rcases mul_eq_zero.1 hline with h | h
      · linarith
      · exact absurd h this
    subst hy
    exact ⟨h1, h3, h4⟩
  · have ha : a.1 = p.1 := by
      have := hout.nearest p hpm
      rw [sub_self, abs_zero] at this
      have := abs_eq_zero.1 (le_antisymm this (abs_nonneg _))
      linarith
    have := uniq a ha hout.first
    subst this
    have hy : y = a.2 := by
      unfold Line at hline
      have : q.1 - a.1 ≠ 0 := sub_ne_zero.2 hout.ne.symm
      rw [sub_self, zero_mul] at hline
      rcases mul_eq_zero.1 hline with h | h
      · linarith
      · exact absurd h this
    subst hy
    rw [if_pos rfl] at h4
    exact ⟨h1, h3, h4⟩
  · obtain ⟨t, ht, u, hu, hne⟩ := h2
    exact absurd (h t ht u hu) hne

/-- Arrays are interpolated coordinate by coordinate, for any rounding. -/
theorem multi_spec (r : ℚ → Num) (code : Int) (x : Num) (one two : Item (List Num)) :
    (one.val.length = two.val.length →
      ∃ out, multi r code x one two = .ok out ∧ out.length = one.val.length ∧
        ∀ (i : Nat) (a b : Num), one.val[i]? = some a → two.val[i]? = some b →
          out[i]? = some (single r x ⟨one.x, a⟩ ⟨two.x, b⟩)) ∧
    (one.val.length ≠ two.val.length → multi r code x one two = .error (.rt code)) := by
  constructor
  · intro h
    refine ⟨_, by unfold multi; rw [if_neg (by simpa using h)], by simp [h], ?_⟩
    intro i a b ha hb
    rw [List.getElem?_zipWith, ha, hb]
    rfl
  · intro h
    unfold multi
    rw [if_pos h]

theorem pick_map {ι κ : Type} (g : ι → κ) (ok : κ → Bool) (d : κ → Num) (l : List ι) :
    pick ok d (l.map g) = (pick (fun i => ok (g i)) (fun i => d (g i)) l).map fun p => (g p.1, p.2) := by
  induction l using List.reverseRecOn with
  | nil => rfl
  | append_singleton l x ih =>
    rw [List.map_append, List.map_cons, List.map_nil, pick_snoc, pick_snoc, ih]
    cases pick (fun i => ok (g i)) (fun i => d (g i)) l with
    | none =>
      by_cases h : ok (g x) = true <;> simp [pickStep, h]
    | some p =>
      by_cases h : (ok (g x) && Num.lt (d (g x)) p.2) = true
      · simp only [pickStep, Option.map_some]
        rw [if_pos h, if_pos h]
        rfl
      · simp only [pickStep, Option.map_some]
        rw [if_neg h, if_neg h]
        rfl

/-- The rows are chosen without looking at their values. -/
theorem closest_map {S T : Type} (f : S → T) (r : ℚ → Num) (code : Int) (x : Num) (table : List (Item S)) :
    closest r code x (table.map fun it => ⟨it.x, f it.val⟩) =
      (closest r code x table).map fun c => (⟨c.1.x, f c.1.val⟩, ⟨c.2.1.x, f c.2.1.val⟩, c.2.2) := by
  have hfold : ∀ (l : List (Item S)) (a b : Option (Item S × Num)),
      (l.map fun it => (⟨it.x, f it.val⟩ : Item T)).foldl (twoStep r x)
          (a.map fun p => (⟨p.1.x, f p.1.val⟩, p.2), b.map fun p => (⟨p.1.x, f p.1.val⟩, p.2)) =
        ((l.foldl (twoStep r x) (a, b)).1.map fun p => (⟨p.1.x, f p.1.val⟩, p.2),
          (l.foldl (twoStep r x) (a, b)).2.map fun p => (⟨p.1.x, f p.1.val⟩, p.2)) := by
    intro l
    induction l with
    | nil => intro a b; rfl
    | cons it l ih =>
      intro a b
      rw [List.map_cons, List.foldl_cons, List.foldl_cons]
      have step : twoStep r x (a.map fun p => ((⟨p.1.x, f p.1.val⟩ : Item T), p.2), b.map fun p => (⟨p.1.x, f p.1.val⟩, p.2))
          ⟨it.x, f it.val⟩ = ((twoStep r x (a, b) it).1.map fun p => (⟨p.1.x, f p.1.val⟩, p.2),
            (twoStep r x (a, b) it).2.map fun p => (⟨p.1.x, f p.1.val⟩, p.2)) := by
        cases a with
        | none => rfl
        | some p =>
          obtain ⟨one, oned⟩ := p
          have hn : nearer (b.map fun p => ((⟨p.1.x, f p.1.val⟩ : Item T), p.2)) (abs' (Num.sub r x it.x)) =
              nearer b (abs' (Num.sub r x it.x)) := by cases b <;> rfl
          simp only [twoStep, Option.map_some]
          rw [hn]
          by_cases h1 : Num.lt (abs' (Num.sub r x it.x)) oned = true
          · rw [if_pos h1, if_pos h1]; rfl
          · rw [if_neg h1, if_neg h1]
            by_cases h2 : (nearer b (abs' (Num.sub r x it.x)) &&
                (decide (abs' (Num.sub r x it.x) ≠ oned) || (abs' (Num.sub r x it.x)).isNan)) = true
            · rw [if_pos h2, if_pos h2]; rfl
            · rw [if_neg h2, if_neg h2]; rfl
      rw [step]
      exact ih _ _
  have hf := hfold table none none
  simp only [Option.map_none] at hf
  unfold closest
  simp only [pick_map (fun it : Item S => (⟨it.x, f it.val⟩ : Item T))]
  rw [hf]
  cases pick (fun it : Item S => Num.ge x it.x) (fun it => Num.sub r x it.x) table with
  | none =>
    rcases table.foldl (twoStep r x) (none, none) with ⟨_ | ⟨a, _⟩, _ | ⟨b, _⟩⟩ <;> rfl
  | some b =>
    cases pick (fun it : Item S => Num.lt x it.x) (fun it => Num.sub r it.x x) table with
    | none => rcases table.foldl (twoStep r x) (none, none) with ⟨_ | ⟨a, _⟩, _ | ⟨b, _⟩⟩ <;> rfl
    | some a => rfl

theorem pick_mem {ι : Type} (ok : ι → Bool) (d : ι → Num) (l : List ι) (p : ι × Num) (h : pick ok d l = some p) : p.1 ∈ l := by
  induction l using List.reverseRecOn generalizing p with
  | nil => cases h
  | append_singleton l z ih =>
    rw [pick_snoc] at h
    cases hq : pick ok d l with
    | none =>
      rw [hq] at h
      simp only [pickStep] at h
      split at h
      · cases h; simp
      · cases h
    | some q =>
      rw [hq] at h
      simp only [pickStep] at h
      split at h
      · cases h; simp
      · cases h; exact List.mem_append_left _ (ih q hq)

/-- The rows chosen are rows of the table. -/
theorem closest_mem {T : Type} (r : ℚ → Num) (code : Int) (x : Num) (table : List (Item T)) (c : Item T × Item T × Bool)
    (h : closest r code x table = .ok c) : c.1 ∈ table ∧ c.2.1 ∈ table := by
  have hfold : ∀ (l : List (Item T)) (a b : Option (Item T × Num)), (∀ i ∈ l, i ∈ table) → (∀ p, a = some p → p.1 ∈ table) →
      (∀ p, b = some p → p.1 ∈ table) → (∀ p, (l.foldl (twoStep r x) (a, b)).1 = some p → p.1 ∈ table) ∧
        (∀ p, (l.foldl (twoStep r x) (a, b)).2 = some p → p.1 ∈ table) := by
    intro l
    induction l with
    | nil => intro a b _ ha hb; exact ⟨ha, hb⟩
    | cons it l ih =>
      intro a b hl ha hb
      rw [List.foldl_cons]
      have hit := hl it (by simp)
      have hl' : ∀ i ∈ l, i ∈ table := fun i hi => hl i (by simp [hi])
      cases a with
      | none =>
        exact ih _ _ hl' (by rintro p ⟨⟩; exact hit) hb
      | some q =>
        obtain ⟨one, oned⟩ := q
        simp only [twoStep]
        split
        · exact ih _ _ hl' (by rintro p ⟨⟩; exact hit) ha
        · split
          · exact ih _ _ hl' ha (by rintro p ⟨⟩; exact hit)
          · exact ih _ _ hl' ha hb
  have hf := hfold table none none (fun i hi => hi) (by rintro p ⟨⟩) (by rintro p ⟨⟩)
  unfold closest at h
  simp only at h
  split at h
  next b _ a _ hb ha =>
    cases h
    exact ⟨pick_mem _ _ _ _ hb, pick_mem _ _ _ _ ha⟩
  next =>
    split at h
    next one _ two _ he =>
      cases h
      rw [he] at hf
      exact ⟨hf.1 _ rfl, hf.2 _ rfl⟩
    next => cases h

/-- The column of a table of arrays. -/
def column (i : Nat) (table : List (Item (List Num))) : List (Item Num) := table.map fun it => ⟨it.x, it.val.getD i (.fin 0)⟩

/-- A table whose arrays all have `n` entries: the functions on arrays do with each column what the functions on numbers do. -/
theorem multi_columns (r : ℚ → Num) (x : Num) (table : List (Item (List Num))) (n i : Nat) (hi : i < n)
    (hn : ∀ it ∈ table, it.val.length = n) :
    (linearMulti r x table).map (·.getD i (.fin 0)) = linear r x (column i table) ∧
    (linearFlatMulti r x table).map (·.getD i (.fin 0)) = linearFlat r x (column i table) ∧
    (linearMissingMulti r x table).map (Option.map (·.getD i (.fin 0))) = linearMissing r x (column i table) := by
  have hmulti : ∀ code one two, one ∈ table → two ∈ table → ∃ out, multi r code x one two = .ok out ∧
      out.getD i (.fin 0) = single r x ⟨one.x, one.val.getD i (.fin 0)⟩ ⟨two.x, two.val.getD i (.fin 0)⟩ := by
    intro code one two h1 h2
    have l1 := hn one h1
    have l2 := hn two h2
    obtain ⟨out, ho, hlen, hc⟩ := (multi_spec r code x one two).1 (by rw [l1, l2])
    refine ⟨out, ho, ?_⟩
    have g1 : one.val[i]? = some (one.val.getD i (.fin 0)) := by
      rw [List.getD_eq_getElem?_getD, List.getElem?_eq_getElem (by omega)]; rfl
    have g2 : two.val[i]? = some (two.val.getD i (.fin 0)) := by
      rw [List.getD_eq_getElem?_getD, List.getElem?_eq_getElem (by omega)]; rfl
    rw [List.getD_eq_getElem?_getD, hc i _ _ g1 g2]
    rfl
  unfold linearMulti linear linearFlatMulti linearFlat linearMissingMulti linearMissing column
  rw [closest_map (fun v : List Num => v.getD i (.fin 0)), closest_map (fun v : List Num => v.getD i (.fin 0)),
    closest_map (fun v : List Num => v.getD i (.fin 0))]
  refine ⟨?_, ?_, ?_⟩
  · cases hc : closest r 22020 x table with
    | error e => rfl
    | ok c =>
      obtain ⟨m1, m2⟩ := closest_mem _ _ _ _ _ hc
      obtain ⟨out, ho, hs⟩ := hmulti 22021 c.1 c.2.1 m1 m2
      simp only [Except.bind, Except.map]
      rw [ho]
      simp only
      rw [hs]
  · cases hc : closest r 22030 x table with
    | error e => rfl
    | ok c =>
      obtain ⟨m1, m2⟩ := closest_mem _ _ _ _ _ hc
      obtain ⟨out, ho, hs⟩ := hmulti 22031 c.1 c.2.1 m1 m2
      simp only [Except.bind, Except.map]
      by_cases hb : (!c.2.2) = true
      · rw [if_pos hb, if_pos hb]
      · rw [if_neg hb, if_neg hb, ho]
        simp only
        rw [hs]
  · cases hc : closest r 22040 x table with
    | error e => rfl
    | ok c =>
      obtain ⟨m1, m2⟩ := closest_mem _ _ _ _ _ hc
      obtain ⟨out, ho, hs⟩ := hmulti 22041 c.1 c.2.1 m1 m2
      simp only [Except.bind, Except.map]
      by_cases hb : (!c.2.2 && (decide (c.1.x ≠ x) || x.isNan)) = true
      · rw [if_pos hb, if_pos hb]; rfl
      · rw [if_neg hb, if_neg hb, ho]
        simp only [Option.map_some]
        rw [hs]

/-- Arrays of different lengths are refused when the two rows are used. -/
theorem multi_errors (r : ℚ → Num) (x : Num) (table : List (Item (List Num))) (one two : Item (List Num)) (between : Bool)
    (hlen : one.val.length ≠ two.val.length) :
    (closest r 22020 x table = .ok (one, two, between) → linearMulti r x table = .error (.rt 22021)) ∧
    (closest r 22030 x table = .ok (one, two, between) →
      linearFlatMulti r x table = if between = true then .error (.rt 22031) else .ok one.val) ∧
    (closest r 22040 x table = .ok (one, two, true) → linearMissingMulti r x table = .error (.rt 22041)) := by
  have h := fun code => (multi_spec r code x one two).2 hlen
  refine ⟨?_, ?_, ?_⟩
  · intro hc
    unfold linearMulti
    rw [hc]
    exact h _
  · intro hc
    unfold linearFlatMulti
    rw [hc]
    simp only [Except.bind]
    cases between
    · rfl
    · exact h _
  · intro hc
    unfold linearMissingMulti
    rw [hc]
    simp only [Except.bind, Bool.not_true, Bool.false_and, Bool.false_eq_true, if_false]
    rw [h]
    rfl

example : ∀ it ∈ [(⟨.fin 1, [.fin 2, .fin 3]⟩ : Item (List Num)), ⟨.fin 4, [.fin 0, .fin 1]⟩], it.val.length = 2 := by simp

/-! ## Violations -/

/-- In binary64, `x` can be in the range and still raise "x out of range". -/
theorem bin_rounding_violation :
    bin dbl (.fin 0) 10 (.fin (-1)) (.fin (1 / 2 ^ 60)) = .error (.rt 22002) ∧ (-1 : ℚ) ≤ 0 ∧ (0 : ℚ) < 1 / 2 ^ 60 := by
  refine ⟨by decide +kernel, by norm_num, by norm_num⟩

/-- An infinite lower limit raises ValueError. -/
theorem bin_inf_violation (r : ℚ → Num) : bin r (.fin (-5)) 10 .ninf (.fin 0) = .error (.py "ValueError") := by
  rfl

/-- A quotient that overflows raises OverflowError. -/
theorem binWidth_overflow_violation : binWidth dbl (.fin (2 ^ 1000)) (.fin 0) (.fin (1 / 2 ^ 1000)) = .error (.py "OverflowError") := by
  decide +kernel

/-- The bin number need not be an int. -/
theorem binWidth_range_violation : binWidth .fin (.fin (2 ^ 40)) (.fin 0) (.fin 1) = .ok (2 ^ 40) := by decide +kernel

/-- A nan position in the first row hides all others. -/
theorem nearest_nan_violation :
    nearest1 (T := String) .fin (.fin 1) [⟨.nan, "wrong"⟩, ⟨.fin 1, "right"⟩] = .ok "wrong" := by decide +kernel

/-- Coordinates far apart raise OverflowError. -/
theorem nearest2_overflow_violation :
    nearest2 (T := String) dbl [.fin (2 ^ 600)] [([.fin 0], "only")] = .error (.py "OverflowError") := by decide +kernel

/-- In binary64 a table with a single value gives another value. -/
theorem linear_rounding_violation :
    ∃ y, linear dbl (.fin 1) [⟨.fin 0, .fin 15⟩, ⟨.fin 3, .fin 15⟩] = .ok (.fin y) ∧ 15 < y := by
  refine ⟨15 + 1 / 2 ^ 49, by decide +kernel, by norm_num⟩

/-! ## Concrete cases -/

example : linear .fin (.fin 1) (rows [(0, 10), (4, 30), (2, 16)]) = .ok (.fin 13) := by decide +kernel
example : linear .fin (.fin 5) (rows [(0, 10), (4, 30), (2, 16)]) = .ok (.fin 37) := by decide +kernel
example : linearFlat .fin (.fin 5) (rows [(0, 10), (4, 30), (2, 16)]) = .ok (.fin 30) := by decide +kernel
example : linearMissing .fin (.fin 5) (rows [(0, 10), (4, 30), (2, 16)]) = .ok none := by decide +kernel
example : linear .fin (.fin 5) (rows [(2, 10), (2, 30)]) = .error (.rt 22020) := by decide +kernel
example : bin .fin (.fin 7) 4 (.fin 0) (.fin 8) = .ok 3 := by decide +kernel

end Verif.Near
