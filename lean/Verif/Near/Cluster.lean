import Verif.Near.Interp
import Mathlib.Data.List.OfFn
import Mathlib.Algebra.BigOperators.Group.List.Basic
/-! # Clusters and neighbours (`titus/lib/model/cluster.py`, `titus/lib/model/neighbor.py`)

User functions (metrics, weights, updates) are arbitrary computations with effects. -/

namespace Verif.Near
open Verif.Stat (Num dbl)
open Verif.Lib (Eff Chain argLowestN StrictWeak StableSort Smallest Tie numbered)

variable {σ C D : Type}

/-! ## Model -/

/-- `[clusters[i] for i in indexes]`. -/
def take (l : List C) : List Int → Res (List C)
  | [] => .ok []
  | i :: is =>
    match l[i.toNat]? with
    | none => .error (.py "IndexError")
    | some c => (take l is).map (c :: ·)

/-- The `n` nearest of a list given with its distances (cluster.py 70-71, neighbor.py 98-99). -/
def nearestN (n : Nat) (tr : List (C × Num)) : Res (List C) :=
  (argLowestN Num.lt n (tr.map Prod.snd)).bind (take (tr.map Prod.fst))

/-- `index, = ...; clusters[index]` (cluster.py 52-53). -/
def only (r : Res (List C)) : Res C :=
  r.bind fun l => match l with
    | [c] => .ok c
    | _ => .error (.py "ValueError")

/-- `model.cluster.closest` with a metric (cluster.py 44-53). -/
def clClosest (metric : C → Eff σ Num) (clusters : List C) : Eff σ C := fun s =>
  if clusters.length = 0 then (.error (.rt 29000), s)
  else match callAll metric clusters s with
    | (.error e, s') => (.error e, s')
    | (.ok tr, s') => (only (nearestN 1 tr), s')

/-- `model.cluster.closestN` with a metric (cluster.py 62-71). -/
def clClosestN (n : Int) (metric : C → Eff σ Num) (clusters : List C) : Eff σ (List C) := fun s =>
  if n < 0 then (.error (.rt 29010), s)
  else match callAll metric clusters s with
    | (.error e, s') => (.error e, s')
    | (.ok tr, s') => (nearestN n.toNat tr, s')

/-- The metric used when none is given (cluster.py 51, 69): a computation without effect. -/
def sqDist (r : ℚ → Num) (center : C → List Num) (datum : List Num) (c : C) : Eff σ Num := fun s =>
  (sumSq r (.fin 0) datum (center c), s)

/-- `model.neighbor.nearestK` with a metric (neighbor.py 82-87, 98-99). -/
def nearestK (k : Int) (metric : C → Eff σ Num) (codebook : List C) : Eff σ (List C) := fun s =>
  if k < 0 then (.error (.rt 30010), s)
  else match callAll metric codebook s with
    | (.error e, s') => (.error e, s')
    | (.ok tr, s') => (nearestN k.toNat tr, s')

/-- `model.neighbor.nearestK` without a metric (neighbor.py 82-84, 88-99). -/
def nearestKPoints (r : ℚ → Num) (k : Int) (datum : List Num) (codebook : List (List Num)) : Res (List (List Num)) :=
  if k < 0 then .error (.rt 30010)
  else if codebook.length = 0 then .ok []
  else if codebook.any (fun x => x.length ≠ datum.length) then .error (.rt 30011)
  else match callAll (sqDist r id datum) codebook () with
    | (.error e, _) => .error e
    | (.ok tr, _) => nearestN k.toNat tr

/-- `model.neighbor.ballR` with a metric (neighbor.py 110-116). -/
def ballR (r : Num) (metric : C → Eff σ Num) (codebook : List C) : Eff σ (List C) := fun s =>
  match callAll metric codebook s with
  | (.error e, s') => (.error e, s')
  | (.ok tr, s') => (.ok ((tr.filter fun p => Num.lt p.2 r).map Prod.fst), s')

/-- The loop over the clusters for one datum (cluster.py 117-128): the index of the chosen cluster. -/
def besti (metric : D → C → Eff σ Num) (centers : List C) (datum : D) : Eff σ Nat := fun s =>
  match callAll (metric datum) centers s with
  | (.error e, s') => (.error e, s')
  | (.ok tr, s') =>
    match pick (fun _ => true) Prod.snd ((tr.map Prod.snd).zipIdx.map fun p => (p.2, p.1)) with
    | none => (.ok 0, s')
    | some ((i, _), _) => (.ok i, s')

/-- The second loop (cluster.py 131-137), from cluster number `i`; `asg` are the data with the chosen clusters. -/
def updates (update : List D → C → Eff σ C) (asg : List (D × Nat)) : Nat → List C → Eff σ (List C)
  | _, [] => fun s => (.ok [], s)
  | i, c :: cs => fun s =>
    let matched := (asg.filter (·.2 = i)).map Prod.fst
    match (if matched.length = 0 then (.ok c, s) else update matched c s) with
    | (.error e, s1) => (.error e, s1)
    | (.ok c', s1) =>
      match updates update asg (i + 1) cs s1 with
      | (.error e, s2) => (.error e, s2)
      | (.ok l, s2) => (.ok (c' :: l), s2)

/-- `model.cluster.kmeansIteration` (cluster.py 104-137); `center` reads the field. -/
def kmeansIteration {B : Type} (center : C → B) (metric : D → B → Eff σ Num) (update : List D → C → Eff σ C) (data : List D)
    (clusters : List C) : Eff σ (List C) := fun s =>
  if data.length = 0 then (.error (.rt 29030), s)
  else if clusters.length = 0 then (.error (.rt 29031), s)
  else match callAll (besti metric (clusters.map center)) data s with
    | (.error e, s') => (.error e, s')
    | (.ok asg, s') => updates update asg 0 clusters s'

/-- The sums of `updateMean` (cluster.py 148-155). -/
def addVecs (r : ℚ → Num) (dim : Nat) : List Num → List (List Num) → Res (List Num)
  | acc, [] => .ok acc
  | acc, v :: vs =>
    if v.length ≠ dim then .error (.rt 29041)
    else addVecs r dim (List.zipWith (Num.add r) acc v) vs

/-- `model.cluster.updateMean` (cluster.py 144-167): the new center. -/
def updateMean (r : ℚ → Num) (data : List (List Num)) (center : List Num) (weight : Num) : Res (List Num) :=
  match data with
  | [] => .error (.rt 29040)
  | v :: _ => do
    let summ ← addVecs r v.length (List.replicate v.length (.fin 0)) data
    if center.length ≠ v.length then .error (.rt 29041)
    else
      let summ := List.zipWith (fun a b => Num.add r a (Num.mul r weight b)) summ center
      let denom := Num.add r (.fin data.length) weight
      .ok (summ.map fun a => Num.div r a denom)

/-- `uniques` (cluster.py 82-85). -/
def uniques [DecidableEq D] (data : List D) : List D :=
  data.foldl (fun u x => if x ∈ u then u else u ++ [x]) []

/-- `[callfcn(state, scope, newCluster, [i, list(vec)]) for i, vec in enumerate(selected)]` (cluster.py 97). -/
def newClusters (new : Nat → D → Eff σ C) : Nat → List D → Eff σ (List C)
  | _, [] => fun s => (.ok [], s)
  | i, v :: vs => fun s =>
    match new i v s with
    | (.error e, s1) => (.error e, s1)
    | (.ok c, s1) =>
      match newClusters new (i + 1) vs s1 with
      | (.error e, s2) => (.error e, s2)
      | (.ok l, s2) => (.ok (c :: l), s2)

/-- `model.cluster.randomSeeds` (cluster.py 78-97); `shuffle` is what the generator does to the list. -/
def randomSeeds [DecidableEq D] (size : D → Nat) (shuffle : List D → Eff σ (List D)) (new : Nat → D → Eff σ C) (data : List D) (k : Int) :
    Eff σ (List C) := fun s =>
  if k ≤ 0 then (.error (.rt 29020), s)
  else
    let u := uniques data
    if (u.length : Int) < k then (.error (.rt 29021), s)
    else if (u.map size).dedup.length ≠ 1 then (.error (.rt 29022), s)
    else match shuffle u s with
      | (.error e, s') => (.error e, s')
      | (.ok v, s') => newClusters new 0 (v.take k.toNat) s'

/-- The loop of `neighbor.mean` (neighbor.py 58-69): numerators and the denominator (all entries of `denom` are equal). -/
def meanLoop (r : ℚ → Num) (weight : List Num → Eff σ Num) (dim : Nat) : List Num × Num → List (List Num) → Eff σ (List Num × Num)
  | acc, [] => fun s => (.ok acc, s)
  | acc, p :: ps => fun s =>
    if p.length ≠ dim then (.error (.rt 30001), s)
    else match weight p s with
      | (.error e, s1) => (.error e, s1)
      | (.ok w, s1) =>
        meanLoop r weight dim (List.zipWith (fun a b => Num.add r a (Num.mul r w b)) acc.1 p, Num.add r acc.2 w) ps s1

/-- `x /= y`, which raises for a zero denominator. -/
def pyDiv (r : ℚ → Num) (a b : Num) : Res Num :=
  if b = .fin 0 then .error (.py "ZeroDivisionError") else .ok (Num.div r a b)

/-- `numer[i] /= denom[i]` for all `i`. -/
def divAll (r : ℚ → Num) (d : Num) : List Num → Res (List Num)
  | [] => .ok []
  | a :: as => do
    let x ← pyDiv r a d
    let xs ← divAll r d as
    .ok (x :: xs)

/-- `model.neighbor.mean` (neighbor.py 45-73). -/
def nbMean (r : ℚ → Num) (weight : List Num → Eff σ Num) (points : List (List Num)) : Eff σ (List Num) := fun s =>
  match points with
  | [] => (.error (.rt 30000), s)
  | p :: _ =>
    match meanLoop r weight p.length (List.replicate p.length (.fin 0), .fin 0) points s with
    | (.error e, s') => (.error e, s')
    | (.ok (numer, denom), s') => (divAll r denom numer, s')

/-! ## The nearest ones -/

theorem advance_map {A B : Type} (lt : B → B → Bool) (g : A → B) (i : Int) (x : A) (out : List (Int × A)) :
    Lib.advance lt i (g x) (out.map fun p => (p.1, g p.2)) =
      (Lib.advance (fun a b => lt (g a) (g b)) i x out).map (List.map fun p => (p.1, g p.2)) := by
  induction out with
  | nil => rfl
  | cons a out ih =>
    obtain ⟨bi, bx⟩ := a
    simp only [List.map_cons, Lib.advance]
    split
    · rw [ih]
      cases Lib.advance (fun a b => lt (g a) (g b)) i x out <;> rfl
    · rfl

theorem argInsert_map {A B : Type} (lt : B → B → Bool) (g : A → B) (i : Int) (x : A) (out : List (Int × A)) :
    Lib.argInsert lt (fun x b => lt x b) i (g x) (out.map fun p => (p.1, g p.2)) =
      (Lib.argInsert (fun a b => lt (g a) (g b)) (fun x b => lt (g x) (g b)) i x out).map (List.map fun p => (p.1, g p.2)) := by
  induction out with
  | nil => rfl
  | cons a out ih =>
    obtain ⟨bi, bx⟩ := a
    simp only [List.map_cons, Lib.argInsert]
    split
    · exact advance_map lt g i x ((bi, bx) :: out)
    · rw [ih]
      cases Lib.argInsert (fun a b => lt (g a) (g b)) (fun x b => lt (g x) (g b)) i x out <;> rfl

theorem popOver_map {A B : Type} (f : A → B) (n : Nat) (l : List A) : Lib.popOver n (l.map f) = (Lib.popOver n l).map f := by
  unfold Lib.popOver
  simp only [List.length_map]
  split
  · rw [List.map_dropLast]
  · rfl

theorem argLoop_map {A B : Type} (lt : B → B → Bool) (g : A → B) (n : Nat) (i : Int) (a : List A) (out : List (Int × A)) :
    Lib.argLoop lt (fun x b => lt x b) n i (a.map g) (out.map fun p => (p.1, g p.2)) =
      (Lib.argLoop (fun a b => lt (g a) (g b)) (fun x b => lt (g x) (g b)) n i a out).map (List.map fun p => (p.1, g p.2)) := by
  induction a generalizing i out with
  | nil => rfl
  | cons x a ih =>
    simp only [List.map_cons, Lib.argLoop]
    rw [argInsert_map]
    cases Lib.argInsert (fun a b => lt (g a) (g b)) (fun x b => lt (g x) (g b)) i x out with
    | error e => rfl
    | ok o =>
      simp only [Except.map]
      rw [popOver_map, ih]
      rfl

/-- Selecting by a key. -/
theorem argLowestN_map {A B : Type} (lt : B → B → Bool) (g : A → B) (n : Nat) (a : List A) :
    argLowestN lt n (a.map g) = argLowestN (fun a b => lt (g a) (g b)) n a := by
  unfold argLowestN
  have := argLoop_map lt g n 0 a []
  simp only [List.map_nil] at this
  rw [this]
  cases Lib.argLoop (fun a b => lt (g a) (g b)) (fun x b => lt (g x) (g b)) n 0 a [] with
  | error e => rfl
  | ok l => simp [Except.map, Function.comp_def]

/-- `b` is the list `tr` sorted by distance; at equal distances the original order remains. -/
structure ByDistance (tr b : List (C × Num)) : Prop where
  perm : b.Perm tr
  sorted : b.Pairwise fun p q => Num.lt q.2 p.2 = false
  stable : ∀ p ∈ tr, b.filter (fun q => !Num.lt p.2 q.2 && !Num.lt q.2 p.2) = tr.filter fun q => !Num.lt p.2 q.2 && !Num.lt q.2 p.2

theorem numbered_snd {A : Type} (i : Int) (a : List A) : (numbered i a).map Prod.snd = a := by
  induction a generalizing i with
  | nil => rfl
  | cons x a ih => simp [numbered, ih]

/-- Distances that are numbers. -/
abbrev Known (C : Type) := {p : C × Num // p.2 ≠ .nan}

theorem known_strict : StrictWeak (fun p q : Known C => Num.lt p.1.2 q.1.2) where
  irrefl := fun p => lt_irrefl' _
  trans := fun _ _ _ h1 h2 => lt_trans' h1 h2
  cotrans := fun _ _ z h => lt_cotrans z.2 h

theorem take_spec (l : List C) (ps : List (Int × C)) (h : ∀ p ∈ ps, ∃ k : Nat, p.1 = k ∧ l[k]? = some p.2) :
    take l (ps.map Prod.fst) = .ok (ps.map Prod.snd) := by
  induction ps with
  | nil => rfl
  | cons p ps ih =>
    obtain ⟨k, hk, hl⟩ := h p (by simp)
    simp only [List.map_cons, take]
    rw [hk, Int.toNat_natCast, hl, ih fun q hq => h q (by simp [hq])]
    rfl

/-- `nearestN` selects the first `n` in the order of the distances, if no distance is nan. -/
theorem nearestN_spec (n : Nat) (tr : List (C × Num)) (hn : ∀ p ∈ tr, p.2 ≠ .nan) :
    ∃ b, ByDistance tr b ∧ nearestN n tr = .ok ((b.take n).map Prod.fst) := by
  obtain ⟨trk, rfl⟩ : ∃ trk : List (Known C), tr = trk.map Subtype.val := by
    refine ⟨tr.attach.map fun p => ⟨p.1, hn p.1 p.2⟩, ?_⟩
    rw [List.map_map]
    exact (List.attach_map_subtype_val tr).symm
  obtain ⟨ps, h1, ⟨b, hb, hps⟩, h3⟩ := Lib.argLowestN_spec (known_strict (C := C)) n trk
  refine ⟨(b.map Prod.snd).map Subtype.val, ⟨?_, ?_, ?_⟩, ?_⟩
  · have := (hb.perm.map Prod.snd).map Subtype.val
    rw [numbered_snd] at this
    exact this
  · rw [List.map_map, List.pairwise_map]
    exact hb.sorted
  · intro p hp
    obtain ⟨pk, hpk, rfl⟩ := List.mem_map.1 hp
    have := hb.stable (0, pk)
    have h2 := congrArg (List.map fun q : Int × Known C => q.2.1) this
    unfold Tie at h2
    simp only at h2
    have e : ∀ l : List (Int × Known C),
        ((l.map Prod.snd).map Subtype.val).filter (fun q => !Num.lt pk.1.2 q.2 && !Num.lt q.2 pk.1.2) =
          (l.filter fun q => !Num.lt pk.1.2 q.2.1.2 && !Num.lt q.2.1.2 pk.1.2).map fun q => q.2.1 := by
      intro l
      rw [List.map_map, List.filter_map]
      rfl
    have h4 := e (numbered 0 trk)
    rw [numbered_snd] at h4
    rw [e b, h2, ← h4]
  · unfold nearestN
    rw [List.map_map, argLowestN_map]
    have e2 : argLowestN (fun a b : Known C => Num.lt ((Prod.snd ∘ Subtype.val) a) ((Prod.snd ∘ Subtype.val) b)) n trk =
        .ok (ps.map Prod.fst) := h1
    rw [e2]
    simp only [Except.bind]
    have := take_spec ((trk.map Subtype.val).map Prod.fst) (ps.map fun p => (p.1, p.2.1.1)) (by
      intro p hp
      obtain ⟨q, hq, rfl⟩ := List.mem_map.1 hp
      obtain ⟨k, hk, hl⟩ := h3 q hq
      exact ⟨k, hk, by simp [hl]⟩)
    rw [List.map_map, List.map_map] at this
    rw [show (Prod.fst ∘ fun p : Int × Known C => (p.1, p.2.1.1)) = Prod.fst from rfl] at this
    rw [List.map_map] at this
    rw [List.map_map, this, hps, ← List.map_take, ← List.map_take, List.map_map, List.map_map]
    rfl

/-- The first in the order of the distances is the first of the smallest distance. -/
theorem byDistance_head {tr b : List (C × Num)} {p : C × Num} {rest : List (C × Num)} (h : ByDistance tr b) (hb : b = p :: rest) :
    FirstMin (fun _ => true) Prod.snd tr p := by
  subst hb
  have hp : p ∈ tr := h.perm.mem_iff.1 (by simp)
  have hf := h.stable p hp
  rw [List.filter_cons_of_pos (by simp [lt_irrefl'])] at hf
  obtain ⟨pre, post, rfl, hpre, -, -⟩ := List.filter_eq_cons_iff.1 hf.symm
  have hle : ∀ q ∈ pre ++ p :: post, Num.lt q.2 p.2 = false := by
    intro q hq
    rcases List.mem_cons.1 (h.perm.mem_iff.2 hq) with rfl | hq
    · exact lt_irrefl' _
    · exact (List.pairwise_cons.1 h.sorted).1 q hq
  refine ⟨pre, post, rfl, rfl, ?_, fun q hq _ => hle q (by simp [hq])⟩
  intro q hq _
  have := hpre q hq
  rw [hle q (by simp [hq])] at this
  simpa using this

/-- `model.cluster.closest`: the distances are computed in order, and the first cluster at the smallest distance is
returned, if no distance is nan. -/
theorem clClosest_spec (metric : C → Eff σ Num) (clusters : List C) (hne : clusters ≠ []) (s s' : σ) (tr : List (C × Num))
    (h1 : tr.map Prod.fst = clusters) (h2 : Chain metric s tr s') (hn : ∀ p ∈ tr, p.2 ≠ .nan) :
    ∃ p, FirstMin (fun _ => true) Prod.snd tr p ∧ clClosest metric clusters s = (.ok p.1, s') := by
  obtain ⟨b, hb, h3⟩ := nearestN_spec 1 tr hn
  cases b with
  | nil =>
    have := hb.perm.length_eq
    have : tr = [] := by simpa using this.symm
    subst this
    exact absurd h1.symm hne
  | cons p rest =>
    refine ⟨p, byDistance_head hb rfl, ?_⟩
    unfold clClosest
    rw [if_neg (by simpa using hne), (callAll_chain metric clusters s s' tr).2 ⟨h1, h2⟩]
    simp only
    rw [h3]
    rfl

/-- `model.cluster.closestN`. -/
theorem clClosestN_spec (n : Nat) (metric : C → Eff σ Num) (clusters : List C) (s s' : σ) (tr : List (C × Num))
    (h1 : tr.map Prod.fst = clusters) (h2 : Chain metric s tr s') (hn : ∀ p ∈ tr, p.2 ≠ .nan) :
    ∃ b, ByDistance tr b ∧ clClosestN n metric clusters s = (.ok ((b.take n).map Prod.fst), s') := by
  obtain ⟨b, hb, h3⟩ := nearestN_spec n tr hn
  refine ⟨b, hb, ?_⟩
  unfold clClosestN
  rw [if_neg (by omega), (callAll_chain metric clusters s s' tr).2 ⟨h1, h2⟩]
  simp only [Int.toNat_natCast]
  rw [h3]

/-- `model.neighbor.nearestK`. -/
theorem nearestK_spec (n : Nat) (metric : C → Eff σ Num) (codebook : List C) (s s' : σ) (tr : List (C × Num))
    (h1 : tr.map Prod.fst = codebook) (h2 : Chain metric s tr s') (hn : ∀ p ∈ tr, p.2 ≠ .nan) :
    ∃ b, ByDistance tr b ∧ nearestK n metric codebook s = (.ok ((b.take n).map Prod.fst), s') := by
  obtain ⟨b, hb, h3⟩ := nearestN_spec n tr hn
  refine ⟨b, hb, ?_⟩
  unfold nearestK
  rw [if_neg (by omega), (callAll_chain metric codebook s s' tr).2 ⟨h1, h2⟩]
  simp only [Int.toNat_natCast]
  rw [h3]

/-- Negative numbers and missing clusters raise the documented errors, before any call. -/
theorem nearest_errors (n : Int) (hn : n < 0) (metric : C → Eff σ Num) (l : List C) (s : σ) :
    clClosestN n metric l s = (.error (.rt 29010), s) ∧ nearestK n metric l s = (.error (.rt 30010), s) ∧
      clClosest metric [] s = (.error (.rt 29000), s) := by
  refine ⟨?_, ?_, rfl⟩
  · unfold clClosestN; rw [if_pos hn]
  · unfold nearestK; rw [if_pos hn]

/-- A metric that raises. -/
theorem nearest_raises (n : Nat) (metric : C → Eff σ Num) (l : List C) (s s' s1 : σ) (e : Err) (tr : List (C × Num)) (a : C)
    (rest : List C) (h1 : l = tr.map Prod.fst ++ a :: rest) (h2 : Chain metric s tr s1) (h3 : metric a s1 = (.error e, s')) :
    clClosestN n metric l s = (.error e, s') ∧ nearestK n metric l s = (.error e, s') ∧ clClosest metric l s = (.error e, s') := by
  have := (callAll_raises metric l s s' e).2 ⟨tr, a, rest, s1, h1, h2, h3⟩
  refine ⟨?_, ?_, ?_⟩
  · unfold clClosestN; rw [if_neg (by omega), this]
  · unfold nearestK; rw [if_neg (by omega), this]
  · unfold clClosest; rw [if_neg (by rw [h1]; simp), this]

/-- The default metric in exact arithmetic: squared distance over the common coordinates. -/
theorem sqDist_fin (center : C → List ℚ) (datum : List ℚ) (c : C) (s : σ) :
    sqDist .fin (fun c => (center c).map .fin) (datum.map .fin) c s = (.ok (.fin (dist2 datum (center c))), s) := by
  unfold sqDist
  rw [sumSq_fin, zero_add]

/-- `model.cluster.closest` of points, without a metric: the first cluster whose center is nearest. -/
theorem clClosest_points (center : C → List ℚ) (datum : List ℚ) (clusters : List C) (hne : clusters ≠ []) (s : σ) :
    ∃ pre c post, clusters = pre ++ c :: post ∧ (∀ d ∈ pre, dist2 datum (center c) < dist2 datum (center d)) ∧
      (∀ d ∈ post, dist2 datum (center c) ≤ dist2 datum (center d)) ∧
      clClosest (sqDist .fin (fun c => (center c).map .fin) (datum.map .fin)) clusters s = (.ok c, s) := by
  have hf : (sqDist .fin (fun c => (center c).map .fin) (datum.map .fin) : C → Eff σ Num) =
      fun c => Lib.ret (.fin (dist2 datum (center c))) := by
    funext c s'
    exact sqDist_fin center datum c s'
  rw [hf]
  obtain ⟨p, ⟨pre, post, e, -, h1, h2⟩, h3⟩ := clClosest_spec (σ := σ) _ clusters hne s s
    (clusters.map fun c => (c, Num.fin (dist2 datum (center c)))) (by simp [Function.comp_def])
    (Lib.chain_pure _ clusters s) (by
      intro p hp
      obtain ⟨c, _, rfl⟩ := List.mem_map.1 hp
      simp)
  obtain ⟨l1, l2, rfl, rfl, e2⟩ := List.map_eq_append_iff.1 e
  cases l2 with
  | nil => simp at e2
  | cons c l2 =>
    simp only [List.map_cons, List.cons.injEq] at e2
    obtain ⟨rfl, rfl⟩ := e2
    refine ⟨l1, c, l2, rfl, ?_, ?_, h3⟩
    · intro d hd; simpa [Num.lt] using h1 _ (List.mem_map_of_mem hd) rfl
    · intro d hd; simpa [Num.lt] using h2 _ (List.mem_map_of_mem hd) rfl

/-- `model.neighbor.ballR`: the points nearer than `r`, in order. -/
theorem ballR_spec (r : Num) (metric : C → Eff σ Num) (codebook : List C) (s s' : σ) (tr : List (C × Num))
    (h1 : tr.map Prod.fst = codebook) (h2 : Chain metric s tr s') :
    ∃ out, ballR r metric codebook s = (.ok out, s') ∧ out.Sublist codebook ∧
      (∀ c, c ∈ out ↔ ∃ d, (c, d) ∈ tr ∧ Num.lt d r = true) := by
  refine ⟨(tr.filter fun p => Num.lt p.2 r).map Prod.fst, ?_, ?_, ?_⟩
  · unfold ballR
    rw [(callAll_chain metric codebook s s' tr).2 ⟨h1, h2⟩]
  · rw [← h1]
    exact List.filter_sublist.map _
  · intro c
    simp only [List.mem_map, List.mem_filter]
    constructor
    · rintro ⟨p, ⟨hp, hl⟩, rfl⟩; exact ⟨p.2, hp, hl⟩
    · rintro ⟨d, hd, hl⟩; exact ⟨(c, d), ⟨hd, hl⟩, rfl⟩

end Verif.Near
