import Verif.Lloyd.Stop
import Verif.Cart.Load
import Mathlib.Data.List.Sort
/-! # Optimizing clusters: the document (C90) -/

namespace Verif.Lloyd
open Verif.Near (coord dist2 FirstMin)
open Verif.Stat (Num)
open Verif.Lib (Eff)

/-! ## The order of the clusters -/

/-- The written order is a rearrangement of the clusters; if sorting is asked for, the centers are in ascending order. -/
theorem order_spec (sort : Bool) (clusters : List Pt) :
    (order sort clusters).Perm clusters.zipIdx ∧ (sort = true → ((order sort clusters).map Prod.fst).Pairwise (· ≤ ·)) ∧
      (sort = false → (order sort clusters).map Prod.fst = clusters) := by
  refine ⟨?_, ?_, ?_⟩
  · unfold order
    cases sort
    · exact List.Perm.refl _
    · exact List.perm_insertionSort _ _
  · rintro rfl
    unfold order
    simp only [if_true]
    have htr : IsTrans (Pt × Nat) (fun a b => a.1 < b.1 ∨ (a.1 = b.1 ∧ a.2 ≤ b.2)) := ⟨by
      rintro ⟨a, i⟩ ⟨b, j⟩ ⟨c, k⟩ (h1 | ⟨h1, h2⟩) (h3 | ⟨h3, h4⟩)
      · exact .inl (lt_trans h1 h3)
      · simp only at h3; subst h3; exact .inl h1
      · simp only at h1; subst h1; exact .inl h3
      · simp only at h1 h3; subst h1 h3; exact .inr ⟨rfl, h2.trans h4⟩⟩
    have hto : Std.Total (fun a b : Pt × Nat => a.1 < b.1 ∨ (a.1 = b.1 ∧ a.2 ≤ b.2)) := ⟨by
      rintro ⟨a, i⟩ ⟨b, j⟩
      rcases lt_trichotomy a b with h | h | h
      · exact .inl (.inl h)
      · rcases Nat.le_total i j with h' | h'
        · exact .inl (.inr ⟨h, h'⟩)
        · exact .inr (.inr ⟨h.symm, h'⟩)
      · exact .inr (.inl h)⟩
    rw [List.pairwise_map]
    refine List.Pairwise.imp ?_ (List.pairwise_insertionSort (fun a b : Pt × Nat => a.1 < b.1 ∨ (a.1 = b.1 ∧ a.2 ≤ b.2)) clusters.zipIdx)
    rintro a b (h | ⟨h, -⟩)
    · exact h.le
    · exact h.le
  · rintro rfl
    simp [order]

/-- `pfaValue`: as many names as clusters, or nothing; the names are written in the given order, each with a center, all centers with their
multiplicity, and the population is the number of rows to which that center is the closest. -/
theorem pfaValue_spec {K : Type} [LinearOrder K] (metric : Pt → Pt → K) (dataset clusters : List Pt) (ids : List String) (populations sort : Bool) :
    (ids.length ≠ clusters.length → pfaValue metric dataset clusters ids populations sort = .error (.py "TypeError")) ∧
    (ids.length = clusters.length → ∃ es, pfaValue metric dataset clusters ids populations sort = .ok es ∧
      es.map Entry.id = ids ∧ (es.map Entry.center).Perm clusters ∧
      (sort = true → (es.map Entry.center).Pairwise (· ≤ ·)) ∧ (sort = false → es.map Entry.center = clusters) ∧
      ∀ e ∈ es, ∃ i : Nat, clusters[i]? = some e.center ∧
        e.population = if populations then some (dataset.filter fun x => closest metric clusters x = i).length else none) := by
  constructor
  · intro h; exact if_pos h
  · intro h
    obtain ⟨h1, h2, h3⟩ := order_spec sort clusters
    have hl : (order sort clusters).length = clusters.length := by rw [h1.length_eq]; simp
    refine ⟨_, if_neg (by simpa using h), ?_, ?_, ?_, ?_, ?_⟩
    · rw [List.map_zipWith]
      apply List.ext_getElem
      · simp [hl, h]
      · intro i h1 h2; simp
    · have e : (List.zipWith (fun (i : String) (p : Pt × Nat) =>
          ({ center := p.1, population := if populations then some ((dataset.map (closest metric clusters)).count p.2) else none, id := i } : Entry))
          ids (order sort clusters)).map Entry.center = (order sort clusters).map Prod.fst := by
        rw [List.map_zipWith]
        apply List.ext_getElem
        · simp [hl, h]
        · intro i h1 h2; simp
      rw [e]
      have := h1.map Prod.fst
      simpa using this
    · intro hs
      have e := h2 hs
      rw [List.map_zipWith]
      convert e using 1
      apply List.ext_getElem
      · simp [hl, h]
      · intro i h1 h2; simp
    · intro hs
      have e := h3 hs
      rw [List.map_zipWith]
      conv_rhs => rw [← e]
      apply List.ext_getElem
      · simp [hl, h]
      · intro i h1 h2; simp
    · intro e he
      obtain ⟨i, hi, rfl⟩ := List.mem_iff_getElem.1 he
      simp only [List.getElem_zipWith]
      have hm : (order sort clusters)[i]'(by simp at hi; omega) ∈ clusters.zipIdx := h1.mem_iff.1 (List.getElem_mem _)
      refine ⟨((order sort clusters)[i]'(by simp at hi; omega)).2, ?_, ?_⟩
      · exact List.mem_zipIdx_iff_getElem?.1 hm
      · congr 2
        rw [List.count_eq_countP, List.countP_map, List.countP_eq_length_filter]
        rfl

/-- The populations add up to the number of rows. -/
theorem populations_sum {K : Type} [LinearOrder K] (metric : Pt → Pt → K) (dataset clusters : List Pt) (hne : clusters ≠ []) (ids : List String)
    (sort : Bool) (es : List Entry) (h : pfaValue metric dataset clusters ids true sort = .ok es) :
    (es.map fun e => e.population.getD 0).sum = dataset.length := by
  have hl : ids.length = clusters.length := by
    by_contra hcon
    rw [(pfaValue_spec metric dataset clusters ids true sort).1 hcon] at h; cases h
  unfold pfaValue at h
  rw [if_neg (by simpa using hl)] at h
  injection h with h
  subst h
  obtain ⟨h1, -, -⟩ := order_spec sort clusters
  have hol : (order sort clusters).length = clusters.length := by rw [h1.length_eq]; simp
  rw [List.map_zipWith]
  have e : List.zipWith (fun (i : String) (p : Pt × Nat) => (Entry.population
      { center := p.1, population := if true = true then some ((dataset.map (closest metric clusters)).count p.2) else none, id := i }).getD 0)
      ids (order sort clusters) = (order sort clusters).map fun p => (dataset.map (closest metric clusters)).count p.2 := by
    apply List.ext_getElem
    · simp [hl, hol]
    · intro i h1 h2; simp
  rw [e, (h1.map fun p : Pt × Nat => (dataset.map (closest metric clusters)).count p.2).sum_eq]
  have hz : clusters.zipIdx.map (fun p : Pt × Nat => (dataset.map (closest metric clusters)).count p.2) =
      (List.range clusters.length).map fun i => (dataset.map (closest metric clusters)).count i := by
    apply List.ext_getElem
    · simp
    · intro i h1 h2; simp
  rw [hz]
  have hlt : ∀ i ∈ dataset.map (closest metric clusters), i < clusters.length := by
    intro i hi
    obtain ⟨x, -, rfl⟩ := List.mem_map.1 hi
    exact closest_lt metric clusters hne x
  have : ∀ l : List Nat, (∀ i ∈ l, i < clusters.length) → ((List.range clusters.length).map fun i => l.count i).sum = l.length := by
    intro l
    induction l with
    | nil => intro _; simp
    | cons a l ih =>
      intro h
      have ha := h a (by simp)
      have := ih fun i hi => h i (by simp [hi])
      simp only [List.count_cons, List.length_cons]
      rw [List.sum_map_add, this]
      congr 1
      have : ∀ n, a < n → ((List.range n).map fun i => if (a == i) = true then 1 else 0).sum = 1 := by
        intro n
        induction n with
        | zero => intro h; omega
        | succ n ih =>
          intro h
          rw [List.range_succ, List.map_append, List.sum_append]
          by_cases han : a = n
          · subst han
            have : ((List.range a).map fun i => if (a == i) = true then 1 else 0).sum = 0 := by
              rw [List.sum_eq_zero]
              intro x hx
              obtain ⟨i, hi, rfl⟩ := List.mem_map.1 hx
              have := List.mem_range.1 hi
              simp
              omega
            rw [this]
            simp
          · rw [ih (by omega)]
            simp [han]
      exact this _ ha
  rw [this _ hlt]
  simp

example : pfaValue dist2 rows1 [[11], [1]] ["a", "b"] true true =
    .ok [{ center := [1], population := some 3, id := "a" }, { center := [11], population := some 2, id := "b" }] := by decide +kernel

/-! ## Scoring -/

/-- The action of the document (607-611): `model.cluster.closest(input, clusters, metric)["id"]`; `m` is the metric. -/
def score (m : Pt → Pt → Num) (es : List Entry) (x : Pt) : Res String :=
  match (Near.clClosest (fun e : Entry => Lib.ret (m x e.center)) es () : Res Entry × Unit).1 with
  | .error e => .error e
  | .ok e => .ok e.id

/-- The document gives the name of the first of the written clusters with the smallest distance. -/
theorem score_first (m : Pt → Pt → Num) (es : List Entry) (hne : es ≠ []) (x : Pt) (hn : ∀ e ∈ es, m x e.center ≠ .nan) :
    ∃ pre e post, es = pre ++ e :: post ∧ score m es x = .ok e.id ∧
      (∀ d ∈ pre, Num.lt (m x e.center) (m x d.center) = true) ∧ ∀ d ∈ post, Num.lt (m x d.center) (m x e.center) = false := by
  obtain ⟨p, ⟨pre, post, e, -, h1, h2⟩, h3⟩ := Near.clClosest_spec (σ := Unit) (fun e : Entry => Lib.ret (m x e.center)) es hne () ()
    (es.map fun c => (c, m x c.center)) (by simp [Function.comp_def]) (Lib.chain_pure _ es ()) (by
      intro p hp
      obtain ⟨c, hc, rfl⟩ := List.mem_map.1 hp
      exact hn c hc)
  obtain ⟨l1, l2, rfl, rfl, e2⟩ := List.map_eq_append_iff.1 e
  cases l2 with
  | nil => simp at e2
  | cons c l2 =>
    simp only [List.map_cons, List.cons.injEq] at e2
    obtain ⟨rfl, rfl⟩ := e2
    refine ⟨l1, c, l2, rfl, ?_, ?_, ?_⟩
    · unfold score; rw [h3]
    · intro d hd; exact h1 _ (List.mem_map_of_mem hd) rfl
    · intro d hd; exact h2 _ (List.mem_map_of_mem hd) rfl

/-- The metric of the document compares the centers as the metric of the optimization does. -/
def Agrees {K : Type} [LinearOrder K] (metric : Pt → Pt → K) (m : Pt → Pt → Num) : Prop :=
  ∀ x c, m x c ≠ .nan ∧ ∀ d, Num.lt (m x c) (m x d) = true ↔ metric x c < metric x d

/-- If one center is nearer to a row than all others, the document gives the name that was written with that center: the name of the cluster
that `closestCluster` finds. -/
theorem score_unique {K : Type} [LinearOrder K] (metric : Pt → Pt → K) (m : Pt → Pt → Num) (ha : Agrees metric m) (dataset clusters : List Pt)
    (ids : List String) (populations sort : Bool) (es : List Entry) (h : pfaValue metric dataset clusters ids populations sort = .ok es) (x c : Pt)
    (hc : clusters[closest metric clusters x]? = some c) (hu : ∀ d ∈ clusters, d ≠ c → metric x c < metric x d) :
    ∃ e ∈ es, e.center = c ∧ score m es x = .ok e.id := by
  have hl : ids.length = clusters.length := by
    by_contra hcon
    rw [(pfaValue_spec metric dataset clusters ids populations sort).1 hcon] at h; cases h
  obtain ⟨es1, h1, h2, h3, -⟩ := (pfaValue_spec metric dataset clusters ids populations sort).2 hl
  rw [h] at h1
  injection h1 with h1
  subst h1
  have hne : es ≠ [] := by
    rintro rfl
    have := h3.length_eq
    simp at this
    rw [List.length_eq_zero_iff.1 this.symm] at hc
    simp at hc
  obtain ⟨pre, e, post, rfl, h4, h5, h6⟩ := score_first m es hne x fun e _ => (ha x e.center).1
  refine ⟨e, by simp, ?_, h4⟩
  by_contra hec
  have hcm : c ∈ (pre ++ e :: post).map Entry.center := h3.mem_iff.2 (List.mem_of_getElem? hc)
  have hem : e.center ∈ clusters := h3.mem_iff.1 (List.mem_map_of_mem (by simp))
  have hlt := hu e.center hem hec
  obtain ⟨d, hd, rfl⟩ := List.mem_map.1 hcm
  have hlt' := ((ha x d.center).2 e.center).2 hlt
  rcases List.mem_append.1 hd with hd | hd
  · have := ((ha x e.center).2 d.center).1 (h5 d hd)
    exact lt_asymm hlt this
  · rcases List.mem_cons.1 hd with rfl | hd
    · exact hec rfl
    · rw [h6 d hd] at hlt'; cases hlt'

/-- Without sorting, the document gives the name at the position that `closestCluster` finds, for every row. -/
theorem score_unsorted {K : Type} [LinearOrder K] (metric : Pt → Pt → K) (m : Pt → Pt → Num) (ha : Agrees metric m) (dataset clusters : List Pt)
    (hne : clusters ≠ []) (ids : List String) (populations : Bool) (es : List Entry)
    (h : pfaValue metric dataset clusters ids populations false = .ok es) (x : Pt) :
    ∃ i, ids[closest metric clusters x]? = some i ∧ score m es x = .ok i := by
  have hl : ids.length = clusters.length := by
    by_contra hcon
    rw [(pfaValue_spec metric dataset clusters ids populations false).1 hcon] at h; cases h
  obtain ⟨es1, h1, h2, -, -, h3, -⟩ := (pfaValue_spec metric dataset clusters ids populations false).2 hl
  rw [h] at h1
  injection h1 with h1
  subst h1
  have h3 := h3 rfl
  have hne' : es ≠ [] := by
    rintro rfl
    exact hne (by simpa using h3.symm)
  obtain ⟨pre, e, post, rfl, h4, h5, h6⟩ := score_first m es hne' x fun e _ => (ha x e.center).1
  have hpos : closest metric clusters x = pre.length := by
    apply first_unique (argmin_spec (clusters.map (metric x)) (by simpa using hne))
    rw [← h3]
    refine ⟨metric x e.center, by simp, ?_, ?_⟩
    · intro j d hj hd
      simp only [List.map_append, List.map_cons, List.map_map] at hd
      rw [List.getElem?_append_left (by simpa using hj), List.getElem?_map, Option.map_eq_some_iff] at hd
      obtain ⟨a, hap, rfl⟩ := hd
      exact ((ha x e.center).2 a.center).1 (h5 a (List.mem_of_getElem? hap))
    · intro j d hd
      have := List.mem_of_getElem? hd
      simp only [List.map_map, List.mem_map] at this
      obtain ⟨a, hap, rfl⟩ := this
      rcases List.mem_append.1 hap with hap | hap
      · exact (((ha x e.center).2 a.center).1 (h5 a hap)).le
      · rcases List.mem_cons.1 hap with rfl | hap
        · exact le_refl _
        · by_contra hcon
          have := ((ha x a.center).2 e.center).2 (not_le.1 hcon)
          rw [h6 a hap] at this; cases this
  refine ⟨e.id, ?_, h4⟩
  rw [hpos, ← h2]
  simp

theorem agrees_squared : Agrees dist2 fun x c => Num.fin (dist2 x c) := by
  intro x c
  exact ⟨by simp, fun d => by simp [Num.lt]⟩

/-- With sorting, a row between two centers may get another name than `closestCluster` gives it: it is counted in the population of "b" and
scored as "a". -/
theorem sorted_tie_violation :
    pfaValue dist2 [[1]] [[2], [0]] ["a", "b"] true true =
      .ok [{ center := [0], population := some 0, id := "a" }, { center := [2], population := some 1, id := "b" }] ∧
    score (fun x c => Num.fin (dist2 x c)) [{ center := [0], population := some 0, id := "a" }, { center := [2], population := some 1, id := "b" }] [1] =
      .ok "a" := by
  constructor <;> decide +kernel

/-! ## The metric in the document -/

/-- The metrics. -/
inductive Metric | euclidean | squaredEuclidean | chebyshev | taxicab | minkowski
  deriving DecidableEq

/-- The names of the two arguments that `pfa(x, y)` writes (79-80, 87-90, 97-100, 107-110, 118-121). -/
def Metric.args : Metric → String → String → List String
  | .euclidean, x, y => [x, y]
  | _, _, _ => ["metricX", "metricY"]

/-- The parameters of the function in the document (609-610). -/
def metricParams : List String := ["datum", "clusterCenter"]

/-- Only the Euclidean metric refers to the parameters. -/
theorem metric_args (k : Metric) : k.args "datum" "clusterCenter" = metricParams ↔ k = .euclidean := by
  cases k <;> decide +kernel

/-- With the other metrics the function refers to symbols that are nowhere defined. -/
theorem metric_args_violation (k : Metric) (hk : k ≠ .euclidean) :
    ∀ s ∈ k.args "datum" "clusterCenter", s ∉ "input" :: metricParams := by
  cases k
  · exact absurd rfl hk
  all_goals decide +kernel

/-! ## Reading the clusters -/

open Avro

/-- The type of the clusters in the document (592-602). -/
def docFields (populations : Bool) : List Field :=
  { name := "id", type := .string } ::
    ((if populations then [{ name := "populations", type := .int }] else []) ++ [{ name := "center", type := .array .double }])

/-- A cluster as it is written (547-559): first the center, then the population, then the name. -/
def Entry.toVal (e : Entry) : Val :=
  .dict (("center", .arr (e.center.map fun a => .flt (.fin a))) ::
    ((match e.population with | none => [] | some n => [("population", .int n)]) ++ [("id", .str e.id)]))

/-- The same with the fields in the order of the type. -/
def Entry.read (e : Entry) : Val := .dict [("id", .str e.id), ("center", .arr (e.center.map fun a => .flt (.fin a)))]

/-- Without populations the clusters are read as they were written. -/
theorem loaded {pf : List Char → Option Flt} {env : Env} {nm : Name} (hf : env.fields? nm = some (docFields false)) (es : List Entry)
    (hp : ∀ e ∈ es, e.population = none) :
    ∃ N, ∀ n ≥ N, dec pf env n (.array (.record nm)) (.arr (es.map Entry.toVal)) = .ok (.arr (es.map Entry.read)) := by
  refine ⟨4, fun n hn => ?_⟩
  obtain ⟨m, rfl⟩ : ∃ m, n = m + 4 := ⟨n - 4, by omega⟩
  have hd : ∀ (l : Pt) (k : Nat), mapR (dec pf env (k + 1) .double) (l.map fun a => .flt (.fin a)) = .ok (l.map fun a => .flt (.fin a)) := by
    intro l k
    induction l with
    | nil => rfl
    | cons a l ih => simp only [List.map_cons, mapR, ih]; rfl
  have he : ∀ e : Entry, e.population = none → dec pf env (m + 3) (.record nm) e.toVal = .ok e.read := by
    intro e he
    have hc : dec pf env (m + 2) (.array .double) (.arr (e.center.map fun a => .flt (.fin a))) =
        .ok (.arr (e.center.map fun a => .flt (.fin a))) := by
      change Res.app _ (mapR (dec pf env (m + 1) .double) _) = _
      rw [hd]
      rfl
    have e1 : PyDict.get? [("center", Val.arr (e.center.map fun a => .flt (.fin a))), ("id", .str e.id)] "id" = some (.str e.id) := by
      simp [PyDict.get?]
    have e2 : PyDict.get? [("center", Val.arr (e.center.map fun a => .flt (.fin a))), ("id", .str e.id)] "center" =
        some (.arr (e.center.map fun a => .flt (.fin a))) := by
      simp [PyDict.get?]
    have e3 : dec pf env (m + 2) .string (.str e.id) = .ok (.str e.id) := rfl
    have hv : e.toVal = .dict [("center", Val.arr (e.center.map fun a => .flt (.fin a))), ("id", .str e.id)] := by
      simp [Entry.toVal, he]
    rw [hv, dec]
    simp only [decStep, hf, docFields, Bool.false_eq_true, if_false, List.nil_append, decFields, e1, e2, e3, hc, PyDict.set, Res.app, Entry.read]
    simp
  have : ∀ es : List Entry, (∀ e ∈ es, e.population = none) → mapR (dec pf env (m + 3) (.record nm)) (es.map Entry.toVal) = .ok (es.map Entry.read) := by
    intro es
    induction es with
    | nil => intro _; rfl
    | cons e es ih =>
      intro h
      simp only [List.map_cons, mapR, he e (h e (by simp)), ih fun d hd => h d (by simp [hd])]
  change Res.app _ (mapR (dec pf env (m + 3) (.record nm)) _) = _
  rw [this es hp]
  rfl

/-- With populations the document is refused: its type asks for a field `populations`, the clusters have a field `population`. -/
theorem populations_violation {pf : List Char → Option Flt} {env : Env} {nm : Name} (hf : env.fields? nm = some (docFields true)) (e : Entry)
    (es : List Entry) (k : Nat) (hk : e.population = some k) (n : Nat) (v : Val) :
    dec pf env n (.array (.record nm)) (.arr ((e :: es).map Entry.toVal)) ≠ .ok v := by
  rcases n with _ | _ | n
  · intro h; cases h
  · intro h; cases h
  · have hr : ∃ err, dec pf env (n + 1) (.record nm) e.toVal = .error err := by
      have hv : e.toVal = .dict [("center", Val.arr (e.center.map fun a => .flt (.fin a))), ("population", .int k), ("id", .str e.id)] := by
        simp [Entry.toVal, hk]
      have e1 : PyDict.get? [("center", Val.arr (e.center.map fun a => .flt (.fin a))), ("population", .int k), ("id", .str e.id)] "id" =
          some (.str e.id) := by
        simp [PyDict.get?]
      have e2 : PyDict.get? [("center", Val.arr (e.center.map fun a => .flt (.fin a))), ("population", .int k), ("id", .str e.id)] "populations" =
          none := by
        simp [PyDict.get?]
      rw [hv, dec]
      simp only [decStep, hf, docFields, if_true, List.cons_append, List.nil_append, decFields, e1, e2]
      cases dec pf env n .string (.str e.id) with
      | error err => exact ⟨_, rfl⟩
      | ok y => exact ⟨_, rfl⟩
    obtain ⟨err, hr⟩ := hr
    intro h
    rw [dec] at h
    simp only [decStep, List.map_cons, mapR, hr, Res.app] at h
    cases h

end Verif.Lloyd
