import Verif.Lib.HigherOrder
import Verif.Lib.SetOps
/-!
# The map library (C36)

Models `titus/lib/map.py` 61-191 and 329-560.  Maps are Python dicts (`PyDict`, insertion order).
`toKey` (42-54: base64 of the Avro binary form) is a parameter.
-/

namespace Verif.Lib
open Verif.Avro (Val)

variable {σ κ ν β γ : Type _} [DecidableEq κ]

/-! ## Model -/

/-- `dict(pairs)`. -/
def dictOf (items : List (κ × ν)) : PyDict κ ν := items.foldl (fun d p => d.set p.1 p.2) []

/-- `map.len` (61-67). -/
def mapLen (m : PyDict κ ν) : Nat := m.length
/-- `map.keys` (69-75). -/
def mapKeys (m : PyDict κ ν) : List κ := m.keys
/-- `map.values` (77-83). -/
def mapValues (m : PyDict κ ν) : List ν := m.map (·.2)
/-- `map.containsKey` with a key (87-100). -/
def containsKey (m : PyDict κ ν) (k : κ) : Bool := m.has k
/-- `map.containsValue` with a value (102-118). -/
def containsValue (eq : ν → ν → Bool) (m : PyDict κ ν) (v : ν) : Bool := (mapValues m).any (fun x => eq x v)
/-- `map.containsKey` with a function (95-99). -/
def containsKeyFcn (m : PyDict κ ν) (f : κ → Eff σ Bool) : Eff σ Bool := anyA f m.keys
/-- `map.containsValue` with a function (110-114). -/
def containsValueFcn (m : PyDict κ ν) (f : ν → Eff σ Bool) : Eff σ Bool := anyA f (mapValues m)
/-- `map.add` with a key (122-131): `dict(m, **{key: value})`. -/
def mapAdd (m : PyDict κ ν) (k : κ) (v : ν) : PyDict κ ν := m.set k v
/-- `map.add` with an item (132-135). -/
def mapAddItem (toKey : ν → κ) (m : PyDict κ ν) (v : ν) : PyDict κ ν := m.set (toKey v) v
/-- `map.remove` (137-148). -/
def mapRemove (m : PyDict κ ν) (k : κ) : PyDict κ ν := m.del k
/-- `map.only` (150-156). -/
def mapOnly (m : PyDict κ ν) (ks : List κ) : PyDict κ ν := dictOf (m.filter (fun p => decide (p.1 ∈ ks)))
/-- `map.except` (158-164). -/
def mapExcept (m : PyDict κ ν) (ks : List κ) : PyDict κ ν := dictOf (m.filter (fun p => decide (p.1 ∉ ks)))
/-- `map.update` (166-172). -/
def mapUpdate (base overlay : PyDict κ ν) : PyDict κ ν := dictOf (base ++ overlay)
/-- `map.split` (174-180). -/
def mapSplit (m : PyDict κ ν) : List (PyDict κ ν) := m.map (fun p => [p])
/-- `map.join` (182-191). -/
def mapJoin (a : List (PyDict κ ν)) : PyDict κ ν := dictOf a.flatten
/-- `map.toset` (329-335). -/
def toSet (toKey : ν → κ) (a : List ν) : PyDict κ ν := dictOf (a.map (fun x => (toKey x, x)))
/-- `map.fromset` (337-343). -/
def fromSet (s : PyDict κ ν) : List ν := s.map (·.2)
/-- `map.in` (345-351). -/
def inSet (toKey : ν → κ) (s : PyDict κ ν) (x : ν) : Bool := s.has (toKey x)
/-- `map.union` (353-359). -/
def mapUnion (a b : PyDict κ ν) : PyDict κ ν := dictOf (a ++ b)
/-- `map.intersection` (361-367). -/
def mapIntersection (a b : PyDict κ ν) : PyDict κ ν := dictOf (a.filter (fun p => b.has p.1))
/-- `map.diff` (369-375). -/
def mapDiff (a b : PyDict κ ν) : PyDict κ ν := dictOf (a.filter (fun p => !b.has p.1))
/-- `map.symdiff` (377-384): `cc` is the symmetric difference of the key sets. -/
def mapSymDiff (a b : PyDict κ ν) : PyDict κ ν :=
  dictOf ((a ++ b).filter (fun p => xor (a.has p.1) (b.has p.1)))
/-- `map.subset` (386-392). -/
def mapSubset (little big : PyDict κ ν) : Bool := little.keys.all (fun k => big.has k)
/-- `map.disjoint` (394-400). -/
def mapDisjoint (a b : PyDict κ ν) : Bool := (a.keys.filter (fun k => b.has k)).length == 0

/-- The loop `for k, v in m.items()`: call the function, then change the output. -/
def forItems (f : κ × ν → Eff σ β) (upd : PyDict κ γ → κ × ν → β → PyDict κ γ) :
    PyDict κ γ → List (κ × ν) → Eff σ (PyDict κ γ)
  | out, [], s => (.ok out, s)
  | out, p :: ps, s =>
    match f p s with
    | (.error e, s1) => (.error e, s1)
    | (.ok b, s1) => forItems f upd (upd out p b) ps s1

/-- `map.mapWithKey` (412-418). -/
def mapWithKey (f : κ → ν → Eff σ β) (m : PyDict κ ν) : Eff σ (PyDict κ β) :=
  forItems (fun p => f p.1 p.2) (fun out p b => out.set p.1 b) [] m
/-- `map.map` (404-410). -/
def mapMap (f : ν → Eff σ β) (m : PyDict κ ν) : Eff σ (PyDict κ β) := mapWithKey (fun _ => f) m
/-- `map.filterWithKey` (428-434). -/
def mapFilterWithKey (f : κ → ν → Eff σ Bool) (m : PyDict κ ν) : Eff σ (PyDict κ ν) :=
  forItems (fun p => f p.1 p.2) (fun out p b => if b then out.set p.1 p.2 else out) [] m
/-- `map.filter` (420-426). -/
def mapFilter (f : ν → Eff σ Bool) (m : PyDict κ ν) : Eff σ (PyDict κ ν) := mapFilterWithKey (fun _ => f) m
/-- `map.filterMapWithKey` (454-470). -/
def mapFilterMapWithKey (typeNames : List String) (f : κ → ν → Eff σ Val) (m : PyDict κ ν) :
    Eff σ (PyDict κ Val) :=
  forItems (fun p => f p.1 p.2)
    (fun out p b => match dropOrUntag typeNames b with | none => out | some v => out.set p.1 v) [] m
/-- `map.filterMap` (436-452). -/
def mapFilterMap (typeNames : List String) (f : ν → Eff σ Val) (m : PyDict κ ν) :
    Eff σ (PyDict κ Val) := mapFilterMapWithKey typeNames (fun _ => f) m
/-- `map.flatMapWithKey` (484-494). -/
def mapFlatMapWithKey (f : κ → ν → Eff σ (PyDict κ β)) (m : PyDict κ ν) : Eff σ (PyDict κ β) :=
  forItems (fun p => f p.1 p.2) (fun out _ b => out.update b) [] m
/-- `map.flatMap` (472-482). -/
def mapFlatMap (f : ν → Eff σ (PyDict κ β)) (m : PyDict κ ν) : Eff σ (PyDict κ β) :=
  mapFlatMapWithKey (fun _ => f) m

/-- `[x[k] for x in maps]`; a missing key raises KeyError. -/
def columnAt (maps : List (PyDict κ ν)) (k : κ) : Res (List ν) :=
  match maps with
  | [] => .ok []
  | m :: ms =>
    match m.get? k with
    | none => .error (.py "KeyError")
    | some v =>
      match columnAt ms k with
      | .error e => .error e
      | .ok vs => .ok (v :: vs)

/-- `map.zipmapWithKey` (515-532), for any number of maps; `code` is 26380, and 26370 for
`map.zipmap`. -/
def zipmapCode (code : Int) (f : κ → List ν → Eff σ β) (m : PyDict κ ν) (rest : List (PyDict κ ν)) :
    Eff σ (PyDict κ β) :=
  if rest.all (fun m' => m'.keys == m.keys) then
    forItems (fun p s => match columnAt (m :: rest) p.1 with
      | .error e => (.error e, s)
      | .ok vs => f p.1 vs s) (fun out p b => out.set p.1 b) [] (m.keys.map (fun k => (k, ())))
  else fun s => (.error (.rt code), s)

/-- `map.zipmapWithKey`. -/
def mapZipmapWithKey (f : κ → List ν → Eff σ β) (m : PyDict κ ν) (rest : List (PyDict κ ν)) :
    Eff σ (PyDict κ β) := zipmapCode 26380 f m rest
/-- `map.zipmap` (496-513). -/
def mapZipmap (f : List ν → Eff σ β) (m : PyDict κ ν) (rest : List (PyDict κ ν)) :
    Eff σ (PyDict κ β) := zipmapCode 26370 (fun _ => f) m rest

/-- `map.correspondsWithKey` (549-560).  `order` is the order in which Python iterates over the
set of keys of `a`. -/
def mapCorrespondsWithKey (order : List κ) (f : κ → ν → ν → Eff σ Bool) (a b : PyDict κ ν) : Eff σ Bool :=
  if (a.keys.all (fun k => b.has k)) && (b.keys.all (fun k => a.has k)) then
    allA (fun k s => match a.get? k, b.get? k with
      | some x, some y => f k x y s
      | _, _ => (.error (.py "KeyError"), s)) order
  else fun s => (.ok false, s)
/-- `map.corresponds` (536-547). -/
def mapCorresponds (order : List κ) (f : ν → ν → Eff σ Bool) (a b : PyDict κ ν) : Eff σ Bool :=
  mapCorrespondsWithKey order (fun _ => f) a b

/-! ## Dict construction -/

theorem foldl_set_get (items : List (κ × ν)) (d : PyDict κ ν) (k : κ) :
    (items.foldl (fun d p => d.set p.1 p.2) d).get? k =
      ((items.reverse.find? (fun p => decide (p.1 = k))).map (·.2)).or (d.get? k) := by
  induction items generalizing d with
  | nil => simp
  | cons p ps ih =>
    rw [List.foldl_cons, ih, PyDict.get?_set, List.reverse_cons, List.find?_append]
    cases hf : ps.reverse.find? (fun p => decide (p.1 = k)) with
    | some q => simp
    | none =>
      by_cases hk : p.1 = k <;> simp [hk]

theorem foldl_set_wf (items : List (κ × ν)) (d : PyDict κ ν) (hd : d.WF) :
    (items.foldl (fun d p => d.set p.1 p.2) d).WF := by
  induction items generalizing d with
  | nil => exact hd
  | cons p ps ih => exact ih _ (PyDict.set_nodup hd _ _)

theorem nil_wf : PyDict.WF ([] : PyDict κ ν) := List.nodup_nil

/-- `dict(pairs)` is well formed, and a key has the value of the last pair with that key. -/
theorem dictOf_spec (items : List (κ × ν)) :
    (dictOf items).WF ∧
      ∀ k, (dictOf items).get? k = (items.reverse.find? (fun p => decide (p.1 = k))).map (·.2) := by
  refine ⟨foldl_set_wf _ _ nil_wf, fun k => ?_⟩
  rw [dictOf, foldl_set_get]; simp

theorem set_append_new (d : PyDict κ ν) (k : κ) (v : ν) (h : k ∉ d.keys) : d.set k v = d ++ [(k, v)] := by
  induction d with
  | nil => rfl
  | cons p d ih =>
    obtain ⟨k0, v0⟩ := p
    simp only [PyDict.keys, List.map_cons, List.mem_cons, not_or] at h
    simp only [PyDict.set]
    rw [if_neg (fun e => h.1 e.symm), ih h.2]; rfl

theorem foldl_set_nodup (items : List (κ × ν)) (d : PyDict κ ν)
    (h : (d.keys ++ items.map (·.1)).Nodup) :
    items.foldl (fun d p => d.set p.1 p.2) d = d ++ items := by
  induction items generalizing d with
  | nil => simp
  | cons p ps ih =>
    have hp : p.1 ∉ d.keys := by
      intro hm
      exact (List.nodup_append.1 h).2.2 p.1 hm p.1 (by simp) rfl
    rw [List.foldl_cons, set_append_new d p.1 p.2 hp, ih]
    · simp
    · simpa [PyDict.keys] using h

theorem dictOf_of_wf (items : List (κ × ν)) (h : PyDict.WF items) : dictOf items = items := by
  rw [dictOf, foldl_set_nodup]
  · rfl
  · simpa [PyDict.keys, PyDict.WF] using h

theorem filter_wf (m : PyDict κ ν) (h : m.WF) (f : κ × ν → Bool) : PyDict.WF (m.filter f) :=
  List.Nodup.sublist (List.filter_sublist.map _) h

/-- Filtering a dict by a condition on the keys. -/
theorem filter_get (m : PyDict κ ν) (f : κ → Bool) (k : κ) :
    PyDict.get? (m.filter (fun p => f p.1)) k = if f k then m.get? k else none := by
  induction m with
  | nil => simp
  | cons p m ih =>
    obtain ⟨k0, v0⟩ := p
    simp only [List.filter_cons]
    by_cases hf : f k0 = true
    · rw [if_pos hf, PyDict.get?_cons, PyDict.get?_cons, ih]
      by_cases hk : k0 = k
      · subst hk; simp [hf]
      · simp [hk]
    · rw [if_neg hf, PyDict.get?_cons, ih]
      by_cases hk : k0 = k
      · subst hk; simp [hf]
      · simp [hk]

theorem find?_get (m : PyDict κ ν) (k : κ) :
    (m.find? (fun p => decide (p.1 = k))).map (·.2) = m.get? k := by
  induction m with
  | nil => rfl
  | cons p m ih =>
    obtain ⟨k0, v0⟩ := p
    rw [PyDict.get?_cons]
    by_cases hk : k0 = k <;> simp [hk, ih]

theorem find?_reverse_get (m : PyDict κ ν) (hm : m.WF) (k : κ) :
    (m.reverse.find? (fun p => decide (p.1 = k))).map (·.2) = m.get? k := by
  rw [← (dictOf_spec m).2, dictOf_of_wf m hm]

/-! ## First-order functions: finite-map meaning -/

/-- Lookups: `len`, `keys`, `values`, `containsKey`, `containsValue` in terms of `get?`. -/
theorem map_access (m : PyDict κ ν) (hm : m.WF) (eq : ν → ν → Bool) :
    (mapKeys m).Nodup ∧ (∀ k, k ∈ mapKeys m ↔ (m.get? k).isSome) ∧
    mapLen m = (mapKeys m).length ∧
    (mapValues m).map some = (mapKeys m).map (fun k => m.get? k) ∧
    (∀ k, containsKey m k = true ↔ ∃ v, m.get? k = some v) ∧
    (∀ v, containsValue eq m v = true ↔ ∃ k x, m.get? k = some x ∧ eq x v = true) := by
  refine ⟨hm, fun k => (PyDict.get?_isSome_iff _ _).symm, by simp [mapLen, mapKeys, PyDict.keys], ?_, ?_, ?_⟩
  · simp only [mapValues, mapKeys, PyDict.keys, List.map_map]
    apply List.map_congr_left
    intro p hp
    exact (PyDict.get?_of_mem hm (k := p.1) (v := p.2) hp).symm
  · intro k; simp [containsKey, PyDict.has, Option.isSome_iff_exists]
  · intro v
    simp only [containsValue, mapValues, List.any_eq_true, List.mem_map]
    constructor
    · rintro ⟨x, ⟨p, hp, rfl⟩, he⟩
      exact ⟨p.1, p.2, PyDict.get?_of_mem hm hp, he⟩
    · rintro ⟨k, x, hg, he⟩
      exact ⟨x, ⟨(k, x), PyDict.mem_of_get? hg, rfl⟩, he⟩

/-- `map.add`, `map.remove`, `map.only`, `map.except`. -/
theorem map_edit (m : PyDict κ ν) (hm : m.WF) (k : κ) (v : ν) (ks : List κ) :
    (∀ k', (mapAdd m k v).get? k' = if k' = k then some v else m.get? k') ∧ (mapAdd m k v).WF ∧
    (∀ k', (mapRemove m k).get? k' = if k' = k then none else m.get? k') ∧ (mapRemove m k).WF ∧
    (∀ k', (mapOnly m ks).get? k' = if k' ∈ ks then m.get? k' else none) ∧ (mapOnly m ks).WF ∧
    (∀ k', (mapExcept m ks).get? k' = if k' ∈ ks then none else m.get? k') ∧ (mapExcept m ks).WF := by
  refine ⟨fun k' => ?_, PyDict.set_nodup hm _ _, fun k' => ?_, PyDict.del_nodup hm _, fun k' => ?_,
    (dictOf_spec _).1, fun k' => ?_, (dictOf_spec _).1⟩
  · rw [mapAdd, PyDict.get?_set]; simp only [eq_comm]
  · rw [mapRemove, PyDict.get?_del hm]; simp only [eq_comm]
  · rw [mapOnly, dictOf_of_wf _ (filter_wf m hm _), filter_get m (fun k => decide (k ∈ ks))]; simp
  · rw [mapExcept, dictOf_of_wf _ (filter_wf m hm _), filter_get m (fun k => decide (k ∉ ks))]
    by_cases h : k' ∈ ks <;> simp [h]

/-- `map.update` and `map.union`: the second map wins. -/
theorem map_update (a b : PyDict κ ν) (ha : a.WF) (hb : b.WF) (k : κ) :
    (mapUpdate a b).get? k = (b.get? k).or (a.get? k) ∧
    (mapUnion a b).get? k = (b.get? k).or (a.get? k) ∧ (mapUpdate a b).WF := by
  have : (dictOf (a ++ b)).get? k = (b.get? k).or (a.get? k) := by
    rw [(dictOf_spec _).2, List.reverse_append, List.find?_append, Option.map_or,
      find?_reverse_get a ha, find?_reverse_get b hb]
  exact ⟨this, this, (dictOf_spec _).1⟩

/-- `map.join`: the last map with the key wins. -/
theorem map_join (ms : List (PyDict κ ν)) (h : ∀ m ∈ ms, m.WF) (k : κ) :
    (mapJoin ms).get? k = (ms.reverse.findSome? (fun m => m.get? k)) ∧ (mapJoin ms).WF := by
  refine ⟨?_, (dictOf_spec _).1⟩
  rw [mapJoin, (dictOf_spec _).2]
  induction ms with
  | nil => rfl
  | cons m ms ih =>
    rw [List.flatten_cons, List.reverse_append, List.find?_append, Option.map_or,
      find?_reverse_get m (h m (by simp)), ih (fun m' hm' => h m' (by simp [hm'])),
      List.reverse_cons, List.findSome?_append]
    congr 1
    simp only [List.findSome?_cons, List.findSome?_nil]
    split <;> simp_all

/-- `map.split` then `map.join` gives the map back; every part has one entry. -/
theorem map_split_join (m : PyDict κ ν) (hm : m.WF) :
    mapJoin (mapSplit m) = m ∧ ∀ p ∈ mapSplit m, mapLen p = 1 := by
  constructor
  · rw [mapJoin, mapSplit]
    have : (m.map (fun p => [p])).flatten = m := by
      induction m with
      | nil => rfl
      | cons p m ih => simp [ih (List.nodup_cons.1 hm).2]
    rw [this, dictOf_of_wf m hm]
  · intro p hp
    obtain ⟨q, _, rfl⟩ := List.mem_map.1 hp
    rfl

/-- Set-like functions on maps. -/
theorem map_sets (a b : PyDict κ ν) (ha : a.WF) (hb : b.WF) :
    (∀ k, (mapIntersection a b).get? k = if (b.get? k).isSome then a.get? k else none) ∧
    (∀ k, (mapDiff a b).get? k = if (b.get? k).isSome then none else a.get? k) ∧
    (∀ k, (mapSymDiff a b).get? k =
      if (a.get? k).isSome ∧ (b.get? k).isSome then none else (a.get? k).or (b.get? k)) ∧
    (mapSubset a b = true ↔ ∀ k, (a.get? k).isSome → (b.get? k).isSome) ∧
    (mapDisjoint a b = true ↔ ∀ k, ¬ ((a.get? k).isSome ∧ (b.get? k).isSome)) := by
  refine ⟨fun k => ?_, fun k => ?_, fun k => ?_, ?_, ?_⟩
  · rw [mapIntersection, dictOf_of_wf _ (filter_wf a ha _), filter_get a (fun k => b.has k)]; rfl
  · rw [mapDiff, dictOf_of_wf _ (filter_wf a ha _), filter_get a (fun k => !b.has k)]
    by_cases h : (b.get? k).isSome = true <;> simp [PyDict.has, h]
  · have hfa := filter_wf a ha (fun p => xor (a.has p.1) (b.has p.1))
    have hfb := filter_wf b hb (fun p => xor (a.has p.1) (b.has p.1))
    have h := (map_update _ _ hfa hfb k).2.1
    rw [mapUnion, ← List.filter_append] at h
    rw [mapSymDiff, h, filter_get b (fun k => xor (a.has k) (b.has k)),
      filter_get a (fun k => xor (a.has k) (b.has k))]
    simp only [PyDict.has]
    clear h hfa hfb
    rcases Option.eq_none_or_eq_some (a.get? k) with h1 | ⟨x, h1⟩ <;>
      rcases Option.eq_none_or_eq_some (b.get? k) with h2 | ⟨y, h2⟩ <;>
      (simp only [h1, h2]; simp)
  · simp only [mapSubset, List.all_eq_true, PyDict.has, ← PyDict.get?_isSome_iff]
  · simp only [mapDisjoint, beq_iff_eq, List.length_eq_zero_iff, List.filter_eq_nil_iff,
      ← PyDict.get?_isSome_iff, PyDict.has, not_and]

/-- Sets as maps: the keys of `map.toset` are the keys of the elements; `map.in` and
`map.fromset` agree with the array, provided `toKey` separates the values. -/
theorem toset_spec (toKey : ν → κ) (hinj : ∀ x y, toKey x = toKey y → x = y) (a : List ν) :
    (∀ x, inSet toKey (toSet toKey a) x = true ↔ x ∈ a) ∧
    (∀ x, x ∈ fromSet (toSet toKey a) ↔ x ∈ a) ∧ (fromSet (toSet toKey a)).Nodup ∧
    (∀ x y, y ∈ fromSet (mapAddItem toKey (toSet toKey a) x) ↔ y = x ∨ y ∈ a) := by
  have hget : ∀ k v, (toSet toKey a).get? k = some v ↔ v ∈ a ∧ toKey v = k := by
    intro k v
    rw [toSet, (dictOf_spec _).2, ← List.map_reverse]
    constructor
    · intro h
      obtain ⟨p, hp, rfl⟩ := Option.map_eq_some_iff.1 h
      have h1 := List.mem_of_find?_eq_some hp
      have h2 := List.find?_some hp
      obtain ⟨x, hx, rfl⟩ := List.mem_map.1 h1
      exact ⟨by simpa using hx, by simpa using h2⟩
    · rintro ⟨hv, rfl⟩
      cases hf : (a.reverse.map (fun x => (toKey x, x))).find? (fun p => decide (p.1 = toKey v)) with
      | none =>
        rw [List.find?_eq_none] at hf
        exact absurd (hf (toKey v, v) (List.mem_map.2 ⟨v, by simpa using hv, rfl⟩)) (by simp)
      | some p =>
        have h1 := List.mem_of_find?_eq_some hf
        have h2 := List.find?_some hf
        obtain ⟨x, _, rfl⟩ := List.mem_map.1 h1
        simp only [decide_eq_true_eq] at h2
        simp [hinj _ _ h2]
  have hwf : (toSet toKey a).WF := (dictOf_spec _).1
  have hfrom : ∀ (s : PyDict κ ν), s.WF → ∀ x, x ∈ fromSet s ↔ ∃ k, s.get? k = some x := by
    intro s hs x
    simp only [fromSet, List.mem_map]
    constructor
    · rintro ⟨p, hp, rfl⟩; exact ⟨p.1, PyDict.get?_of_mem hs hp⟩
    · rintro ⟨k, hk⟩; exact ⟨(k, x), PyDict.mem_of_get? hk, rfl⟩
  refine ⟨fun x => ?_, fun x => ?_, ?_, fun x y => ?_⟩
  · rw [inSet, PyDict.has, Option.isSome_iff_exists]
    constructor
    · rintro ⟨v, hv⟩
      obtain ⟨h1, h2⟩ := (hget _ _).1 hv
      rw [hinj _ _ h2] at h1; exact h1
    · intro hx; exact ⟨x, (hget _ _).2 ⟨hx, rfl⟩⟩
  · rw [hfrom _ hwf]
    constructor
    · rintro ⟨k, hk⟩; exact ((hget _ _).1 hk).1
    · intro hx; exact ⟨toKey x, (hget _ _).2 ⟨hx, rfl⟩⟩
  · have hk : (toSet toKey a).keys = (fromSet (toSet toKey a)).map toKey := by
      simp only [PyDict.keys, fromSet, List.map_map]
      apply List.map_congr_left
      intro p hp
      exact (((hget p.1 p.2).1 (PyDict.get?_of_mem hwf hp)).2).symm
    have := hwf
    rw [PyDict.WF, hk] at this
    exact List.Nodup.of_map _ this
  · rw [mapAddItem, hfrom _ (PyDict.set_nodup hwf _ _)]
    constructor
    · rintro ⟨k, hk⟩
      rw [PyDict.get?_set] at hk
      split at hk
      · exact .inl (Option.some.inj hk).symm
      · exact .inr ((hget _ _).1 hk).1
    · rintro (rfl | hy)
      · exact ⟨toKey y, by simp⟩
      · by_cases h : toKey x = toKey y
        · exact ⟨toKey y, by rw [PyDict.get?_set, if_pos h, hinj _ _ h]⟩
        · exact ⟨toKey y, by rw [PyDict.get?_set, if_neg h, (hget _ _).2 ⟨hy, rfl⟩]⟩

/-! ## Higher-order functions -/

theorem forItems_ok (f : κ × ν → Eff σ β) (upd : PyDict κ γ → κ × ν → β → PyDict κ γ)
    (tr : List ((κ × ν) × β)) (s s' : σ) (hc : Chain f s tr s') (out : PyDict κ γ) :
    forItems f upd out (tr.map (·.1)) s = (.ok (tr.foldl (fun d q => upd d q.1 q.2) out), s') := by
  induction hc generalizing out with
  | nil s => rfl
  | cons h _ ih => simp only [List.map_cons, forItems, h]; exact ih _

/-- Any function that raises on the items makes the map function raise the same. -/
theorem forItems_raises (f : κ × ν → Eff σ β) (upd : PyDict κ γ → κ × ν → β → PyDict κ γ)
    (tr : List ((κ × ν) × β)) (p : κ × ν) (rest : List (κ × ν)) (s s1 s2 : σ) (e : Err)
    (hc : Chain f s tr s1) (hx : f p s1 = (.error e, s2)) (out : PyDict κ γ) :
    forItems f upd out (tr.map (·.1) ++ p :: rest) s = (.error e, s2) := by
  induction hc generalizing out with
  | nil s => simp [forItems, hx]
  | cons h _ ih => simp only [List.map_cons, List.cons_append, forItems, h]; exact ih hx _

/-- Looking up in a fold that sets, for some of the items, the item's key: keys of items are
distinct, so each key is set by its own item only. -/
theorem foldl_opt_get {γ : Type _} (g : (κ × ν) × β → Option γ) (tr : List ((κ × ν) × β)) (out : PyDict κ γ)
    (hnd : (tr.map (fun q => q.1.1)).Nodup) (k : κ) (b : γ) (ho : ∀ q ∈ tr, out.get? q.1.1 = none) :
    (tr.foldl (fun d q => match g q with | none => d | some v => d.set q.1.1 v) out).get? k = some b ↔
      (∃ q ∈ tr, q.1.1 = k ∧ g q = some b) ∨ out.get? k = some b := by
  induction tr generalizing out with
  | nil => simp
  | cons q tr ih =>
    obtain ⟨hq, hnd'⟩ := List.nodup_cons.1 hnd
    rw [List.foldl_cons]
    cases hg : g q with
    | none =>
      rw [ih out hnd' (fun q' h' => ho q' (by simp [h']))]
      simp [hg]
    | some v =>
      have hne : ∀ q' ∈ tr, q.1.1 ≠ q'.1.1 := by
        intro q' h' he
        exact hq (List.mem_map.2 ⟨q', h', he.symm⟩)
      rw [ih _ hnd' (fun q' h' => by
        rw [PyDict.get?_set, if_neg (hne q' h')]; exact ho q' (by simp [h'])), PyDict.get?_set]
      constructor
      · rintro (⟨q', h', h1, h2⟩ | h)
        · exact .inl ⟨q', by simp [h'], h1, h2⟩
        · by_cases hk : q.1.1 = k
          · rw [if_pos hk] at h; exact .inl ⟨q, by simp, hk, by rw [hg, h]⟩
          · rw [if_neg hk] at h; exact .inr h
      · rintro (⟨q', h', h1, h2⟩ | h)
        · rcases List.mem_cons.1 h' with rfl | h'
          · rw [if_pos h1]; rw [hg] at h2; exact .inr h2
          · exact .inl ⟨q', h', h1, h2⟩
        · by_cases hk : q.1.1 = k
          · rw [← hk, ho q (by simp)] at h; cases h
          · rw [if_neg hk]; exact .inr h

theorem trace_nodup (m : PyDict κ ν) (hm : m.WF) (tr : List ((κ × ν) × β)) (ht : tr.map (·.1) = m) :
    (tr.map (fun q => q.1.1)).Nodup := by
  have : tr.map (fun q => q.1.1) = m.keys := by rw [← ht, PyDict.keys, List.map_map]; rfl
  rw [this]; exact hm

theorem mapWithKey_ok (f : κ → ν → Eff σ β) (m : PyDict κ ν) (hm : m.WF) (tr : List ((κ × ν) × β))
    (s s' : σ) (hc : Chain (fun p : κ × ν => f p.1 p.2) s tr s') (ht : tr.map (·.1) = m) :
    ∃ d, mapWithKey f m s = (.ok d, s') ∧
      ∀ k b, d.get? k = some b ↔ ∃ v, ((k, v), b) ∈ tr := by
  subst ht
  refine ⟨_, forItems_ok _ _ tr s s' hc [], fun k b => ?_⟩
  have h := foldl_opt_get (fun q => some q.2) tr [] (trace_nodup _ hm tr rfl) k b (by simp)
  rw [h]
  constructor
  · rintro (⟨⟨⟨k', v⟩, b'⟩, hq, rfl, he⟩ | h)
    · cases he; exact ⟨v, hq⟩
    · cases h
  · rintro ⟨v, hq⟩; exact .inl ⟨_, hq, rfl, rfl⟩

theorem mapFilterWithKey_ok (f : κ → ν → Eff σ Bool) (m : PyDict κ ν) (hm : m.WF)
    (tr : List ((κ × ν) × Bool)) (s s' : σ) (hc : Chain (fun p : κ × ν => f p.1 p.2) s tr s')
    (ht : tr.map (·.1) = m) :
    ∃ d, mapFilterWithKey f m s = (.ok d, s') ∧
      ∀ k v, d.get? k = some v ↔ ((k, v), true) ∈ tr := by
  subst ht
  refine ⟨_, forItems_ok _ _ tr s s' hc [], fun k v => ?_⟩
  have h := foldl_opt_get (fun q => if q.2 = true then some q.1.2 else none) tr []
    (trace_nodup _ hm tr rfl) k v (by simp)
  have e : (fun (d : PyDict κ ν) (q : (κ × ν) × Bool) =>
      (match (if q.2 = true then some q.1.2 else none) with | none => d | some v => d.set q.1.1 v)) =
      fun d q => if q.2 = true then d.set q.1.1 q.1.2 else d := by
    funext d q; cases q.2 <;> rfl
  rw [e] at h
  rw [h]
  constructor
  · rintro (⟨⟨⟨k', v'⟩, b⟩, hq, rfl, he⟩ | h)
    · cases b
      · cases he
      · cases he; exact hq
    · cases h
  · intro hq; exact .inl ⟨_, hq, rfl, rfl⟩

theorem mapFilterMapWithKey_ok (names : List String) (f : κ → ν → Eff σ Val) (m : PyDict κ ν) (hm : m.WF)
    (tr : List ((κ × ν) × Val)) (s s' : σ) (hc : Chain (fun p : κ × ν => f p.1 p.2) s tr s')
    (ht : tr.map (·.1) = m) :
    ∃ d, mapFilterMapWithKey names f m s = (.ok d, s') ∧
      ∀ k b, d.get? k = some b ↔ ∃ v r, ((k, v), r) ∈ tr ∧ dropOrUntag names r = some b := by
  subst ht
  refine ⟨_, forItems_ok _ _ tr s s' hc [], fun k b => ?_⟩
  have h := foldl_opt_get (fun q => dropOrUntag names q.2) tr [] (trace_nodup _ hm tr rfl) k b (by simp)
  refine Iff.trans (Eq.to_iff ?_) (h.trans ?_)
  · congr 2
    congr 1
    funext d q
    cases dropOrUntag names q.2 <;> rfl
  · constructor
    · rintro (⟨⟨⟨k', v'⟩, r⟩, hq, rfl, he⟩ | h)
      · exact ⟨v', r, hq, he⟩
      · cases h
    · rintro ⟨v, r, hq, he⟩; exact .inl ⟨_, hq, rfl, he⟩

theorem mapFlatMapWithKey_ok (f : κ → ν → Eff σ (PyDict κ β)) (m : PyDict κ ν)
    (tr : List ((κ × ν) × PyDict κ β)) (hw : ∀ q ∈ tr, q.2.WF) (s s' : σ)
    (hc : Chain (fun p : κ × ν => f p.1 p.2) s tr s') (ht : tr.map (·.1) = m) :
    ∃ d, mapFlatMapWithKey f m s = (.ok d, s') ∧
      ∀ k, d.get? k = tr.reverse.findSome? (fun q => q.2.get? k) := by
  subst ht
  refine ⟨_, forItems_ok _ _ tr s s' hc [], fun k => ?_⟩
  have key : ∀ (tr : List ((κ × ν) × PyDict κ β)) (out : PyDict κ β), (∀ q ∈ tr, q.2.WF) →
      (tr.foldl (fun d q => d.update q.2) out).get? k =
        (tr.reverse.findSome? (fun q => q.2.get? k)).or (out.get? k) := by
    intro tr
    induction tr with
    | nil => simp
    | cons q tr ih =>
      intro out hw
      rw [List.foldl_cons, ih _ (fun q' h' => hw q' (by simp [h'])), List.reverse_cons,
        List.findSome?_append, PyDict.update, foldl_set_get, find?_reverse_get _ (hw q (by simp))]
      cases tr.reverse.findSome? (fun q => q.2.get? k) with
      | some _ => simp
      | none => cases h : q.2.get? k <;> simp [h]
  have := key tr [] hw
  simpa using this

/-- Effect-free functions: the result depends only on the associations of the map, not on the
order of insertion. -/
theorem map_pure (g : κ → ν → β) (p : κ → ν → Bool) (m : PyDict κ ν) (hm : m.WF) (s : σ) :
    (∃ d, mapWithKey (fun k v => ret (g k v)) m s = (.ok d, s) ∧
      ∀ k, d.get? k = (m.get? k).map (g k)) ∧
    (∃ d, mapFilterWithKey (fun k v => ret (p k v)) m s = (.ok d, s) ∧
      ∀ k, d.get? k = (m.get? k).filter (p k)) := by
  constructor
  · obtain ⟨d, h1, h2⟩ := mapWithKey_ok (fun k v => ret (g k v)) m hm _ s s
      (chain_pure (fun q : κ × ν => g q.1 q.2) m s) (by simp [Function.comp_def])
    refine ⟨d, h1, fun k => Option.ext fun b => ?_⟩
    rw [h2]
    simp only [List.mem_map, Prod.mk.injEq, Option.map_eq_some_iff]
    constructor
    · rintro ⟨v, q, hq, rfl, rfl⟩; exact ⟨v, PyDict.get?_of_mem hm hq, rfl⟩
    · rintro ⟨v, hv, rfl⟩; exact ⟨v, _, PyDict.mem_of_get? hv, rfl, rfl⟩
  · obtain ⟨d, h1, h2⟩ := mapFilterWithKey_ok (fun k v => ret (p k v)) m hm _ s s
      (chain_pure (fun q : κ × ν => p q.1 q.2) m s) (by simp [Function.comp_def])
    refine ⟨d, h1, fun k => Option.ext fun b => ?_⟩
    rw [h2]
    simp only [List.mem_map, Prod.mk.injEq, Option.filter_eq_some_iff]
    constructor
    · rintro ⟨q, hq, rfl, hb⟩; exact ⟨PyDict.get?_of_mem hm hq, hb⟩
    · rintro ⟨hv, hb⟩; exact ⟨_, PyDict.mem_of_get? hv, rfl, hb⟩

/-! ## zipmap and corresponds -/

theorem columnAt_ok (maps : List (PyDict κ ν)) (k : κ) (h : ∀ m ∈ maps, k ∈ m.keys) :
    ∃ vs, columnAt maps k = .ok vs ∧ vs.map some = maps.map (fun m => m.get? k) := by
  induction maps with
  | nil => exact ⟨[], rfl, rfl⟩
  | cons m ms ih =>
    obtain ⟨vs, h1, h2⟩ := ih (fun m' h' => h m' (by simp [h']))
    obtain ⟨v, hv⟩ := Option.isSome_iff_exists.1 ((PyDict.get?_isSome_iff m k).2 (h m (by simp)))
    exact ⟨v :: vs, by simp [columnAt, hv, h1], by simp [hv, h2]⟩

theorem columnAt_getElem (maps : List (PyDict κ ν)) (k : κ) (vs : List ν) (h : columnAt maps k = .ok vs) :
    vs.map some = maps.map (fun m => m.get? k) := by
  induction maps generalizing vs with
  | nil => simp [columnAt] at h; subst h; rfl
  | cons m ms ih =>
    simp only [columnAt] at h
    split at h
    · cases h
    · next v hv =>
      split at h
      · cases h
      · next vs' hvs => cases h; simp [hv, ih _ hvs]

/-- `map.zipmap` when all maps list their keys in the same order: the function gets, for each key,
the values of the maps at this key. -/
theorem zipmap_aligned_partial (code : Int) (f : κ → List ν → Eff σ β) (m : PyDict κ ν)
    (rest : List (PyDict κ ν)) (hm : m.WF) (hk : ∀ m' ∈ rest, m'.keys = m.keys)
    (tr : List ((κ × List ν) × β)) (s s' : σ) (hc : Chain (fun p : κ × List ν => f p.1 p.2) s tr s')
    (ht : tr.map (fun q => q.1.1) = m.keys)
    (hv : ∀ q ∈ tr, q.1.2.map some = (m :: rest).map (fun m => m.get? q.1.1)) :
    ∃ d, zipmapCode code f m rest s = (.ok d, s') ∧
      ∀ k b, d.get? k = some b ↔ ∃ vs, ((k, vs), b) ∈ tr := by
  rw [zipmapCode, if_pos (by simpa using hk), ← ht, List.map_map]
  set F : κ × Unit → Eff σ β := fun p s => match columnAt (m :: rest) p.1 with
      | .error e => (.error e, s)
      | .ok vs => f p.1 vs s with hF
  have hcol : ∀ q ∈ tr, columnAt (m :: rest) q.1.1 = .ok q.1.2 := by
    intro q hq
    obtain ⟨vs, h1, h2⟩ := columnAt_ok (m :: rest) q.1.1 (by
      intro m' h'
      have : q.1.1 ∈ m.keys := ht ▸ List.mem_map.2 ⟨q, hq, rfl⟩
      rcases List.mem_cons.1 h' with rfl | h'
      · exact this
      · rw [hk m' h']; exact this)
    rw [h1, (List.map_injective_iff.2 (Option.some_injective _)) (h2.trans (hv q hq).symm)]
  have hchain : Chain F s (tr.map (fun q => ((q.1.1, ()), q.2))) s' := by
    clear ht hv
    induction hc with
    | nil s => exact .nil s
    | @cons s a b s1 tr s2 h _ ih =>
      refine .cons (s1 := s1) ?_ (ih (fun q hq => hcol q (by simp [hq])))
      have := hcol (a, b) (by simp)
      simp only [hF, this]; exact h
  have he : List.map ((fun k => (k, ())) ∘ fun q => q.1.1) tr =
      (tr.map (fun q => ((q.1.1, ()), q.2))).map (·.1) := by simp [Function.comp_def]
  rw [he]
  refine ⟨_, forItems_ok F _ _ s s' hchain [], fun k b => ?_⟩
  have h := foldl_opt_get (fun q => some q.2) (tr.map (fun q => ((q.1.1, ()), q.2))) [] (by
    rw [List.map_map]; simp only [Function.comp_def]; rw [ht]; exact hm) k b (by simp)
  rw [h]
  constructor
  · rintro (⟨q, hq, rfl, he⟩ | h)
    · obtain ⟨⟨⟨k', vs⟩, b'⟩, hq', rfl⟩ := List.mem_map.1 hq
      cases he; exact ⟨vs, hq'⟩
    · cases h
  · rintro ⟨vs, hq⟩; exact .inl ⟨_, List.mem_map.2 ⟨_, hq, rfl⟩, rfl, rfl⟩

/-- Maps whose key lists differ are refused. -/
theorem zipmap_misaligned_maps (code : Int) (f : κ → List ν → Eff σ β) (m : PyDict κ ν)
    (rest : List (PyDict κ ν)) (m' : PyDict κ ν) (h' : m' ∈ rest) (hne : m'.keys ≠ m.keys) (s : σ) :
    zipmapCode code f m rest s = (.error (.rt code), s) := by
  rw [zipmapCode, if_neg]
  simp only [List.all_eq_true, beq_iff_eq]
  intro h; exact hne (h m' h')

/-- Two maps with the same associations, built in a different order: `map.zipmap` gives different
answers (one is an error). -/
theorem zipmap_order_violation :
    ∃ (a b b' : PyDict String Int), a.WF ∧ b.WF ∧ b'.WF ∧ b.Equiv b' ∧
      mapZipmap (fun vs => ret vs.sum) a [b] () = (.ok [("x", 11), ("y", 22)], ()) ∧
      mapZipmap (fun vs => ret vs.sum) a [b'] () = (.error (.rt 26370), ()) := by
  refine ⟨[("x", 1), ("y", 2)], [("x", 10), ("y", 20)], [("y", 20), ("x", 10)],
    by decide, by decide, by decide, ?_, by decide, by decide⟩
  intro k
  simp only [PyDict.get?]
  by_cases h1 : "x" = k
  · subst h1; simp
  · by_cases h2 : "y" = k
    · subst h2; simp
    · simp [h1, h2]

/-- `map.corresponds` for an effect-free test: whatever the iteration order of the key set, true
exactly when the maps have the same keys and the test holds at every key. -/
theorem corresponds_map_spec (order : List κ) (t : κ → ν → ν → Bool) (a b : PyDict κ ν)
    (ho : ∀ k, k ∈ order ↔ k ∈ a.keys) (s : σ) :
    ∃ r, mapCorrespondsWithKey order (fun k x y => ret (t k x y)) a b s = (.ok r, s) ∧
      (r = true ↔ (∀ k, (a.get? k).isSome = (b.get? k).isSome) ∧
        ∀ k x y, a.get? k = some x → b.get? k = some y → t k x y = true) := by
  rw [mapCorrespondsWithKey]
  by_cases hs : ((a.keys.all (fun k => b.has k)) && (b.keys.all (fun k => a.has k))) = true
  · rw [if_pos hs]
    simp only [Bool.and_eq_true, List.all_eq_true, PyDict.has, ← PyDict.get?_isSome_iff] at hs
    have hsame : ∀ k, (a.get? k).isSome = (b.get? k).isSome := by
      intro k; rw [Bool.eq_iff_iff]; exact ⟨hs.1 k, hs.2 k⟩
    have key : ∀ (order : List κ), (∀ k ∈ order, (a.get? k).isSome) →
        ∃ r, allA (fun k s => match a.get? k, b.get? k with
          | some x, some y => (ret (t k x y) : Eff σ Bool) s
          | _, _ => (.error (.py "KeyError"), s)) order s = (.ok r, s) ∧
          (r = true ↔ ∀ k ∈ order, ∀ x y, a.get? k = some x → b.get? k = some y → t k x y = true) := by
      intro order
      induction order with
      | nil => exact fun _ => ⟨true, rfl, by simp⟩
      | cons k ks ih =>
        intro h
        obtain ⟨x, hx⟩ := Option.isSome_iff_exists.1 (h k (by simp))
        obtain ⟨y, hy⟩ := Option.isSome_iff_exists.1 ((hsame k) ▸ h k (by simp))
        obtain ⟨r, h1, h2⟩ := ih (fun k' h' => h k' (by simp [h']))
        simp only [allA, hx, hy, ret]
        cases ht : t k x y with
        | false =>
          refine ⟨false, rfl, by simp only [Bool.false_eq_true, false_iff]; intro hall; have := hall k (by simp) x y hx hy; rw [ht] at this; cases this⟩
        | true =>
          refine ⟨r, h1, ?_⟩
          rw [h2]
          constructor
          · intro hall k' hk' x' y' hx' hy'
            rcases List.mem_cons.1 hk' with rfl | hk'
            · rw [hx] at hx'; rw [hy] at hy'; cases hx'; cases hy'; exact ht
            · exact hall k' hk' x' y' hx' hy'
          · intro hall k' hk'; exact hall k' (by simp [hk'])
    obtain ⟨r, h1, h2⟩ := key order (fun k hk => (PyDict.get?_isSome_iff _ _).2 ((ho k).1 hk))
    refine ⟨r, h1, ?_⟩
    rw [h2]
    constructor
    · intro hall
      refine ⟨hsame, fun k x y hx hy => hall k ?_ x y hx hy⟩
      rw [ho, ← PyDict.get?_isSome_iff, hx]; rfl
    · intro hall k _ x y hx hy; exact hall.2 k x y hx hy
  · rw [if_neg hs]
    refine ⟨false, rfl, ?_⟩
    simp only [Bool.false_eq_true, false_iff]
    rintro ⟨hsame, _⟩
    apply hs
    simp only [Bool.and_eq_true, List.all_eq_true, PyDict.has, ← PyDict.get?_isSome_iff]
    exact ⟨fun k h => hsame k ▸ h, fun k h => (hsame k).symm ▸ h⟩

/-! ### Non-vacuity -/

example : mapUpdate [("a", 1), ("b", 2)] [("b", 3), ("c", 4)] = [("a", 1), ("b", 3), ("c", 4)] := by decide
example : mapSymDiff [("a", 1), ("b", 2)] [("b", 3), ("c", 4)] = [("a", 1), ("c", 4)] := by decide
example : (toSet (fun x : Int => x % 10) [1, 11, 2]) = [(1, 11), (2, 2)] := by decide
/-- A user function that counts calls and raises on negative values. -/
def probeKV (k : String) (v : Int) : Eff Nat Int := fun s =>
  if v < 0 then (.error (.rt 5), s + 1) else (.ok (v + k.length), s + 1)
example : mapWithKey probeKV [("a", 1), ("bb", 2)] 0 = (.ok [("a", 2), ("bb", 4)], 2) := by decide
example : mapWithKey probeKV [("a", 1), ("bb", -2), ("c", 3)] 0 = (.error (.rt 5), 2) := by decide
example : Chain (fun p : String × Int => probeKV p.1 p.2) 0 [(("a", 1), 2), (("bb", 2), 4)] 2 :=
  .cons rfl (.cons rfl (.nil _))

end Verif.Lib
