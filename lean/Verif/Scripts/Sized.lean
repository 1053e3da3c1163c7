import Verif.Scripts.Size
import Verif.Scripts.Externalized
/-! # Counting what is in cells and pools: theorems (C104) -/

namespace Verif.Scripts
open Avro Producer

/-! ## Counters and events -/

/-- How deep the brackets are. -/
structure Deep (es : List Event) (m : Int) : Prop where
  bound : ∀ a e b, es = a ++ e :: b → e.opens = true → 3 + level a ≤ m
  depth : m = 0 ∨ ∃ a e b, es = a ++ e :: b ∧ e.opens = true ∧ m = 3 + level a

/-- A counter for events, where `k` values were not counted as items of arrays or values of keys. -/
structure Near (k : Int) (es : List Event) (c : Counter) : Prop where
  strings : c.strings = (Scripts.strings es).length
  characters : c.characters = ((Scripts.strings es).map fun s => (s.length : Int)).sum
  numbers : c.numbers = es.countP Event.number
  atomics : c.atomics = es.countP Event.atomic
  objectValues : c.objectValues = es.countP Event.isKey
  arrayItems : c.arrayItems = (es.countP Event.value : Int) - es.countP Event.isKey - k
  deep : Deep es c.maxDepth

theorem Near.contains {es : List Event} {c : Counter} (h : Near 1 es c) : Contains es c :=
  ⟨h.strings, h.characters, h.numbers, h.atomics, h.objectValues, h.arrayItems, h.deep.bound, h.deep.depth⟩

theorem snoc_split {α : Type} {P a b : List α} {e x : α} (h : P ++ [e] = a ++ x :: b) :
    (b = [] ∧ a = P ∧ x = e) ∨ ∃ b', b = b' ++ [e] ∧ P = a ++ x :: b' := by
  rcases List.eq_nil_or_concat b with rfl | ⟨b', y, rfl⟩
  · have := List.append_inj' h rfl
    exact .inl ⟨rfl, this.1.symm, by simpa using this.2.symm⟩
  · right
    have h' : P ++ [e] = (a ++ x :: b') ++ [y] := by simpa using h
    have := List.append_inj' h' rfl
    have hy : e = y := by simpa using this.2
    exact ⟨b', by simp [hy], this.1⟩

theorem deep_skip {P : List Event} {m : Int} {e : Event} (he : e.opens = false) (h : Deep P m) : Deep (P ++ [e]) m := by
  constructor
  · intro a x b hs hx
    rcases snoc_split hs with ⟨_, _, rfl⟩ | ⟨b', _, hp⟩
    · rw [he] at hx; exact absurd hx (by simp)
    · exact h.bound a x b' hp hx
  · rcases h.depth with h | ⟨a, x, b, hp, hx, hm⟩
    · exact .inl h
    · exact .inr ⟨a, x, b ++ [e], by simp [hp], hx, hm⟩

theorem deep_open {P : List Event} {m d : Int} {e : Event} (he : e.opens = true) (h : Deep P m) (hd : d = 3 + level P) :
    Deep (P ++ [e]) (if d > m then d else m) := by
  constructor
  · intro a x b hs hx
    rcases snoc_split hs with ⟨_, rfl, _⟩ | ⟨b', _, hp⟩
    · split <;> omega
    · have := h.bound a x b' hp hx
      split <;> omega
  · split
    · exact .inr ⟨P, e, [], by simp, he, hd⟩
    · rcases h.depth with h | ⟨a, x, b, hp, hx, hm⟩
      · exact .inl h
      · exact .inr ⟨a, x, b ++ [e], by simp [hp], hx, hm⟩

theorem strings_append (a b : List Event) : strings (a ++ b) = strings a ++ strings b := by simp [strings]

theorem near_leaf {P : List Event} {c : Counter} (v : Val) (hv : (∀ xs, v ≠ .arr xs) ∧ ∀ d, v ≠ .dict d) (h : Near 0 P c) :
    Near 1 (P ++ [.leaf v]) (countLeaf v c) := by
  have hd := deep_skip (e := .leaf v) rfl h.deep
  obtain ⟨h1, h2, h3, h4, h5, h6, _⟩ := h
  cases v with
  | arr xs => exact absurd rfl (hv.1 xs)
  | dict d => exact absurd rfl (hv.2 d)
  | _ =>
    constructor <;> first | exact hd | (simp [countLeaf, strings_append, List.countP_append, h1, h2, h3, h4, h5, h6, Event.number, Event.atomic,
      Event.isKey, Event.value] <;> (try simp [strings]) <;> (try omega))

theorem near_open {P : List Event} {c : Counter} {e : Event} {d : Int} (he : e.opens = true) (hd : d = 3 + level P) (h : Near 0 P c) :
    Near 1 (P ++ [e]) { c with maxDepth := if d > c.maxDepth then d else c.maxDepth } := by
  have hd := deep_open he h.deep hd
  obtain ⟨h1, h2, h3, h4, h5, h6, _⟩ := h
  cases e <;> simp [Event.opens] at he <;> constructor <;>
    first | exact hd | (simp [strings_append, List.countP_append, h1, h2, h3, h4, h5, h6, Event.number, Event.atomic,
      Event.isKey, Event.value, Event.opens] <;> (try simp [strings]) <;> (try omega))

theorem near_close {P : List Event} {c : Counter} {e : Event} (he : e.closes = true) (h : Near 1 P c) : Near 1 (P ++ [e]) c := by
  have hd := deep_skip (e := e) (by cases e <;> simp_all [Event.closes, Event.opens]) h.deep
  obtain ⟨h1, h2, h3, h4, h5, h6, _⟩ := h
  cases e <;> simp [Event.closes] at he <;> constructor <;>
    first | exact hd | (simp [strings_append, List.countP_append, h1, h2, h3, h4, h5, h6, Event.number, Event.atomic,
      Event.isKey, Event.value, Event.opens] <;> (try simp [strings]))

theorem near_key {P : List Event} {c : Counter} (k : String) (h : Near 1 P c) :
    Near 0 (P ++ [.key k]) { c with objectValues := c.objectValues + 1 } := by
  have hd := deep_skip (e := .key k) rfl h.deep
  obtain ⟨h1, h2, h3, h4, h5, h6, _⟩ := h
  constructor <;> first | exact hd | (simp [strings_append, List.countP_append, h1, h2, h3, h4, h5, h6, Event.number, Event.atomic,
      Event.isKey, Event.value, Event.opens] <;> (try simp [strings]) <;> (try omega))

theorem near_item {P : List Event} {c : Counter} (h : Near 1 P c) : Near 0 P { c with arrayItems := c.arrayItems + 1 } :=
  ⟨h.strings, h.characters, h.numbers, h.atomics, h.objectValues, by have := h.arrayItems; simp only; omega, h.deep⟩

theorem near_zero : Near 0 [] Counter.zero :=
  ⟨rfl, rfl, rfl, rfl, rfl, rfl, ⟨by simp, .inl rfl⟩⟩

theorem level_append (a b : List Event) : level (a ++ b) = level a + level b := by
  simp only [level, List.countP_append]
  omega

mutual
theorem level_events (v : Val) : level (firstOf v :: restOf v) = 0 := by
  match v with
  | .arr xs =>
    have : level (firstOf (.arr xs) :: restOf (.arr xs)) = level [Event.startArr] + level (eventsL xs) + level [Event.endArr] := by
      rw [← level_append, ← level_append]; rfl
    rw [this, level_eventsL xs]; rfl
  | .dict d =>
    have : level (firstOf (.dict d) :: restOf (.dict d)) = level [Event.startMap] + level (eventsD d) + level [Event.endMap] := by
      rw [← level_append, ← level_append]; rfl
    rw [this, level_eventsD d]; rfl
  | .null => rfl
  | .bool _ => rfl
  | .int _ => rfl
  | .flt _ => rfl
  | .str _ => rfl
  | .bytes _ => rfl
theorem level_eventsL (xs : List Val) : level (eventsL xs) = 0 := by
  match xs with
  | [] => rfl
  | v :: xs =>
    have : level (eventsL (v :: xs)) = level (firstOf v :: restOf v) + level (eventsL xs) := by rw [← level_append]; rfl
    rw [this, level_events v, level_eventsL xs]; rfl
theorem level_eventsD (d : List (String × Val)) : level (eventsD d) = 0 := by
  match d with
  | [] => rfl
  | (k, v) :: d =>
    have : level (eventsD ((k, v) :: d)) = level [Event.key k] + level (firstOf v :: restOf v) + level (eventsD d) := by
      rw [← level_append, ← level_append]; rfl
    rw [this, level_events v, level_eventsD d]; rfl
end

/-! ## Beginnings that end with an opening bracket -/

/-- The beginnings that end with an opening bracket, after what was before. -/
def openings : List Event → List Event → List (List Event)
  | _, [] => []
  | P, e :: es => (if e.opens then [P ++ [e]] else []) ++ openings (P ++ [e]) es

theorem openings_append (P a b : List Event) : openings P (a ++ b) = openings P a ++ openings (P ++ a) b := by
  induction a generalizing P with
  | nil => simp [openings]
  | cons e a ih => simp [openings, ih]

theorem openings_inits (P es : List Event) :
    openings P es = ((es.inits.filter fun p => (p.getLast?.map Event.opens).getD false).map (P ++ ·)) := by
  induction es generalizing P with
  | nil => simp [openings]
  | cons e es ih =>
    have key : ((es.inits.map (e :: ·)).filter fun p => (p.getLast?.map Event.opens).getD false) =
        (if e.opens then [[e]] else []) ++ (es.inits.filter fun p => (p.getLast?.map Event.opens).getD false).map (e :: ·) := by
      have h2 : ∀ l : List (List Event), ([] ∉ l) → ((l.map (e :: ·)).filter fun p => (p.getLast?.map Event.opens).getD false) =
          (l.filter fun p => (p.getLast?.map Event.opens).getD false).map (e :: ·) := by
        intro l hl
        induction l with
        | nil => rfl
        | cons p l ihl =>
          simp only [List.mem_cons, not_or] at hl
          have : (e :: p).getLast? = p.getLast? := by
            cases p with
            | nil => exact absurd rfl hl.1
            | cons a p => simp [List.getLast?_cons_cons]
          simp only [List.map_cons, List.filter_cons, this]
          split <;> simp [ihl hl.2]
      cases es with
      | nil => cases h : e.opens <;> simp [h]
      | cons a es =>
        have hi : (a :: es).inits = [] :: es.inits.map (a :: ·) := by simp [List.inits_cons]
        rw [hi, List.map_cons, List.filter_cons, h2 _ (by simp)]
        cases h : e.opens <;> simp [h]
    have hi : (e :: es).inits = [] :: es.inits.map (e :: ·) := by simp [List.inits_cons]
    rw [openings, hi, List.filter_cons, key, ih]
    cases h : e.opens <;> simp [List.map_map, Function.comp_def]

/-! ## Within the data of a cell -/

theorem sizeArray_value (next : Bool) (n i : Nat) (v : Val) (es : List Event) (st : List Step) (s : Sizing) :
    sizeArray next (n + 1) i (firstOf v :: es) st s =
      match sizeValue next n (firstOf v) es (st ++ [.idx i]) (s.count fun c => { c with arrayItems := c.arrayItems + 1 }) with
      | .error e => .error e
      | .ok (es, s) => sizeArray next n (i + 1) es st s := by
  cases v <;> simp [firstOf, sizeArray] <;> rfl

mutual
theorem value_counted (v : Val) (n : Nat) (es P : List Event) (st : List Step) (reps : List Report) (c : Counter) (sh : List Counter)
    (hc : Near 0 P c) (hl : (st.length : Int) = 3 + level P) (hn : cost v ≤ n) :
    ∃ c' cs, sizeValue true n (firstOf v) (restOf v ++ es) st ⟨reps, some (c, sh)⟩ = .ok (es, ⟨reps, some (c', sh ++ cs)⟩) ∧
      Near 1 (P ++ events v) c' ∧ List.Forall₂ Contains (openings P (events v)) cs := by
  match v with
  | .arr xs =>
    simp only [cost] at hn
    obtain ⟨n, rfl⟩ : ∃ m, n = m + 1 := ⟨n - 1, by omega⟩
    have h1 := near_open (e := .startArr) rfl hl hc
    obtain ⟨c', cs, hr, hc', hs⟩ := array_counted xs n 0 es (P ++ [.startArr]) st reps _ (sh ++ [{ c with maxDepth := if (st.length : Int) > c.maxDepth then st.length else c.maxDepth }]) h1
      (by rw [level_append]; simp [level, Event.opens, Event.closes] at hl ⊢; omega) (by omega)
    refine ⟨c', { c with maxDepth := if (st.length : Int) > c.maxDepth then st.length else c.maxDepth } :: cs, ?_, ?_, ?_⟩
    · simp only [firstOf, restOf, sizeValue, List.append_assoc, List.singleton_append, Sizing.enter, Option.map_some]
      simp only [List.append_assoc, List.singleton_append] at hr
      exact hr
    · simpa [events, firstOf, restOf] using hc'
    · have : openings P (events (.arr xs)) = (P ++ [.startArr]) :: openings (P ++ [.startArr]) (eventsL xs ++ [.endArr]) := by
        simp [events, firstOf, restOf, openings, Event.opens]
      rw [this]
      exact .cons h1.contains hs
  | .dict d =>
    simp only [cost] at hn
    obtain ⟨n, rfl⟩ : ∃ m, n = m + 1 := ⟨n - 1, by omega⟩
    have h1 := near_open (e := .startMap) rfl hl hc
    obtain ⟨c', cs, hr, hc', hs⟩ := map_counted d n es (P ++ [.startMap]) st reps _ (sh ++ [{ c with maxDepth := if (st.length : Int) > c.maxDepth then st.length else c.maxDepth }]) h1
      (by rw [level_append]; simp [level, Event.opens, Event.closes] at hl ⊢; omega) (by omega)
    refine ⟨c', { c with maxDepth := if (st.length : Int) > c.maxDepth then st.length else c.maxDepth } :: cs, ?_, ?_, ?_⟩
    · simp only [firstOf, restOf, sizeValue, List.append_assoc, List.singleton_append, Sizing.enter, Option.map_some]
      simp only [List.append_assoc, List.singleton_append] at hr
      exact hr
    · simpa [events, firstOf, restOf] using hc'
    · have : openings P (events (.dict d)) = (P ++ [.startMap]) :: openings (P ++ [.startMap]) (eventsD d ++ [.endMap]) := by
        simp [events, firstOf, restOf, openings, Event.opens]
      rw [this]
      exact .cons h1.contains hs
  | .null => exact leaf_counted (by simp) hc hn
  | .bool _ => exact leaf_counted (by simp) hc hn
  | .int _ => exact leaf_counted (by simp) hc hn
  | .flt _ => exact leaf_counted (by simp) hc hn
  | .str _ => exact leaf_counted (by simp) hc hn
  | .bytes _ => exact leaf_counted (by simp) hc hn
theorem leaf_counted {v : Val} {n : Nat} {es P : List Event} {st : List Step} {reps : List Report} {c : Counter} {sh : List Counter}
    (hv : (∀ xs, v ≠ .arr xs) ∧ ∀ d, v ≠ .dict d) (hc : Near 0 P c) (hn : cost v ≤ n) :
    ∃ c' cs, sizeValue true n (firstOf v) (restOf v ++ es) st ⟨reps, some (c, sh)⟩ = .ok (es, ⟨reps, some (c', sh ++ cs)⟩) ∧
      Near 1 (P ++ events v) c' ∧ List.Forall₂ Contains (openings P (events v)) cs := by
  obtain ⟨n, rfl⟩ : ∃ m, n = m + 1 := ⟨n - 1, by cases v <;> simp [cost] at hn <;> omega⟩
  refine ⟨countLeaf v c, [], ?_, ?_, ?_⟩
  · cases v <;> first | exact absurd rfl (hv.1 _) | exact absurd rfl (hv.2 _) | simp [firstOf, restOf, sizeValue, Sizing.count]
  · have := near_leaf v hv hc
    cases v <;> first | exact absurd rfl (hv.1 _) | exact absurd rfl (hv.2 _) | exact this
  · cases v <;> first | exact absurd rfl (hv.1 _) | exact absurd rfl (hv.2 _) | exact .nil
theorem array_counted (xs : List Val) (n i : Nat) (es P : List Event) (st : List Step) (reps : List Report) (c : Counter) (sh : List Counter)
    (hc : Near 1 P c) (hl : (st.length : Int) = 2 + level P) (hn : costL xs ≤ n) :
    ∃ c' cs, sizeArray true n i (eventsL xs ++ .endArr :: es) st ⟨reps, some (c, sh)⟩ = .ok (es, ⟨reps, some (c', sh ++ cs)⟩) ∧
      Near 1 (P ++ (eventsL xs ++ [.endArr])) c' ∧ List.Forall₂ Contains (openings P (eventsL xs ++ [.endArr])) cs := by
  match xs with
  | [] =>
    simp only [costL] at hn
    obtain ⟨n, rfl⟩ : ∃ m, n = m + 1 := ⟨n - 1, by omega⟩
    exact ⟨c, [], by simp [eventsL, sizeArray], near_close rfl hc, .nil⟩
  | v :: xs =>
    simp only [costL] at hn
    obtain ⟨n, rfl⟩ : ∃ m, n = m + 1 := ⟨n - 1, by omega⟩
    obtain ⟨c1, cs1, hr1, hc1, hs1⟩ := value_counted v n (eventsL xs ++ .endArr :: es) P (st ++ [.idx i]) reps _ sh (near_item hc)
      (by simp; omega) (by omega)
    obtain ⟨c2, cs2, hr2, hc2, hs2⟩ := array_counted xs n (i + 1) es (P ++ events v) st reps c1 (sh ++ cs1) hc1
      (by rw [level_append, events, level_events]; omega) (by omega)
    refine ⟨c2, cs1 ++ cs2, ?_, ?_, ?_⟩
    · simp only [eventsL, List.cons_append, List.append_assoc]
      rw [sizeArray_value]
      simp only [Sizing.count, Option.map_some]
      rw [hr1]
      simp only
      rw [hr2, List.append_assoc]
    · simpa [eventsL, events] using hc2
    · have : eventsL (v :: xs) ++ [.endArr] = events v ++ (eventsL xs ++ [.endArr]) := by simp [eventsL, events]
      rw [this, openings_append]
      exact List.rel_append hs1 hs2
theorem map_counted (d : List (String × Val)) (n : Nat) (es P : List Event) (st : List Step) (reps : List Report) (c : Counter) (sh : List Counter)
    (hc : Near 1 P c) (hl : (st.length : Int) = 2 + level P) (hn : costD d ≤ n) :
    ∃ c' cs, sizeMap true n (eventsD d ++ .endMap :: es) st ⟨reps, some (c, sh)⟩ = .ok (es, ⟨reps, some (c', sh ++ cs)⟩) ∧
      Near 1 (P ++ (eventsD d ++ [.endMap])) c' ∧ List.Forall₂ Contains (openings P (eventsD d ++ [.endMap])) cs := by
  match d with
  | [] =>
    simp only [costD] at hn
    obtain ⟨n, rfl⟩ : ∃ m, n = m + 1 := ⟨n - 1, by omega⟩
    exact ⟨c, [], by simp [eventsD, sizeMap], near_close rfl hc, .nil⟩
  | (k, v) :: d =>
    simp only [costD] at hn
    obtain ⟨n, rfl⟩ : ∃ m, n = m + 1 + 1 := ⟨n - 2, by omega⟩
    obtain ⟨c1, cs1, hr1, hc1, hs1⟩ := value_counted v n (eventsD d ++ .endMap :: es) (P ++ [.key k]) (st ++ [.key k]) reps _ sh (near_key k hc)
      (by rw [level_append]; simp [level, Event.opens, Event.closes] at hl ⊢; omega) (by omega)
    obtain ⟨c2, cs2, hr2, hc2, hs2⟩ := map_counted d (n + 1) es (P ++ [.key k] ++ events v) st reps c1 (sh ++ cs1) hc1
      (by rw [level_append, events, level_events, level_append]; simp [level, Event.opens, Event.closes] at hl ⊢; omega) (by omega)
    refine ⟨c2, cs1 ++ cs2, ?_, ?_, ?_⟩
    · simp only [eventsD, List.cons_append, List.append_assoc, sizeMap, sizePair, Sizing.count, Option.map_some, if_true]
      rw [hr1]
      simp only
      rw [hr2, List.append_assoc]
    · simpa [eventsD, events] using hc2
    · have : eventsD ((k, v) :: d) ++ [.endMap] = [.key k] ++ (events v ++ (eventsD d ++ [.endMap])) := by simp [eventsD, events]
      rw [this, openings_append, openings_append, show openings P [Event.key k] = [] from rfl, List.nil_append]
      exact List.rel_append hs1 hs2
end

/-! ## Around them -/

/-- Nothing below this place is counted. -/
def FreeS (st : List Step) : Prop := ∀ s k, tracked (st ++ s) k = none

theorem FreeS.app {st : List Step} (h : FreeS st) (s : List Step) : FreeS (st ++ s) := fun s' k => by
  rw [List.append_assoc]; exact h _ _

mutual
theorem value_quiet (v : Val) (n : Nat) (es : List Event) (st : List Step) (reps : List Report) (hs : FreeS st) (hn : cost v ≤ n) :
    sizeValue true n (firstOf v) (restOf v ++ es) st ⟨reps, none⟩ = .ok (es, ⟨reps, none⟩) := by
  match v with
  | .arr xs =>
    simp only [cost] at hn
    obtain ⟨n, rfl⟩ : ∃ m, n = m + 1 := ⟨n - 1, by omega⟩
    simp only [firstOf, restOf, sizeValue, List.append_assoc, List.singleton_append, Sizing.enter, Option.map_none]
    exact array_quiet xs n 0 es st reps (fun i => hs.app _) (by omega)
  | .dict d =>
    simp only [cost] at hn
    obtain ⟨n, rfl⟩ : ∃ m, n = m + 1 := ⟨n - 1, by omega⟩
    simp only [firstOf, restOf, sizeValue, List.append_assoc, List.singleton_append, Sizing.enter, Option.map_none]
    exact map_quiet d n es st reps hs (by omega)
  | .null => exact leaf_quiet (by simp) hn
  | .bool _ => exact leaf_quiet (by simp) hn
  | .int _ => exact leaf_quiet (by simp) hn
  | .flt _ => exact leaf_quiet (by simp) hn
  | .str _ => exact leaf_quiet (by simp) hn
  | .bytes _ => exact leaf_quiet (by simp) hn
theorem leaf_quiet {next : Bool} {v : Val} {n : Nat} {es : List Event} {st : List Step} {reps : List Report}
    (hv : (∀ xs, v ≠ .arr xs) ∧ ∀ d, v ≠ .dict d) (hn : cost v ≤ n) :
    sizeValue next n (firstOf v) (restOf v ++ es) st ⟨reps, none⟩ = .ok (es, ⟨reps, none⟩) := by
  obtain ⟨n, rfl⟩ : ∃ m, n = m + 1 := ⟨n - 1, by cases v <;> simp [cost] at hn <;> omega⟩
  cases v <;> first | exact absurd rfl (hv.1 _) | exact absurd rfl (hv.2 _) | simp [firstOf, restOf, sizeValue, Sizing.count]
theorem array_quiet (xs : List Val) (n i : Nat) (es : List Event) (st : List Step) (reps : List Report)
    (hs : ∀ i, FreeS (st ++ [.idx i])) (hn : costL xs ≤ n) :
    sizeArray true n i (eventsL xs ++ .endArr :: es) st ⟨reps, none⟩ = .ok (es, ⟨reps, none⟩) := by
  match xs with
  | [] =>
    simp only [costL] at hn
    obtain ⟨n, rfl⟩ : ∃ m, n = m + 1 := ⟨n - 1, by omega⟩
    simp [eventsL, sizeArray]
  | v :: xs =>
    simp only [costL] at hn
    obtain ⟨n, rfl⟩ : ∃ m, n = m + 1 := ⟨n - 1, by omega⟩
    simp only [eventsL, List.cons_append, List.append_assoc]
    rw [sizeArray_value]
    simp only [Sizing.count, Option.map_none]
    rw [value_quiet v n _ _ reps (hs i) (by omega)]
    exact array_quiet xs n (i + 1) es st reps hs (by omega)
theorem map_quiet (d : List (String × Val)) (n : Nat) (es : List Event) (st : List Step) (reps : List Report)
    (hs : FreeS st) (hn : costD d ≤ n) :
    sizeMap true n (eventsD d ++ .endMap :: es) st ⟨reps, none⟩ = .ok (es, ⟨reps, none⟩) := by
  match d with
  | [] =>
    simp only [costD] at hn
    obtain ⟨n, rfl⟩ : ∃ m, n = m + 1 := ⟨n - 1, by omega⟩
    simp [eventsD, sizeMap]
  | (k, v) :: d =>
    simp only [costD] at hn
    obtain ⟨n, rfl⟩ : ∃ m, n = m + 1 + 1 := ⟨n - 2, by omega⟩
    have ht : tracked st k = none := by simpa using hs [] k
    simp only [eventsD, List.cons_append, List.append_assoc, sizeMap, sizePair, Sizing.count, Option.map_none, if_true, ht]
    rw [value_quiet v n _ _ reps (hs.app _) (by omega)]
    exact map_quiet d (n + 1) es st reps hs (by omega)
end

/-- The report of one cell or pool. -/
def Reports (x : String × String × Val) (r : Report) : Prop := r.1 = x.1 ∧ r.2.1 = x.2.1 ∧ Shown x.2.2 r.2.2

theorem map_reports (st : List Step) (X : String × Val → List (String × String × Val)) (d : List (String × Val))
    (hp : ∀ kv ∈ d, ∀ n es reps, cost kv.2 + 1 ≤ n → ∃ rs, sizePair true n kv.1 (firstOf kv.2 :: (restOf kv.2 ++ es)) st ⟨reps, none⟩ =
      .ok (es, ⟨reps ++ rs, none⟩) ∧ List.Forall₂ Reports (X kv) rs) (n : Nat) (es : List Event) (reps : List Report) (hn : costD d ≤ n) :
    ∃ rs, sizeMap true n (eventsD d ++ .endMap :: es) st ⟨reps, none⟩ = .ok (es, ⟨reps ++ rs, none⟩) ∧ List.Forall₂ Reports (d.flatMap X) rs := by
  induction d generalizing n reps with
  | nil =>
    simp only [costD] at hn
    obtain ⟨n, rfl⟩ : ∃ m, n = m + 1 := ⟨n - 1, by omega⟩
    exact ⟨[], by simp [eventsD, sizeMap], .nil⟩
  | cons kv d ih =>
    obtain ⟨k, v⟩ := kv
    simp only [costD] at hn
    obtain ⟨n, rfl⟩ : ∃ m, n = m + 1 := ⟨n - 1, by omega⟩
    obtain ⟨rs1, h1, hr1⟩ := hp (k, v) (by simp) n (eventsD d ++ .endMap :: es) reps (by simp only; omega)
    obtain ⟨rs2, h2, hr2⟩ := ih (fun kv h => hp kv (by simp [h])) n (reps ++ rs1) (by omega)
    refine ⟨rs1 ++ rs2, ?_, List.rel_append hr1 hr2⟩
    simp only [eventsD, List.cons_append, List.append_assoc, sizeMap, Sizing.count, Option.map_none]
    rw [h1]
    simp only
    rw [h2, List.append_assoc]

theorem pair_quiet (k : String) (v : Val) (n : Nat) (es : List Event) (st : List Step) (reps : List Report)
    (hk : tracked st k = none) (hs : FreeS (st ++ [.key k])) (hn : cost v + 1 ≤ n) :
    sizePair true n k (firstOf v :: (restOf v ++ es)) st ⟨reps, none⟩ = .ok (es, ⟨reps, none⟩) := by
  obtain ⟨n, rfl⟩ : ∃ m, n = m + 1 := ⟨n - 1, by omega⟩
  simp only [sizePair, hk, if_true]
  exact value_quiet v n es _ reps hs (by omega)

theorem freeS3 (a b c : Step) : FreeS [a, b, c] := by
  intro s k
  simp [tracked]

theorem value_flatS (v : Val) (hv : ∀ d, v ≠ .dict d) (n : Nat) (es : List Event) (st : List Step) (reps : List Report)
    (hs : ∀ i, FreeS (st ++ [.idx i])) (hn : cost v ≤ n) :
    sizeValue true n (firstOf v) (restOf v ++ es) st ⟨reps, none⟩ = .ok (es, ⟨reps, none⟩) := by
  by_cases ha : ∃ xs, v = .arr xs
  · obtain ⟨xs, rfl⟩ := ha
    simp only [cost] at hn
    obtain ⟨n, rfl⟩ : ∃ m, n = m + 1 := ⟨n - 1, by omega⟩
    simp only [firstOf, restOf, sizeValue, List.append_assoc, List.singleton_append, Sizing.enter, Option.map_none]
    exact array_quiet xs n 0 es st reps hs (by omega)
  · exact leaf_quiet ⟨fun xs h => ha ⟨xs, h⟩, hv⟩ hn

/-- The data of one cell or pool. -/
def initsE (s m : String) : Val → List (String × String × Val)
  | .dict e => e.filterMap fun x => if x.1 = "init" then some (s, m, x.2) else none
  | _ => []

/-- The data of a section. -/
def initsS (s : String) : Val → List (String × String × Val)
  | .dict d => d.flatMap fun nv => initsE s nv.1 nv.2
  | _ => []

theorem entry_sized (s m : String) (hsec : s = "cells" ∨ s = "pools") (v : Val) (n : Nat) (es : List Event) (reps : List Report)
    (hn : cost v ≤ n) : ∃ rs, sizeValue true n (firstOf v) (restOf v ++ es) [.key s, .key m] ⟨reps, none⟩ = .ok (es, ⟨reps ++ rs, none⟩) ∧
      List.Forall₂ Reports (initsE s m v) rs := by
  by_cases hd : ∃ d, v = .dict d
  · obtain ⟨d, rfl⟩ := hd
    simp only [cost] at hn
    obtain ⟨n, rfl⟩ : ∃ m, n = m + 1 := ⟨n - 1, by omega⟩
    simp only [firstOf, restOf, sizeValue, List.append_assoc, List.singleton_append, Sizing.enter, Option.map_none]
    have hX : initsE s m (.dict d) = d.flatMap fun x => if x.1 = "init" then [(s, m, x.2)] else [] := by
      simp only [initsE]
      induction d with
      | nil => rfl
      | cons x d ih =>
        by_cases hx : x.1 = "init" <;> simp [hx, ih (by simp only [costD] at hn; omega)]
    rw [hX]
    refine map_reports [.key s, .key m] _ d ?_ n es reps (by omega)
    intro kv _ n es reps hn
    obtain ⟨k, v⟩ := kv
    simp only at hn ⊢
    by_cases hk : k = "init"
    · subst hk
      obtain ⟨n, rfl⟩ : ∃ m, n = m + 1 := ⟨n - 1, by omega⟩
      have ht : tracked [.key s, .key m] "init" = some (s, m) := by simp [tracked, hsec]
      obtain ⟨c, cs, hr, _, hs⟩ := value_counted v n es [] [.key s, .key m, .key "init"] reps Counter.zero [] near_zero (by simp [level]) (by omega)
      refine ⟨[(s, m, cs)], ?_, ?_⟩
      · simp only [sizePair, ht, if_true, List.cons_append, List.nil_append]
        simp only [List.nil_append] at hr
        rw [hr]
        rfl
      · rw [if_pos rfl]
        refine .cons ⟨rfl, rfl, ?_⟩ .nil
        rw [openings_inits] at hs
        simpa [Shown] using hs
    · refine ⟨[], ?_, by rw [if_neg hk]; exact .nil⟩
      rw [pair_quiet k v n es _ reps (by simp [tracked, hk]) (freeS3 _ _ _) hn]
      simp
  · refine ⟨[], ?_, ?_⟩
    · rw [value_flatS v (fun d h => hd ⟨d, h⟩) n es _ reps (fun i => freeS3 _ _ _) hn]
      simp
    · have : initsE s m v = [] := by cases v <;> first | rfl | exact absurd ⟨_, rfl⟩ hd
      rw [this]; exact .nil

theorem section_sized (s : String) (hsec : s = "cells" ∨ s = "pools") (v : Val) (n : Nat) (es : List Event) (reps : List Report)
    (hn : cost v ≤ n) : ∃ rs, sizeValue true n (firstOf v) (restOf v ++ es) [.key s] ⟨reps, none⟩ = .ok (es, ⟨reps ++ rs, none⟩) ∧
      List.Forall₂ Reports (initsS s v) rs := by
  by_cases hd : ∃ d, v = .dict d
  · obtain ⟨d, rfl⟩ := hd
    simp only [cost] at hn
    obtain ⟨n, rfl⟩ : ∃ m, n = m + 1 := ⟨n - 1, by omega⟩
    simp only [firstOf, restOf, sizeValue, List.append_assoc, List.singleton_append, Sizing.enter, Option.map_none, initsS]
    refine map_reports [.key s] _ d ?_ n es reps (by omega)
    intro kv _ n es reps hn
    obtain ⟨k, v⟩ := kv
    simp only at hn ⊢
    obtain ⟨n, rfl⟩ : ∃ m, n = m + 1 := ⟨n - 1, by omega⟩
    obtain ⟨rs, hr, hs⟩ := entry_sized s k hsec v n es reps (by omega)
    refine ⟨rs, ?_, hs⟩
    have hk0 : tracked [.key s] k = none := rfl
    simp only [sizePair, hk0, if_true, List.cons_append, List.nil_append]
    exact hr
  · refine ⟨[], ?_, ?_⟩
    · rw [value_flatS v (fun d h => hd ⟨d, h⟩) n es _ reps (fun i => by intro x k; cases x <;> simp [tracked]) hn]
      simp
    · have : initsS s v = [] := by cases v <;> first | rfl | exact absurd ⟨_, rfl⟩ hd
      rw [this]; exact .nil

theorem doc_sized (v : Val) (n : Nat) (es : List Event) (reps : List Report) (hn : cost v ≤ n) :
    ∃ rs, sizeValue true n (firstOf v) (restOf v ++ es) [] ⟨reps, none⟩ = .ok (es, ⟨reps ++ rs, none⟩) ∧ List.Forall₂ Reports (allInits v) rs := by
  by_cases hd : ∃ d, v = .dict d
  · obtain ⟨d, rfl⟩ := hd
    simp only [cost] at hn
    obtain ⟨n, rfl⟩ : ∃ m, n = m + 1 := ⟨n - 1, by omega⟩
    simp only [firstOf, restOf, sizeValue, List.append_assoc, List.singleton_append, Sizing.enter, Option.map_none]
    have hX : allInits (.dict d) = d.flatMap fun kv => if kv.1 = "cells" ∨ kv.1 = "pools" then initsS kv.1 kv.2 else [] := by
      simp only [allInits]
      congr 1
    rw [hX]
    refine map_reports [] _ d ?_ n es reps (by omega)
    intro kv _ n es reps hn
    obtain ⟨k, v⟩ := kv
    simp only at hn ⊢
    have hk0 : tracked [] k = none := rfl
    by_cases hk : k = "cells" ∨ k = "pools"
    · obtain ⟨n, rfl⟩ : ∃ m, n = m + 1 := ⟨n - 1, by omega⟩
      obtain ⟨rs, hr, hs⟩ := section_sized k hk v n es reps (by omega)
      refine ⟨rs, ?_, by rw [if_pos hk]; exact hs⟩
      simp only [sizePair, hk0, if_true, List.nil_append]
      exact hr
    · refine ⟨[], ?_, by rw [if_neg hk]; exact .nil⟩
      rw [pair_quiet k v n es _ reps hk0 ?_ hn]
      · simp
      · intro x k'
        rcases x with _ | ⟨a, _ | ⟨b, x⟩⟩
        · simp [tracked]
        · cases a
          · simp only [List.nil_append, List.cons_append, tracked]
            rw [if_neg (fun h => hk h.1)]
          · simp [tracked]
        · simp [tracked]
  · refine ⟨[], ?_, ?_⟩
    · rw [value_flatS v (fun d h => hd ⟨d, h⟩) n es _ reps (fun i => by
        intro x k
        rcases x with _ | ⟨a, _ | ⟨b, x⟩⟩ <;> simp [tracked]) hn]
      simp
    · have : allInits v = [] := by cases v <;> first | rfl | exact absurd ⟨_, rfl⟩ hd
      rw [this]; exact .nil

/-- **C104.** With a parser that has `next`: there is a report for the data of each cell and pool, in order; the counters written for it are those of
its beginnings up to each opening bracket.  So what remains on the screen does not count what is after the last of these (`shown_violation`). -/
theorem size_partial (v : Val) : ∃ rs, size true (events v) = .ok rs ∧ List.Forall₂ Reports (allInits v) rs := by
  have hc := cost_le v
  obtain ⟨rs, hr, hs⟩ := doc_sized v (2 * ((restOf v).length + 1) + 2) [] [] (by omega)
  refine ⟨rs, ?_, hs⟩
  rw [List.append_nil, List.nil_append] at hr
  simp only [size, events, List.length_cons, sizeLoop]
  rw [hr]
  simp [sizeLoop]

mutual
theorem value_stuckS (v : Val) (n : Nat) (es : List Event) (st : List Step) (reps : List Report) (hn : cost v ≤ n) :
    sizeValue false n (firstOf v) (restOf v ++ es) st ⟨reps, none⟩ = if hasKey v then .error (.py "AttributeError") else .ok (es, ⟨reps, none⟩) := by
  match v with
  | .arr xs =>
    simp only [cost] at hn
    obtain ⟨n, rfl⟩ : ∃ m, n = m + 1 := ⟨n - 1, by omega⟩
    simp only [firstOf, restOf, sizeValue, List.append_assoc, List.singleton_append, Sizing.enter, Option.map_none, hasKey]
    exact array_stuckS xs n 0 es st reps (by omega)
  | .dict [] =>
    simp only [cost, costD] at hn
    obtain ⟨n, rfl⟩ : ∃ m, n = m + 1 + 1 := ⟨n - 2, by omega⟩
    simp [firstOf, restOf, sizeValue, eventsD, sizeMap, hasKey, Sizing.enter]
  | .dict ((k, v) :: d) =>
    simp only [cost, costD] at hn
    obtain ⟨n, rfl⟩ : ∃ m, n = m + 1 + 1 + 1 := ⟨n - 3, by omega⟩
    simp [firstOf, restOf, sizeValue, eventsD, sizeMap, sizePair, hasKey]
  | .null => exact leaf_quiet (by simp) hn
  | .bool _ => exact leaf_quiet (by simp) hn
  | .int _ => exact leaf_quiet (by simp) hn
  | .flt _ => exact leaf_quiet (by simp) hn
  | .str _ => exact leaf_quiet (by simp) hn
  | .bytes _ => exact leaf_quiet (by simp) hn
theorem array_stuckS (xs : List Val) (n i : Nat) (es : List Event) (st : List Step) (reps : List Report) (hn : costL xs ≤ n) :
    sizeArray false n i (eventsL xs ++ .endArr :: es) st ⟨reps, none⟩ =
      if hasKeyL xs then .error (.py "AttributeError") else .ok (es, ⟨reps, none⟩) := by
  match xs with
  | [] =>
    simp only [costL] at hn
    obtain ⟨n, rfl⟩ : ∃ m, n = m + 1 := ⟨n - 1, by omega⟩
    simp [eventsL, sizeArray, hasKeyL]
  | v :: xs =>
    simp only [costL] at hn
    obtain ⟨n, rfl⟩ : ∃ m, n = m + 1 := ⟨n - 1, by omega⟩
    simp only [eventsL, List.cons_append, List.append_assoc]
    rw [sizeArray_value]
    simp only [Sizing.count, Option.map_none]
    rw [value_stuckS v n _ _ reps (by omega)]
    cases hv : hasKey v with
    | true => simp [hasKeyL, hv]
    | false =>
      simp only [Bool.false_eq_true, if_false]
      rw [array_stuckS xs n (i + 1) es st reps (by omega)]
      simp [hasKeyL, hv]
end

/-- In Python 3 every document with a key is an AttributeError. -/
theorem size_next_violation (v : Val) : size false (events v) = if hasKey v then .error (.py "AttributeError") else .ok [] := by
  have hc := cost_le v
  have := value_stuckS v (2 * ((restOf v).length + 1) + 2) [] [] [] (by omega)
  rw [List.append_nil] at this
  simp only [size, events, List.length_cons, sizeLoop]
  rw [this]
  cases hasKey v <;> simp [sizeLoop]

/-! ## Concrete cases -/

/-- Three numbers in a list are not counted, and nothing is written for a number. -/
theorem shown_violation :
    size true (events (.dict [("cells", .dict [("x", .dict [("init", .arr [.int 1, .int 2, .int 3])]), ("y", .dict [("init", .int 4)])])])) =
      .ok [("cells", "x", [⟨0, 0, 0, 0, 0, 0, 3⟩]), ("cells", "y", [])] := by decide +kernel

example : size true (events (.dict [("pools", .dict [("x", .dict [("type", .str "t"), ("init", .dict [("a", .arr [.int 1, .str "bc"]), ("d", .arr [])])])])])) =
    .ok [("pools", "x", [⟨0, 0, 0, 0, 0, 0, 3⟩, ⟨0, 0, 0, 0, 0, 1, 4⟩, ⟨1, 2, 1, 0, 2, 2, 4⟩])] := by decide +kernel

end Verif.Scripts
