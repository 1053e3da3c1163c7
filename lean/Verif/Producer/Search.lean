import Verif.Producer.Matched
/-! # Searching in JSON expressions: model and laws (C82)

Models `titus/producer/tools.py` 379-446: `search`, `searchFirst`, `index`, `indexes`, `contains`, `count`, `findRef`, `findCopy`. -/

namespace Verif.Producer
open Avro

/-- What a search yields: where, and the match. -/
abbrev Hit := List Ix × Match

/-- What a generator does: what it yields, and the exception that it ends with. -/
structure Gen where
  yields : List Hit
  fails : Option Err

def Gen.done : Gen := ⟨[], none⟩

/-- One generator after another. -/
def Gen.then (a b : Gen) : Gen := match a.fails with
  | some e => ⟨a.yields, some e⟩
  | none => ⟨a.yields ++ b.yields, b.fails⟩

/-- Lines 393-395. -/
def visit (p : Pat) (v : Val) (r : List Ix) : Gen := match getmatch p v with
  | .error e => ⟨[], some e⟩
  | .ok none => .done
  | .ok (some m) => ⟨[(r, m)], none⟩

/-- In the order of the keys (line 382). -/
def byKey {α : Type} (l : List (String × α)) : List (String × α) := l.mergeSort (fun a b => decide (a.1 ≤ b.1))

/-- The generators of a loop. -/
def inTurn (l : List (String × Gen)) : Gen := l.foldr (fun g rest => g.2.then rest) .done

mutual
/-- `search`, tools.py 379-395. -/
def search (p : Pat) : Val → List Ix → Gen
  | .dict d, r => (inTurn (byKey (searchD p d r))).then (visit p (.dict d) r)
  | .arr xs, r => (searchL p xs 0 r).then (visit p (.arr xs) r)
  | v, r => visit p v r
/-- The searches below the keys of an object (lines 383-384). -/
def searchD (p : Pat) : List (String × Val) → List Ix → List (String × Gen)
  | [], _ => []
  | (k, v) :: d, r => (k, search p v (r ++ [.key k])) :: searchD p d r
/-- The searches in the elements of a list (lines 387-389). -/
def searchL (p : Pat) : List Val → Nat → List Ix → Gen
  | [], _, _ => .done
  | x :: xs, i, r => (search p x (r ++ [.pos i])).then (searchL p xs (i + 1) r)
end

/-- What is left when a loop over the generator ends. -/
def Gen.all (g : Gen) : Res (List Hit) := match g.fails with
  | some e => .error e
  | none => .ok g.yields

/-- What comes first. -/
def Gen.first (g : Gen) : Res (Option Hit) := match g.yields with
  | x :: _ => .ok (some x)
  | [] => match g.fails with
    | some e => .error e
    | none => .ok none

/-- `searchFirst`, lines 397-401. -/
def searchFirst (p : Pat) (v : Val) : Res (Option Hit) := (search p v []).first

/-- `index`, lines 403-409. -/
def index (p : Pat) (v : Val) : Res (Option (List Ix)) := Res.app (Option.map (·.1)) (searchFirst p v)

/-- `indexes`, lines 411-413. -/
def indexes (p : Pat) (v : Val) : Res (List (List Ix)) := Res.app (List.map (·.1)) (search p v []).all

/-- `contains`, lines 415-417. -/
def contains (p : Pat) (v : Val) : Res Bool := Res.app Option.isSome (searchFirst p v)

/-- `count`, lines 419-421. -/
def count (p : Pat) (v : Val) : Res Nat := Res.app List.length (search p v []).all

/-- `findRef`, lines 423-429. -/
def findRef (p : Pat) (v : Val) : Res (Option Val) := match searchFirst p v with
  | .error e => .error e
  | .ok none => .ok none
  | .ok (some x) => Res.app some (get v x.1)

/-- `findCopy`, lines 431-437. -/
def findCopy (p : Pat) (v : Val) : Res (Option Val) := Res.app (Option.map (·.2.original)) (searchFirst p v)

/-! ## Specification -/

/-- Keys are ordered as texts and positions as numbers. -/
inductive Ix.Lt : Ix → Ix → Prop where
  | key {k l : String} (h : k < l) : Ix.Lt (.key k) (.key l)
  | pos {i j : Int} (h : i < j) : Ix.Lt (.pos i) (.pos j)

/-- `Before is js`: what is inside comes before what it is inside of; otherwise, the first difference decides. -/
inductive Before : List Ix → List Ix → Prop where
  | inside {js s : List Ix} (h : s ≠ []) : Before (js ++ s) js
  | apart {p r s : List Ix} {a b : Ix} (h : a.Lt b) : Before (p ++ a :: r) (p ++ b :: s)

/-! ## Induction over documents -/

mutual
theorem val_ind {P : Val → Prop} (hd : ∀ d, (∀ k v, (k, v) ∈ d → P v) → P (.dict d)) (ha : ∀ xs, (∀ x ∈ xs, P x) → P (.arr xs))
    (h0 : ∀ v, (∀ d, v ≠ .dict d) → (∀ xs, v ≠ .arr xs) → P v) : ∀ v, P v
  | .dict d => hd d (val_indD hd ha h0 d)
  | .arr xs => ha xs (val_indL hd ha h0 xs)
  | .null => h0 _ (by simp) (by simp)
  | .bool _ => h0 _ (by simp) (by simp)
  | .int _ => h0 _ (by simp) (by simp)
  | .flt _ => h0 _ (by simp) (by simp)
  | .str _ => h0 _ (by simp) (by simp)
  | .bytes _ => h0 _ (by simp) (by simp)
theorem val_indD {P : Val → Prop} (hd : ∀ d, (∀ k v, (k, v) ∈ d → P v) → P (.dict d)) (ha : ∀ xs, (∀ x ∈ xs, P x) → P (.arr xs))
    (h0 : ∀ v, (∀ d, v ≠ .dict d) → (∀ xs, v ≠ .arr xs) → P v) : ∀ (d : List (String × Val)), ∀ k v, (k, v) ∈ d → P v
  | [], _, _, h => by cases h
  | (k', v') :: d, k, v, h => by
    rcases List.mem_cons.1 h with h | h
    · injection h with _ h; exact h ▸ val_ind hd ha h0 v'
    · exact val_indD hd ha h0 d k v h
theorem val_indL {P : Val → Prop} (hd : ∀ d, (∀ k v, (k, v) ∈ d → P v) → P (.dict d)) (ha : ∀ xs, (∀ x ∈ xs, P x) → P (.arr xs))
    (h0 : ∀ v, (∀ d, v ≠ .dict d) → (∀ xs, v ≠ .arr xs) → P v) : ∀ (xs : List Val), ∀ x ∈ xs, P x
  | [], _, h => by cases h
  | x' :: xs, x, h => by
    rcases List.mem_cons.1 h with h | h
    · exact h ▸ val_ind hd ha h0 x'
    · exact val_indL hd ha h0 xs x h
end

/-! ## Lemmas on generators -/

theorem then_yields {a b : Gen} {x : Hit} (h : x ∈ (a.then b).yields) : x ∈ a.yields ∨ x ∈ b.yields := by
  unfold Gen.then at h
  cases hf : a.fails with
  | some e => rw [hf] at h; exact .inl h
  | none => rw [hf] at h; exact List.mem_append.1 h

theorem then_ok {a b : Gen} (h : (a.then b).fails = none) : a.fails = none ∧ b.fails = none ∧ (a.then b).yields = a.yields ++ b.yields := by
  unfold Gen.then at *
  cases hf : a.fails with
  | some e => rw [hf] at h; cases h
  | none => rw [hf] at h; exact ⟨rfl, h, rfl⟩

theorem then_none {a b : Gen} (ha : a.fails = none) (hb : b.fails = none) : (a.then b).fails = none := by
  unfold Gen.then; rw [ha]; exact hb

theorem then_pairwise {R : Hit → Hit → Prop} {a b : Gen} (ha : a.yields.Pairwise R) (hb : b.yields.Pairwise R)
    (h : ∀ x ∈ a.yields, ∀ y ∈ b.yields, R x y) : (a.then b).yields.Pairwise R := by
  unfold Gen.then
  cases hf : a.fails with
  | some e => exact ha
  | none => exact List.pairwise_append.2 ⟨ha, hb, h⟩

theorem inTurn_yields {l : List (String × Gen)} {x : Hit} (h : x ∈ (inTurn l).yields) : ∃ g ∈ l, x ∈ g.2.yields := by
  induction l with
  | nil => cases h
  | cons g l ih =>
    rcases then_yields (a := g.2) (b := inTurn l) h with h | h
    · exact ⟨g, List.mem_cons_self, h⟩
    · obtain ⟨g', hg, h⟩ := ih h
      exact ⟨g', List.mem_cons_of_mem _ hg, h⟩

theorem inTurn_ok {l : List (String × Gen)} (h : (inTurn l).fails = none) :
    ∀ g ∈ l, g.2.fails = none ∧ ∀ x ∈ g.2.yields, x ∈ (inTurn l).yields := by
  induction l with
  | nil => intro g hg; cases hg
  | cons g l ih =>
    obtain ⟨h1, h2, h3⟩ := then_ok (a := g.2) (b := inTurn l) h
    have h3 : (inTurn (g :: l)).yields = g.2.yields ++ (inTurn l).yields := h3
    intro g' hg
    rcases List.mem_cons.1 hg with rfl | hg
    · exact ⟨h1, fun x hx => by rw [h3]; exact List.mem_append_left _ hx⟩
    · exact ⟨(ih h2 g' hg).1, fun x hx => by rw [h3]; exact List.mem_append_right _ ((ih h2 g' hg).2 x hx)⟩

theorem inTurn_none {l : List (String × Gen)} (h : ∀ g ∈ l, g.2.fails = none) : (inTurn l).fails = none := by
  induction l with
  | nil => rfl
  | cons g l ih => exact then_none (h g List.mem_cons_self) (ih fun g' hg => h g' (List.mem_cons_of_mem _ hg))

theorem inTurn_pairwise {R : Hit → Hit → Prop} {l : List (String × Gen)} (h : ∀ g ∈ l, g.2.yields.Pairwise R)
    (hl : l.Pairwise fun a b => ∀ x ∈ a.2.yields, ∀ y ∈ b.2.yields, R x y) : (inTurn l).yields.Pairwise R := by
  induction l with
  | nil => exact List.Pairwise.nil
  | cons g l ih =>
    refine then_pairwise (a := g.2) (b := inTurn l) (h g List.mem_cons_self) (ih (fun g' hg => h g' (List.mem_cons_of_mem _ hg)) hl.tail) fun x hx y hy => ?_
    obtain ⟨g', hg, hy⟩ := inTurn_yields hy
    exact (List.pairwise_cons.1 hl).1 g' hg x hx y hy

theorem mem_byKey {α : Type} {l : List (String × α)} {x : String × α} : x ∈ byKey l ↔ x ∈ l := List.mem_mergeSort

theorem byKey_sorted {α : Type} {l : List (String × α)} (h : (PyDict.keys l).Nodup) : (byKey l).Pairwise fun a b => a.1 < b.1 := by
  have h1 : (byKey l).Pairwise fun a b => decide (a.1 ≤ b.1) = true :=
    List.pairwise_mergeSort (le := fun a b : String × α => decide (a.1 ≤ b.1))
      (fun a b c h1 h2 => by simp only [decide_eq_true_eq] at *; exact String.le_trans h1 h2)
      (fun a b => by simp only [Bool.or_eq_true, decide_eq_true_eq]; exact String.le_total _ _) l
  have h2 : ((byKey l).map Prod.fst).Nodup := ((List.mergeSort_perm l _).map _).nodup_iff.2 h
  have h3 : (byKey l).Pairwise fun a b => a.1 ≠ b.1 := List.pairwise_map.1 h2
  refine (h1.and h3).imp fun {a b} h => ?_
  have h4 : a.1 ≤ b.1 := by simpa using h.1
  by_contra h5
  exact h.2 (String.le_antisymm h4 h5)

theorem searchD_map (p : Pat) (d : List (String × Val)) (r : List Ix) : searchD p d r = d.map fun kv => (kv.1, search p kv.2 (r ++ [.key kv.1])) := by
  induction d with
  | nil => rw [searchD]; rfl
  | cons kv d ih => obtain ⟨k, v⟩ := kv; rw [searchD, ih]; rfl

theorem mem_searchD {p : Pat} {d : List (String × Val)} {r : List Ix} {g : String × Gen} :
    g ∈ searchD p d r ↔ ∃ v, (g.1, v) ∈ d ∧ g.2 = search p v (r ++ [.key g.1]) := by
  rw [searchD_map, List.mem_map]
  constructor
  · rintro ⟨kv, h, rfl⟩; exact ⟨kv.2, h, rfl⟩
  · rintro ⟨v, h1, h2⟩; exact ⟨(g.1, v), h1, by rw [← h2]⟩

theorem searchL_yields {p : Pat} {r : List Ix} {x : Hit} : ∀ {xs : List Val} {i : Nat}, x ∈ (searchL p xs i r).yields →
    ∃ (j : Nat) (c : Val), xs[j]? = some c ∧ x ∈ (search p c (r ++ [.pos (i + j : Nat)])).yields
  | [], i, h => by rw [searchL] at h; cases h
  | y :: xs, i, h => by
    rw [searchL] at h
    rcases then_yields h with h | h
    · exact ⟨0, y, rfl, h⟩
    · obtain ⟨j, c, hj, h⟩ := searchL_yields h
      exact ⟨j + 1, c, by simpa using hj, by rwa [show i + (j + 1) = i + 1 + j by omega]⟩

theorem searchL_ok {p : Pat} {r : List Ix} : ∀ {xs : List Val} {i : Nat}, (searchL p xs i r).fails = none → ∀ (j : Nat) (c : Val), xs[j]? = some c →
    (search p c (r ++ [.pos (i + j : Nat)])).fails = none ∧ ∀ x ∈ (search p c (r ++ [.pos (i + j : Nat)])).yields, x ∈ (searchL p xs i r).yields
  | [], i, _, j, c, h => by cases h
  | y :: xs, i, hf, j, c, h => by
    rw [searchL] at hf ⊢
    obtain ⟨h1, h2, h3⟩ := then_ok hf
    rw [h3]
    cases j with
    | zero =>
      simp at h
      subst h
      exact ⟨h1, fun x hx => List.mem_append_left _ hx⟩
    | succ j =>
      obtain ⟨h4, h5⟩ := searchL_ok h2 j c (by simpa using h)
      rw [show i + 1 + j = i + (j + 1) by omega] at h4 h5
      exact ⟨h4, fun x hx => List.mem_append_right _ (h5 x hx)⟩

theorem searchL_none {p : Pat} {r : List Ix} : ∀ {xs : List Val} {i : Nat}, (∀ x ∈ xs, ∀ r, (search p x r).fails = none) → (searchL p xs i r).fails = none
  | [], i, _ => by rw [searchL]; rfl
  | y :: xs, i, h => by
    rw [searchL]
    exact then_none (h y List.mem_cons_self _) (searchL_none fun x hx => h x (List.mem_cons_of_mem _ hx))

theorem visit_yields {p : Pat} {v : Val} {r : List Ix} {x : Hit} : x ∈ (visit p v r).yields ↔ x.1 = r ∧ getmatch p v = .ok (some x.2) := by
  unfold visit
  cases hg : getmatch p v with
  | error e => simp
  | ok o =>
    cases o with
    | none => simp [Gen.done]
    | some m =>
      obtain ⟨x1, x2⟩ := x
      simp
      intro _
      exact eq_comm

theorem visit_pairwise {R : Hit → Hit → Prop} {p : Pat} {v : Val} {r : List Ix} : (visit p v r).yields.Pairwise R := by
  unfold visit
  cases getmatch p v with
  | error e => exact List.Pairwise.nil
  | ok o => cases o with
    | none => exact List.Pairwise.nil
    | some m => simp

theorem search_leaf {p : Pat} {v : Val} {r : List Ix} (h1 : ∀ d, v ≠ .dict d) (h2 : ∀ xs, v ≠ .arr xs) : search p v r = visit p v r := by
  cases v with
  | dict d => exact absurd rfl (h1 d)
  | arr xs => exact absurd rfl (h2 xs)
  | _ => rw [search] <;> simp

/-! ## The laws -/

/-- **C82.** What a search yields is somewhere in the document and matches. -/
theorem search_sound {p : Pat} {v : Val} : ∀ {r : List Ix} {x : Hit}, x ∈ (search p v r).yields →
    ∃ js w, x.1 = r ++ js ∧ Sub v js w ∧ getmatch p w = .ok (some x.2) := by
  have here : ∀ {v : Val} {r : List Ix} {x : Hit}, x ∈ (visit p v r).yields → ∃ js w, x.1 = r ++ js ∧ Sub v js w ∧ getmatch p w = .ok (some x.2) :=
    fun h => ⟨[], _, by simpa using (visit_yields.1 h).1, .here _, (visit_yields.1 h).2⟩
  induction v using val_ind with
  | hd d ih =>
    intro r x h
    rw [search] at h
    rcases then_yields h with h | h
    · obtain ⟨g, hg, h⟩ := inTurn_yields h
      obtain ⟨v, hv, he⟩ := mem_searchD.1 (mem_byKey.1 hg)
      rw [he] at h
      obtain ⟨js, w, h1, h2, h3⟩ := ih _ _ hv h
      exact ⟨.key g.1 :: js, w, by rw [h1]; simp, .key hv h2, h3⟩
    · exact here h
  | ha xs ih =>
    intro r x h
    rw [search] at h
    rcases then_yields h with h | h
    · obtain ⟨j, c, hj, h⟩ := searchL_yields h
      obtain ⟨js, w, h1, h2, h3⟩ := ih c (List.mem_of_getElem? hj) h
      exact ⟨.pos j :: js, w, by rw [h1]; simp, .pos hj h2, h3⟩
    · exact here h
  | h0 v h1 h2 =>
    intro r x h
    rw [search_leaf h1 h2] at h
    exact here h

/-- **C82.** A search that ends without an exception misses nothing. -/
theorem search_complete {p : Pat} {v w : Val} {js : List Ix} (hs : Sub v js w) {m : Match} (hm : getmatch p w = .ok (some m)) :
    ∀ {r : List Ix}, (search p v r).fails = none → (r ++ js, m) ∈ (search p v r).yields := by
  induction hs with
  | here v =>
    intro r hf
    have hv : (r, m) ∈ (visit p v r).yields := visit_yields.2 ⟨rfl, hm⟩
    rw [List.append_nil]
    cases v with
    | dict d => rw [search] at hf ⊢; rw [(then_ok hf).2.2]; exact List.mem_append_right _ hv
    | arr xs => rw [search] at hf ⊢; rw [(then_ok hf).2.2]; exact List.mem_append_right _ hv
    | _ => rw [search_leaf (by simp) (by simp)]; exact hv
  | @key d k c w js hmem _ ih =>
    intro r hf
    rw [search] at hf ⊢
    rw [(then_ok hf).2.2]
    have hg : (k, search p c (r ++ [.key k])) ∈ byKey (searchD p d r) := mem_byKey.2 (mem_searchD.2 ⟨c, hmem, rfl⟩)
    obtain ⟨h1, h2⟩ := inTurn_ok (then_ok hf).1 _ hg
    refine List.mem_append_left _ (h2 _ ?_)
    have := ih hm (r := r ++ [.key k]) h1
    simpa using this
  | @pos xs i c w js hmem _ ih =>
    intro r hf
    rw [search] at hf ⊢
    rw [(then_ok hf).2.2]
    obtain ⟨h1, h2⟩ := searchL_ok (then_ok hf).1 i c hmem
    rw [Nat.zero_add] at h1 h2
    refine List.mem_append_left _ (h2 _ ?_)
    have := ih hm (r := r ++ [.pos i]) h1
    simpa using this

/-- **C82.** What is inside comes first, keys come in their order and positions in theirs; so nothing comes twice. -/
theorem search_order {p : Pat} {v : Val} : ∀ {r : List Ix}, Tidy v → (search p v r).yields.Pairwise fun x y => Before x.1 y.1 := by
  induction v using val_ind with
  | hd d ih =>
    intro r ht
    rw [search]
    refine then_pairwise (inTurn_pairwise (fun g hg => ?_) ?_) visit_pairwise fun x hx y hy => ?_
    · obtain ⟨v, hv, he⟩ := mem_searchD.1 (mem_byKey.1 hg)
      rw [he]
      exact ih _ _ hv (ht.key hv)
    · have hn : (PyDict.keys (searchD p d r)).Nodup := by
        have : PyDict.keys (searchD p d r) = PyDict.keys d := by rw [searchD_map]; simp [PyDict.keys]
        rw [this]
        exact ht [] d (.here _)
      refine (byKey_sorted hn).imp_of_mem fun {a b} ha hb hlt x hx y hy => ?_
      obtain ⟨v, _, he⟩ := mem_searchD.1 (mem_byKey.1 ha)
      obtain ⟨w, _, he'⟩ := mem_searchD.1 (mem_byKey.1 hb)
      rw [he] at hx
      rw [he'] at hy
      obtain ⟨js, _, h1, _⟩ := search_sound hx
      obtain ⟨ks, _, h2, _⟩ := search_sound hy
      rw [h1, h2, List.append_assoc, List.append_assoc]
      exact .apart (.key hlt)
    · obtain ⟨g, hg, hx⟩ := inTurn_yields hx
      obtain ⟨v, _, he⟩ := mem_searchD.1 (mem_byKey.1 hg)
      rw [he] at hx
      obtain ⟨js, _, h1, _⟩ := search_sound hx
      rw [h1, (visit_yields.1 hy).1, List.append_assoc]
      exact .inside (by simp)
  | ha xs ih =>
    intro r ht
    rw [search]
    have hL : ∀ (ys : List Val) (i : Nat), (∀ y ∈ ys, y ∈ xs) → (searchL p ys i r).yields.Pairwise fun x y => Before x.1 y.1 := by
      intro ys
      induction ys with
      | nil => intro i _; rw [searchL]; exact List.Pairwise.nil
      | cons y ys ihy =>
        intro i hm
        rw [searchL]
        have hy : y ∈ xs := hm y List.mem_cons_self
        obtain ⟨n, hn, he⟩ := List.getElem_of_mem hy
        refine then_pairwise (ih y hy (ht.pos (i := n) (by rw [List.getElem?_eq_getElem hn, he]))) (ihy (i + 1) fun z hz => hm z (List.mem_cons_of_mem _ hz)) fun x hx z hz => ?_
        obtain ⟨j, c, _, hz⟩ := searchL_yields hz
        obtain ⟨js, _, h1, _⟩ := search_sound hx
        obtain ⟨ks, _, h2, _⟩ := search_sound hz
        rw [h1, h2, List.append_assoc, List.append_assoc]
        exact .apart (.pos (by omega))
    refine then_pairwise (hL xs 0 fun _ h => h) visit_pairwise fun x hx y hy => ?_
    obtain ⟨j, c, _, hx⟩ := searchL_yields hx
    obtain ⟨js, _, h1, _⟩ := search_sound hx
    rw [h1, (visit_yields.1 hy).1, List.append_assoc]
    exact .inside (by simp)
  | h0 v h1 h2 =>
    intro r _
    rw [search_leaf h1 h2]
    exact visit_pairwise

theorem search_none {p : Pat} (hp : ∀ w, ∃ o, getmatch p w = .ok o) {v : Val} : ∀ {r : List Ix}, (search p v r).fails = none := by
  have hv : ∀ v r, (visit p v r).fails = none := by
    intro v r
    obtain ⟨o, ho⟩ := hp v
    cases o <;> simp [visit, ho, Gen.done]
  induction v using val_ind with
  | hd d ih =>
    intro r
    rw [search]
    refine then_none (inTurn_none fun g hg => ?_) (hv _ _)
    obtain ⟨v, hm, he⟩ := mem_searchD.1 (mem_byKey.1 hg)
    rw [he]
    exact ih _ _ hm
  | ha xs ih => intro r; rw [search]; exact then_none (searchL_none fun x hx r => ih x hx) (hv _ _)
  | h0 v h1 h2 => intro r; rw [search_leaf h1 h2]; exact hv _ _

/-! ## Patterns that never raise -/

mutual
/-- Names of groups are only given to patterns of the classes. -/
def Pat.sane : Pat → Bool
  | .dict ps => saneD ps
  | .min ps => saneD ps
  | .arr ps => saneL ps
  | .start ps => saneL ps
  | .end_ ps => saneL ps
  | .or ps => saneL ps
  | .and ps => saneL ps
  | .group _ p => p.isMatcher && p.sane
  | _ => true
@[inherit_doc Pat.sane] def saneD : List (String × Pat) → Bool
  | [] => true
  | (_, p) :: ps => p.sane && saneD ps
@[inherit_doc Pat.sane] def saneL : List Pat → Bool
  | [] => true
  | p :: ps => p.sane && saneL ps
end

mutual
theorem getmatch_total : ∀ (p : Pat) (v : Val), p.sane = true → ∃ o, getmatch p v = .ok o
  | .dict ps, v, hs => by
    cases v with
    | dict d =>
      by_cases hc : ((names ps).all (· ∈ names d) && (names d).all (· ∈ names ps)) = true
      · rw [getmatch, if_pos hc]
        simp only [Bool.and_eq_true, List.all_eq_true, decide_eq_true_eq, names_mem] at hc
        obtain ⟨o, ho⟩ := matchD_total ps d (by simpa only [Pat.sane] using hs) (fun k h1 h2 => (hc.1 k ⟨h1, h2⟩).1) ⟨[], [], []⟩
        rw [ho]
        cases o <;> exact ⟨_, rfl⟩
      · rw [getmatch, if_neg hc]; exact ⟨_, rfl⟩
    | _ => exact ⟨_, rfl⟩
  | .min ps, v, hs => by
    cases v with
    | dict d =>
      by_cases hc : ((names ps).all (fun k => decide (k ∈ PyDict.keys d))) = true
      · rw [getmatch, if_pos hc]
        simp only [List.all_eq_true, decide_eq_true_eq, names_mem] at hc
        obtain ⟨o, ho⟩ := matchD_total ps d (by simpa only [Pat.sane] using hs) (fun k h1 h2 => hc k ⟨h1, h2⟩) ⟨bareD d, bareD d, []⟩
        rw [ho]
        cases o <;> exact ⟨_, rfl⟩
      · rw [getmatch, if_neg hc]; exact ⟨_, rfl⟩
    | _ => exact ⟨_, rfl⟩
  | .arr ps, v, hs => by
    cases v with
    | arr xs =>
      by_cases hl : ps.length = xs.length
      · obtain ⟨o, ho⟩ := matchL_total ps xs (by simpa only [Pat.sane] using hs) (le_of_eq hl)
        rw [getmatch, if_neg (not_not.2 hl), ho]; exact ⟨_, rfl⟩
      · rw [getmatch, if_pos hl]; exact ⟨_, rfl⟩
    | _ => exact ⟨_, rfl⟩
  | .start ps, v, hs => by
    cases v with
    | arr xs =>
      by_cases hl : ps.length > xs.length
      · rw [getmatch, if_pos hl]; exact ⟨_, rfl⟩
      · obtain ⟨o, ho⟩ := matchL_total ps xs (by simpa only [Pat.sane] using hs) (not_lt.1 hl)
        rw [getmatch, if_neg hl, ho]; exact ⟨_, rfl⟩
    | _ => exact ⟨_, rfl⟩
  | .end_ ps, v, hs => by
    cases v with
    | arr xs =>
      by_cases hl : ps.length > xs.length
      · rw [getmatch, if_pos hl]; exact ⟨_, rfl⟩
      · obtain ⟨o, ho⟩ := matchL_total ps (xs.drop (xs.length - ps.length)) (by simpa only [Pat.sane] using hs) (by simp; omega)
        rw [getmatch, if_neg hl, ho]; exact ⟨_, rfl⟩
    | _ => exact ⟨_, rfl⟩
  | .lit l, v, _ => by rw [getmatch]; exact ⟨_, rfl⟩
  | .null, v, _ => by cases v <;> exact ⟨_, rfl⟩
  | .group n p, v, hs => by
    simp only [Pat.sane, Bool.and_eq_true] at hs
    obtain ⟨o, ho⟩ := getmatch_total p v hs.2
    rw [getmatch, if_pos hs.1, ho]
    cases o <;> exact ⟨_, rfl⟩
  | .or ps, v, hs => by rw [getmatch]; exact matchOr_total ps v (by simpa only [Pat.sane] using hs)
  | .and ps, v, hs => by rw [getmatch]; exact matchAnd_total ps v (by simpa only [Pat.sane] using hs) none
  | .approx c e, v, _ => by rw [getmatch]; cases num? v <;> exact ⟨_, rfl⟩
  | .lt y, v, _ => by rw [getmatch]; cases num? v <;> exact ⟨_, rfl⟩
  | .le y, v, _ => by rw [getmatch]; cases num? v <;> exact ⟨_, rfl⟩
  | .gt y, v, _ => by rw [getmatch]; cases num? v <;> exact ⟨_, rfl⟩
  | .ge y, v, _ => by rw [getmatch]; cases num? v <;> exact ⟨_, rfl⟩
  | .regex ok sub, v, _ => by
    cases v with
    | str s => simp only [getmatch]; by_cases h : ok s = true <;> simp [h]
    | _ => exact ⟨_, rfl⟩
  | .any types, v, _ => by rw [getmatch]; exact ⟨_, rfl⟩
theorem matchD_total : ∀ (ps : List (String × Pat)) (d : List (String × Val)), saneD ps = true →
    (∀ k ∈ PyDict.keys ps, k ≠ "@" → k ∈ PyDict.keys d) → ∀ f, ∃ o, matchD ps d f = .ok o
  | [], d, _, _, f => ⟨some f, by rw [matchD]⟩
  | (k, p) :: ps, d, hs, hk, f => by
    simp only [saneD, Bool.and_eq_true] at hs
    have hk' : ∀ k ∈ PyDict.keys ps, k ≠ "@" → k ∈ PyDict.keys d := fun k' h => hk k' (by rw [keys_cons]; exact List.mem_cons_of_mem _ h)
    by_cases hat : k = "@"
    · rw [matchD, if_pos hat]; exact matchD_total ps d hs.2 hk' f
    · obtain ⟨v, hg⟩ := get?_some_of_mem (hk k (by rw [keys_cons]; exact List.mem_cons_self) hat)
      obtain ⟨o, ho⟩ := getmatch_total p v hs.1
      rw [matchD, if_neg hat, hg]
      simp only [ho]
      cases o with
      | none => exact ⟨_, rfl⟩
      | some m => exact matchD_total ps d hs.2 hk' _
theorem matchL_total : ∀ (ps : List Pat) (xs : List Val), saneL ps = true → ps.length ≤ xs.length → ∃ o, matchL ps xs = .ok o
  | [], xs, _, _ => ⟨some [], by rw [matchL]⟩
  | p :: ps, [], _, hl => by simp at hl
  | p :: ps, x :: xs, hs, hl => by
    simp only [saneL, Bool.and_eq_true] at hs
    obtain ⟨o, ho⟩ := getmatch_total p x hs.1
    obtain ⟨o', ho'⟩ := matchL_total ps xs hs.2 (by simpa using hl)
    rw [matchL]
    simp only [ho, ho']
    cases o <;> cases o' <;> exact ⟨_, rfl⟩
theorem matchOr_total : ∀ (ps : List Pat) (v : Val), saneL ps = true → ∃ o, matchOr ps v = .ok o
  | [], v, _ => ⟨none, by rw [matchOr]⟩
  | p :: ps, v, hs => by
    simp only [saneL, Bool.and_eq_true] at hs
    obtain ⟨o, ho⟩ := getmatch_total p v hs.1
    rw [matchOr]
    simp only [ho]
    cases o with
    | none => exact matchOr_total ps v hs.2
    | some m => exact ⟨_, rfl⟩
theorem matchAnd_total : ∀ (ps : List Pat) (v : Val), saneL ps = true → ∀ last, ∃ o, matchAnd ps v last = .ok o
  | [], v, _, last => ⟨last, by rw [matchAnd]⟩
  | p :: ps, v, hs, last => by
    simp only [saneL, Bool.and_eq_true] at hs
    obtain ⟨o, ho⟩ := getmatch_total p v hs.1
    rw [matchAnd]
    simp only [ho]
    cases o with
    | none => exact ⟨_, rfl⟩
    | some m => exact matchAnd_total ps v hs.2 _
end

/-! ## The functions -/

/-- Nothing comes before itself. -/
theorem before_irrefl (js : List Ix) : ¬ Before js js := by
  intro h
  generalize he : js = ks at h
  have h' : Before js ks := by rw [he]; exact he ▸ h
  cases h' with
  | @inside _ s hs => exact hs (by simpa using he)
  | @apart p r s a b hab =>
    have := List.append_cancel_left he
    injection this with this _
    subst this
    cases hab with
    | key h => exact String.lt_irrefl _ h
    | pos h => exact lt_irrefl _ h

/-- **C82.** For a pattern that never raises, `indexes` gives every place that matches, and only those, each once, in order. -/
theorem indexes_spec {p : Pat} {v : Val} (hp : p.sane = true) (ht : Tidy v) : ∃ is, indexes p v = .ok is ∧ is.Nodup ∧ is.Pairwise Before ∧
    count p v = .ok is.length ∧ ∀ js, js ∈ is ↔ ∃ w m, Sub v js w ∧ getmatch p w = .ok (some m) := by
  have hn : (search p v []).fails = none := search_none (fun w => getmatch_total p w hp)
  have ho : ((search p v []).yields.map (·.1)).Pairwise Before := List.pairwise_map.2 (search_order ht)
  refine ⟨(search p v []).yields.map (·.1), by simp only [indexes, Gen.all, hn]; rfl, ?_, ho, ?_, fun js => ?_⟩
  · exact List.Pairwise.imp (R := Before) (S := fun a b => a ≠ b) (fun {a b} h e => before_irrefl b (by rw [e] at h; exact h)) ho
  · simp only [count, Gen.all, hn, List.length_map]; rfl
  · rw [List.mem_map]
    constructor
    · rintro ⟨x, hx, rfl⟩
      obtain ⟨js, w, h1, h2, h3⟩ := search_sound hx
      exact ⟨w, x.2, by rw [h1]; exact h2, h3⟩
    · rintro ⟨w, m, h1, h2⟩
      exact ⟨_, search_complete h1 h2 hn, rfl⟩

/-- **C82.** `index`, `contains`, `findRef` and `findCopy` are about the same place: the first of `indexes`. -/
theorem searchFirst_spec {p : Pat} {v : Val} (hp : p.sane = true) (ht : Tidy v) :
    (contains p v = .ok false ∧ index p v = .ok none ∧ findRef p v = .ok none ∧ findCopy p v = .ok none ∧ ∀ js w m, Sub v js w → getmatch p w ≠ .ok (some m)) ∨
    ∃ js w m, contains p v = .ok true ∧ index p v = .ok (some js) ∧ findRef p v = .ok (some w) ∧ findCopy p v = .ok (some m.original) ∧
      Sub v js w ∧ getmatch p w = .ok (some m) ∧ Like m.original w ∧
      ∀ js' w' m', Sub v js' w' → getmatch p w' = .ok (some m') → js' = js ∨ Before js js' := by
  have hn : (search p v []).fails = none := search_none (fun w => getmatch_total p w hp)
  cases hy : (search p v []).yields with
  | nil =>
    have hf : searchFirst p v = .ok none := by simp [searchFirst, Gen.first, hy, hn]
    refine .inl ⟨by simp only [contains, hf]; rfl, by simp only [index, hf]; rfl, by simp only [findRef, hf], by simp only [findCopy, hf]; rfl, fun js w m h1 h2 => ?_⟩
    have := search_complete h1 h2 hn
    rw [hy] at this
    cases this
  | cons x xs =>
    have hf : searchFirst p v = .ok (some x) := by simp [searchFirst, Gen.first, hy]
    obtain ⟨js, w, h1, h2, h3⟩ := search_sound (p := p) (v := v) (r := []) (x := x) (by rw [hy]; exact List.mem_cons_self)
    rw [List.nil_append] at h1
    refine .inr ⟨js, w, x.2, by simp only [contains, hf]; rfl, by simp only [index, hf, h1.symm]; rfl, ?_, by simp only [findCopy, hf]; rfl, h2, h3,
      original_like h3, fun js' w' m' h4 h5 => ?_⟩
    · simp only [findRef, hf, h1, get_sub ht h2]; rfl
    · have := search_complete h4 h5 hn
      rw [hy] at this
      rcases List.mem_cons.1 this with h | h
      · exact .inl (by rw [← h1, ← h]; rfl)
      · have ho := search_order (p := p) (r := []) ht
        rw [hy] at ho
        exact .inr (by have := (List.pairwise_cons.1 ho).1 _ h; rw [h1] at this; exact this)

/-- The hypotheses hold for this document and pattern, which is found twice. -/
theorem indexes_example : (Pat.or [.group "g" (.any [.int]), .lit (.str "b")]).sane = true ∧
    Tidy (.dict [("x", .arr [.int 1, .null]), ("a", .str "b")]) := by
  refine ⟨rfl, fun js d h => ?_⟩
  cases h with
  | here => decide
  | key hm h =>
    simp at hm
    rcases hm with ⟨rfl, rfl⟩ | ⟨rfl, rfl⟩
    · cases h with
      | @pos xs i c w js hm h =>
        match i, hm with
        | 0, hm => simp at hm; subst hm; cases h
        | 1, hm => simp at hm; subst hm; cases h
        | n + 2, hm => simp at hm
    · cases h

end Verif.Producer
