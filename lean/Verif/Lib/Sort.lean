import Verif.Lib.Eff
import Mathlib.Data.List.Perm.Basic
import Mathlib.Order.Defs.LinearOrder
/-!
# Sorting (C29) and top-n selection (C30)

Models `titus/lib/array.py` 46-50, 369-383, 405-661 and `titus/lib/map.py` 195-325.

Python's `sorted` is modelled by a stable insertion sort that calls the comparison function the
way `functools.cmp_to_key` does (only `cmp(x, y) < 0` is asked).  Which comparisons CPython makes
is not modelled; for a strict weak order the result does not depend on it, because a stable sort
has only one result (`stable_sort_unique`).
-/

namespace Verif.Lib

variable {σ α ι κ : Type _}

/-! ## Model -/

/-- Insertion of `x` behind the elements it is not smaller than (one step of `sorted`). -/
def insertA (lt : α → α → Eff σ Bool) (x : α) : List α → Eff σ (List α)
  | [], s => (.ok [x], s)
  | y :: ys, s =>
    match lt x y s with
    | (.error e, s1) => (.error e, s1)
    | (.ok true, s1) => (.ok (x :: y :: ys), s1)
    | (.ok false, s1) =>
      match insertA lt x ys s1 with
      | (.error e, s2) => (.error e, s2)
      | (.ok zs, s2) => (.ok (y :: zs), s2)

/-- `sorted(a, key=cmp_to_key(cmp))` where `lt x y` is `cmp(x, y) < 0`. -/
def sortedLoop (lt : α → α → Eff σ Bool) : List α → List α → Eff σ (List α)
  | out, [], s => (.ok out, s)
  | out, x :: xs, s =>
    match insertA lt x out s with
    | (.error e, s1) => (.error e, s1)
    | (.ok out', s1) => sortedLoop lt out' xs s1

/-- `toCmp` (array.py 46-47). -/
def toCmp (lessThan : α → α → Eff σ Bool) (a b : α) : Eff σ Int := fun s =>
  match lessThan a b s with
  | (.error e, s1) => (.error e, s1)
  | (.ok true, s1) => (.ok (-1), s1)
  | (.ok false, s1) =>
    match lessThan b a s1 with
    | (.error e, s2) => (.error e, s2)
    | (.ok true, s2) => (.ok 1, s2)
    | (.ok false, s2) => (.ok 0, s2)

/-- `cmp(x, y) < 0`. -/
def cmpLt (cmp : α → α → Eff σ Int) (a b : α) : Eff σ Bool := fun s =>
  match cmp a b s with
  | (.error e, s1) => (.error e, s1)
  | (.ok r, s1) => (.ok (decide (r < 0)), s1)

/-- `a.sort` (array.py 369-375) for a comparison function `compare` of the item type. -/
def sort (compare : α → α → Eff σ Int) (a : List α) : Eff σ (List α) :=
  sortedLoop (cmpLt compare) [] a

/-- `a.sortLT` (array.py 377-383). -/
def sortLT (lessThan : α → α → Eff σ Bool) (a : List α) : Eff σ (List α) :=
  sort (toCmp lessThan) a

/-- The inner loop of `highestN` and `lowestN` with `before x best` the test that makes `x` go in
front of `best`: insertion at the first such place, or at the end (array.py 409-415). -/
def insertBefore (before : α → α → Bool) (x : α) : List α → List α
  | [] => [x]
  | y :: ys => if before x y then x :: y :: ys else y :: insertBefore before x ys

/-- `if len(out) > n: out.pop()` (array.py 416-417). -/
def popOver (n : Nat) (out : List α) : List α := if out.length > n then out.dropLast else out

/-- `highestN` (array.py 405-418). -/
def highestN (lt : α → α → Bool) (n : Nat) (a : List α) : List α :=
  a.foldl (fun out x => popOver n (insertBefore (fun x best => lt best x) x out)) []

/-- `lowestN` (array.py 420-433). -/
def lowestN (lt : α → α → Bool) (n : Nat) (a : List α) : List α :=
  a.foldl (fun out x => popOver n (insertBefore (fun x best => lt x best) x out)) []

/-- The `while` loop of `argHighestN`/`argLowestN` (array.py 441-442), on the rest of `out` from
position `ind`: moves past equal elements with a larger index.  At the end of the list the test
`ind <= len(out)` still holds and `out[ind]` raises IndexError. -/
def advance (lt : α → α → Bool) (i : Int) (x : α) : List (Int × α) → Res (List (Int × α))
  | [] => .error (.py "IndexError")
  | (bi, bx) :: rest =>
    if !lt bx x && !lt x bx && decide (bi > i) then (advance lt i x rest).map ((bi, bx) :: ·)
    else .ok ((i, x) :: (bi, bx) :: rest)

/-- The inner loop of `argHighestN`/`argLowestN` (array.py 438-447). -/
def argInsert (lt : α → α → Bool) (before : α → α → Bool) (i : Int) (x : α) :
    List (Int × α) → Res (List (Int × α))
  | [] => .ok [(i, x)]
  | (bi, bx) :: rest =>
    if before x bx then advance lt i x ((bi, bx) :: rest)
    else (argInsert lt before i x rest).map ((bi, bx) :: ·)

/-- The outer loop of `argHighestN`/`argLowestN` with index `i` of the next element. -/
def argLoop (lt : α → α → Bool) (before : α → α → Bool) (n : Nat) :
    Int → List α → List (Int × α) → Res (List (Int × α))
  | _, [], out => .ok out
  | i, x :: xs, out =>
    match argInsert lt before i x out with
    | .error e => .error e
    | .ok out' => argLoop lt before n (i + 1) xs (popOver n out')

/-- `argHighestN` (array.py 435-451). -/
def argHighestN (lt : α → α → Bool) (n : Nat) (a : List α) : Res (List Int) :=
  (argLoop lt (fun x best => lt best x) n 0 a []).map (List.map Prod.fst)

/-- `argLowestN` (array.py 453-469). -/
def argLowestN (lt : α → α → Bool) (n : Nat) (a : List α) : Res (List Int) :=
  (argLoop lt (fun x best => lt x best) n 0 a []).map (List.map Prod.fst)

/-- `a.maxN`, `a.minN`, `a.maxNLT`, `a.minNLT`, `a.argmaxN`, ... (array.py 515-661): the checks in
front of the selection. -/
def checkedN {β : Type _} (base : Int) (a : List α) (n : Int) (f : Nat → Res β) : Res β :=
  if a.length = 0 then .error (.rt base)
  else if n < 0 then .error (.rt (base + 1))
  else f n.toNat

/-- `[0]` of a selection. -/
def firstOf {β : Type _} : List β → Res β
  | [] => .error (.py "IndexError")
  | x :: _ => .ok x

/-- `a.max`, `a.min`, `a.maxLT`, `a.minLT`, `a.argmax`, ...: `highestN(a, 1, lt)[0]`
(array.py 471-513, 567-609). -/
def checkedOne {β : Type _} (base : Int) (a : List α) (f : Nat → Res (List β)) : Res β :=
  if a.length = 0 then .error (.rt base) else (f 1).bind firstOf

/-- The `while` loop of the map versions (map.py 202-203, 220-221). -/
def mapAdvance [LT κ] [DecidableLT κ] (lt : α → α → Bool) (k : κ) (x : α) :
    List (κ × α) → List (κ × α)
  | [] => [(k, x)]
  | (bk, bx) :: rest =>
    if !lt bx x && !lt x bx && decide (bk < k) then (bk, bx) :: mapAdvance lt k x rest
    else (k, x) :: (bk, bx) :: rest

/-- The inner loop of the map versions (map.py 199-208); `before x best` is `lt(bestx, x)` in
`argHighestN` and `lt(x, bestx)` in `argLowestN`, `notAfter` the negated reverse test. -/
def mapInsert [LT κ] [DecidableLT κ] (lt : α → α → Bool) (before : α → α → Bool) (k : κ) (x : α) :
    List (κ × α) → List (κ × α)
  | [] => [(k, x)]
  | (bk, bx) :: rest =>
    if before x bx || (!before bx x && decide (bk > k)) then mapAdvance lt k x ((bk, bx) :: rest)
    else (bk, bx) :: mapInsert lt before k x rest

/-- `argHighestN` of the map library (map.py 195-211). -/
def mapArgHighestN [LT κ] [DecidableLT κ] (lt : α → α → Bool) (n : Nat) (m : List (κ × α)) : List κ :=
  (m.foldl (fun out kx => popOver n (mapInsert lt (fun x best => lt best x) kx.1 kx.2 out)) []).map
    Prod.fst

/-- `argLowestN` of the map library (map.py 213-229). -/
def mapArgLowestN [LT κ] [DecidableLT κ] (lt : α → α → Bool) (n : Nat) (m : List (κ × α)) : List κ :=
  (m.foldl (fun out kx => popOver n (mapInsert lt (fun x best => lt x best) kx.1 kx.2 out)) []).map
    Prod.fst

/-! ## Specification -/

/-- A strict weak order given by a Boolean function. -/
structure StrictWeak (lt : α → α → Bool) : Prop where
  irrefl : ∀ x, lt x x = false
  trans : ∀ x y z, lt x y = true → lt y z = true → lt x z = true
  /-- incomparability is transitive -/
  cotrans : ∀ x y z, lt x y = true → lt x z = true ∨ lt z y = true

/-- Neither is smaller. -/
def Tie (lt : α → α → Bool) (x y : α) : Bool := !lt x y && !lt y x

/-- `r` is a stable sort of `a`: same elements, no element after a larger one, ties in the
original order. -/
structure StableSort (lt : α → α → Bool) (a r : List α) : Prop where
  perm : r.Perm a
  sorted : r.Pairwise (fun x y => lt y x = false)
  stable : ∀ x, r.filter (Tie lt x) = a.filter (Tie lt x)

/-- `r` is the right choice of the `n` smallest elements of `a`: the first `n` of a stable sort. -/
def Smallest (lt : α → α → Bool) (n : Nat) (a r : List α) : Prop :=
  ∃ b, StableSort lt a b ∧ r = b.take n

/-! ## Proofs -/

namespace StrictWeak
variable {lt : α → α → Bool} (h : StrictWeak lt)
include h

theorem asymm {x y : α} (hxy : lt x y = true) : lt y x = false := by
  by_contra hc
  rw [Bool.not_eq_false] at hc
  have := h.trans x y x hxy hc
  rw [h.irrefl] at this; cases this

theorem flip : StrictWeak (fun x y => lt y x) where
  irrefl := h.irrefl
  trans := fun x y z h1 h2 => h.trans z y x h2 h1
  cotrans := fun x y z h1 => (h.cotrans y x z h1).symm

theorem tie_refl (x : α) : Tie lt x x = true := by simp [Tie, h.irrefl]

theorem tie_symm {x y : α} (hxy : Tie lt x y = true) : Tie lt y x = true := by
  simp only [Tie, Bool.and_eq_true] at *; exact ⟨hxy.2, hxy.1⟩

theorem tie_trans {x y z : α} (h1 : Tie lt x y = true) (h2 : Tie lt y z = true) :
    Tie lt x z = true := by
  simp only [Tie, Bool.and_eq_true, Bool.not_eq_true'] at *
  constructor
  · by_contra hc; rw [Bool.not_eq_false] at hc
    rcases h.cotrans _ _ y hc with h' | h'
    · rw [h1.1] at h'; cases h'
    · rw [h2.1] at h'; cases h'
  · by_contra hc; rw [Bool.not_eq_false] at hc
    rcases h.cotrans _ _ y hc with h' | h'
    · rw [h2.2] at h'; cases h'
    · rw [h1.2] at h'; cases h'

/-- `¬ y < x` is transitive. -/
theorem notlt_trans {x y z : α} (h1 : lt y x = false) (h2 : lt z y = false) : lt z x = false := by
  by_contra hc; rw [Bool.not_eq_false] at hc
  rcases h.cotrans _ _ y hc with h' | h'
  · rw [h2] at h'; cases h'
  · rw [h1] at h'; cases h'
end StrictWeak

theorem insertBefore_perm (b : α → α → Bool) (x : α) (out : List α) :
    (insertBefore b x out).Perm (x :: out) := by
  induction out with
  | nil => exact .refl _
  | cons y ys ih =>
    simp only [insertBefore]
    split
    · exact .refl _
    · exact (ih.cons y).trans (.swap x y ys)

theorem insertBefore_sorted {lt : α → α → Bool} (h : StrictWeak lt) (x : α) {out : List α}
    (ho : out.Pairwise (fun x y => lt y x = false)) :
    (insertBefore lt x out).Pairwise (fun x y => lt y x = false) := by
  induction out with
  | nil => simp [insertBefore]
  | cons y ys ih =>
    simp only [insertBefore]
    obtain ⟨h1, h2⟩ := List.pairwise_cons.1 ho
    split
    · next hlt =>
      refine List.pairwise_cons.2 ⟨?_, ho⟩
      intro z hz
      rcases List.mem_cons.1 hz with rfl | hz
      · exact h.asymm hlt
      · exact h.notlt_trans (h.asymm hlt) (h1 z hz)
    · next hlt =>
      refine List.pairwise_cons.2 ⟨?_, ih h2⟩
      intro z hz
      rcases List.mem_cons.1 ((insertBefore_perm lt x ys).mem_iff.1 hz) with rfl | hz
      · simpa using hlt
      · exact h1 z hz

/-- Inserting keeps each class of ties in order, the new element last. -/
theorem insertBefore_filter {lt : α → α → Bool} (h : StrictWeak lt) (x t : α) {out : List α}
    (ho : out.Pairwise (fun x y => lt y x = false)) :
    (insertBefore lt x out).filter (Tie lt t) =
      out.filter (Tie lt t) ++ if Tie lt t x then [x] else [] := by
  induction out with
  | nil => simp [insertBefore, List.filter_cons]
  | cons y ys ih =>
    obtain ⟨h1, h2⟩ := List.pairwise_cons.1 ho
    simp only [insertBefore]
    split
    · next hlt =>
      by_cases ht : Tie lt t x = true
      · have hnone : (y :: ys).filter (Tie lt t) = [] := by
          rw [List.filter_eq_nil_iff]
          intro z hz htz
          have hxz : Tie lt x z = true := h.tie_trans (h.tie_symm ht) htz
          have hzx : lt x z = false := by
            simp only [Tie, Bool.and_eq_true, Bool.not_eq_true'] at hxz; exact hxz.1
          rcases List.mem_cons.1 hz with rfl | hz
          · rw [hlt] at hzx; cases hzx
          · rcases h.cotrans _ _ z hlt with h' | h'
            · rw [hzx] at h'; cases h'
            · rw [h1 z hz] at h'; cases h'
        rw [List.filter_cons, if_pos ht, hnone, if_pos ht]; rfl
      · rw [List.filter_cons, if_neg ht, if_neg ht, List.append_nil]
    · rw [List.filter_cons, List.filter_cons, ih h2]
      split <;> simp

/-- The loop without truncation. -/
def insertAll (lt : α → α → Bool) (a out : List α) : List α :=
  a.foldl (fun out x => insertBefore lt x out) out

theorem insertAll_spec {lt : α → α → Bool} (h : StrictWeak lt) (a out : List α)
    (ho : out.Pairwise (fun x y => lt y x = false)) :
    (insertAll lt a out).Perm (out ++ a) ∧
    (insertAll lt a out).Pairwise (fun x y => lt y x = false) ∧
    ∀ t, (insertAll lt a out).filter (Tie lt t) = (out ++ a).filter (Tie lt t) := by
  induction a generalizing out with
  | nil => simp [insertAll, ho]
  | cons x xs ih =>
    obtain ⟨h1, h2, h3⟩ := ih _ (insertBefore_sorted h x ho)
    simp only [insertAll, List.foldl_cons] at *
    refine ⟨?_, h2, ?_⟩
    · refine h1.trans ?_
      refine ((insertBefore_perm lt x out).append_right xs).trans ?_
      exact List.perm_middle.symm
    · intro t
      rw [h3, List.filter_append, insertBefore_filter h x t ho, List.filter_append, List.filter_cons]
      split <;> simp

theorem insertAll_stable {lt : α → α → Bool} (h : StrictWeak lt) (a : List α) :
    StableSort lt a (insertAll lt a []) := by
  obtain ⟨h1, h2, h3⟩ := insertAll_spec h a [] .nil
  exact ⟨by simpa using h1, h2, by simpa using h3⟩

/-- A list has only one stable sort. -/
theorem stable_sort_unique {lt : α → α → Bool} (h : StrictWeak lt) {a r r' : List α}
    (hr : StableSort lt a r) (hr' : StableSort lt a r') : r = r' := by
  have hp : r.Perm r' := hr.perm.trans hr'.perm.symm
  have hf : ∀ x, r.filter (Tie lt x) = r'.filter (Tie lt x) := fun x =>
    (hr.stable x).trans (hr'.stable x).symm
  have hs := hr.sorted
  have hs' := hr'.sorted
  clear hr hr'
  induction r generalizing r' with
  | nil => exact (List.nil_perm.1 hp).symm
  | cons x xs ih =>
    match r' with
    | [] => exact absurd hp.length_eq (by simp)
    | y :: ys =>
      obtain ⟨h1, h2⟩ := List.pairwise_cons.1 hs
      obtain ⟨h1', h2'⟩ := List.pairwise_cons.1 hs'
      have hxy : Tie lt x y = true := by
        simp only [Tie, Bool.and_eq_true, Bool.not_eq_true']
        constructor
        · rcases List.mem_cons.1 (hp.mem_iff.1 (List.mem_cons_self (a := x))) with rfl | hm
          · exact h.irrefl _
          · exact h1' x hm
        · rcases List.mem_cons.1 (hp.mem_iff.2 (List.mem_cons_self (a := y))) with rfl | hm
          · exact h.irrefl _
          · exact h1 y hm
      have he := hf x
      rw [List.filter_cons, if_pos (h.tie_refl x), List.filter_cons, if_pos hxy] at he
      obtain ⟨rfl, _⟩ := List.cons.inj he
      congr 1
      refine ih (List.Perm.cons_inv hp) ?_ h2 h2'
      intro t
      have he := hf t
      rw [List.filter_cons, List.filter_cons] at he
      split at he
      · exact (List.cons.inj he).2
      · exact he

/-! ### a.sort and a.sortLT -/

theorem insertA_pure (lt : α → α → Bool) (x : α) (out : List α) (s : σ) :
    insertA (fun a b => ret (lt a b)) x out s = (.ok (insertBefore lt x out), s) := by
  induction out with
  | nil => rfl
  | cons y ys ih =>
    simp only [insertA, ret, insertBefore]
    cases h : lt x y
    · simp [ih]
    · simp

theorem sortedLoop_pure (lt : α → α → Bool) (a out : List α) (s : σ) :
    sortedLoop (fun a b => ret (lt a b)) out a s = (.ok (insertAll lt a out), s) := by
  induction a generalizing out with
  | nil => rfl
  | cons x xs ih => simp only [sortedLoop, insertA_pure, ih]; rfl

/-- `a.sort` with a comparison function that is a total preorder returns the stable sort. -/
theorem sort_spec (cmp : α → α → Int) (h : StrictWeak (fun x y => decide (cmp x y < 0)))
    (a : List α) (s : σ) :
    ∃ r, sort (fun x y => ret (cmp x y)) a s = (.ok r, s) ∧
      StableSort (fun x y => decide (cmp x y < 0)) a r :=
  ⟨_, sortedLoop_pure _ a [] s, insertAll_stable h a⟩

/-- `a.sortLT` with a strict weak order returns the stable sort. -/
theorem sortLT_spec (lt : α → α → Bool) (h : StrictWeak lt) (a : List α) (s : σ) :
    ∃ r, sortLT (fun x y => ret (lt x y)) a s = (.ok r, s) ∧ StableSort lt a r := by
  refine ⟨insertAll lt a [], ?_, insertAll_stable h a⟩
  have : cmpLt (toCmp (fun x y => ret (lt x y))) = (fun x y => ret (σ := σ) (lt x y)) := by
    funext x y s
    simp only [cmpLt, toCmp, ret]
    cases h1 : lt x y
    · cases h2 : lt y x <;> simp
    · simp
  rw [sortLT, sort, this]
  exact sortedLoop_pure lt a [] s

theorem insertA_perm {lt : α → α → Eff σ Bool} {x : α} {out r : List α} {s s' : σ}
    (h : insertA lt x out s = (.ok r, s')) : r.Perm (x :: out) := by
  induction out generalizing s r with
  | nil => simp only [insertA] at h; cases h; exact .refl _
  | cons y ys ih =>
    simp only [insertA] at h
    rcases hl : lt x y s with ⟨b, s1⟩
    rw [hl] at h
    rcases b with e | b
    · cases h
    · cases b with
      | true => cases h; exact .refl _
      | false =>
        simp only at h
        rcases hi : insertA lt x ys s1 with ⟨q, s2⟩
        rw [hi] at h
        rcases q with e | zs
        · cases h
        · cases h; exact ((ih hi).cons y).trans (.swap x y ys)

/-- Whatever the comparison function does, a result of sorting is a rearrangement of the array. -/
theorem sort_perm (cmp : α → α → Eff σ Int) (a r : List α) (s s' : σ)
    (h : sort cmp a s = (.ok r, s')) : r.Perm a := by
  suffices hs : ∀ (a out r : List α) (s : σ), sortedLoop (cmpLt cmp) out a s = (.ok r, s') →
      r.Perm (out ++ a) by simpa using hs a [] r s h
  intro a
  induction a with
  | nil => intro out r s h; simp only [sortedLoop] at h; cases h; simp
  | cons x xs ih =>
    intro out r s h
    simp only [sortedLoop] at h
    rcases hi : insertA (cmpLt cmp) x out s with ⟨q, s1⟩
    rw [hi] at h
    rcases q with e | out'
    · cases h
    · refine (ih out' r s1 h).trans ?_
      exact ((insertA_perm hi).append_right xs).trans List.perm_middle.symm

/-- An exception of the comparison function ends the sort, and sorting raises nothing else. -/
theorem sort_raises (cmp : α → α → Eff σ Int) (a : List α) (s s' : σ) (e : Err)
    (h : sort cmp a s = (.error e, s')) :
    ∃ x y s1, x ∈ a ∧ y ∈ a ∧ cmp x y s1 = (.error e, s') := by
  have ins : ∀ (x : α) (out : List α) (s : σ), insertA (cmpLt cmp) x out s = (.error e, s') →
      ∃ y s1, y ∈ out ∧ cmp x y s1 = (.error e, s') := by
    intro x out
    induction out with
    | nil => intro s h; simp [insertA] at h
    | cons y ys ih =>
      intro s h
      simp only [insertA, cmpLt] at h
      rcases hc : cmp x y s with ⟨q, s1⟩
      rw [hc] at h
      rcases q with e' | v
      · simp only at h; cases h; exact ⟨y, s, by simp, hc⟩
      · simp only at h
        by_cases hv : v < 0
        · simp [hv] at h
        · simp only [hv, decide_false] at h
          rcases hi : insertA (fun a b s => cmpLt cmp a b s) x ys s1 with ⟨q2, s2⟩
          have hi' : insertA (cmpLt cmp) x ys s1 = (q2, s2) := hi
          change (match insertA (cmpLt cmp) x ys s1 with
            | (.error e, s2) => ((.error e : Res (List α)), s2)
            | (.ok zs, s2) => (.ok (y :: zs), s2)) = _ at h
          rw [hi'] at h
          rcases q2 with e2 | zs
          · cases h
            obtain ⟨z, s3, hz, h3⟩ := ih s1 hi'
            exact ⟨z, s3, by simp [hz], h3⟩
          · cases h
  suffices hs : ∀ (b out : List α) (s : σ), (∀ z ∈ out, z ∈ a) → (∀ z ∈ b, z ∈ a) →
      sortedLoop (cmpLt cmp) out b s = (.error e, s') →
      ∃ x y s1, x ∈ a ∧ y ∈ a ∧ cmp x y s1 = (.error e, s') by
    exact hs a [] s (by simp) (fun _ h => h) h
  intro b
  induction b with
  | nil => intro out s _ _ h; simp [sortedLoop] at h
  | cons x xs ih =>
    intro out s ho hb h
    simp only [sortedLoop] at h
    rcases hi : insertA (cmpLt cmp) x out s with ⟨q, s1⟩
    rw [hi] at h
    rcases q with e' | out'
    · cases h
      obtain ⟨y, s2, hy, h2⟩ := ins x out s hi
      exact ⟨x, y, s2, hb x (by simp), ho y hy, h2⟩
    · refine ih out' s1 ?_ (fun z hz => hb z (by simp [hz])) h
      intro z hz
      rcases List.mem_cons.1 ((insertA_perm hi).mem_iff.1 hz) with rfl | hz
      · exact hb z (by simp)
      · exact ho z hz

/-! ### top-n -/

theorem insertBefore_take (b : α → α → Bool) (x : α) (n : Nat) (out : List α) :
    (insertBefore b x (out.take n)).take n = (insertBefore b x out).take n := by
  induction out generalizing n with
  | nil => simp
  | cons y ys ih =>
    cases n with
    | zero => simp
    | succ n =>
      simp only [List.take_succ_cons, insertBefore]
      split
      · cases n <;> simp [List.take_take]
      · simp [ih]

theorem popOver_eq_take {n : Nat} {out : List α} (h : out.length ≤ n + 1) :
    popOver n out = out.take n := by
  unfold popOver
  split
  · have : n = out.length - 1 := by omega
    rw [this, List.dropLast_eq_take]
  · rw [List.take_of_length_le (by omega)]

theorem length_insertBefore (b : α → α → Bool) (x : α) (out : List α) :
    (insertBefore b x out).length = out.length + 1 := by
  simpa using (insertBefore_perm b x out).length_eq

/-- Truncating after each step gives the first `n` of the whole. -/
theorem topLoop_eq (b : α → α → Bool) (n : Nat) (a : List α) (out : List α) :
    a.foldl (fun out x => popOver n (insertBefore b x out)) (out.take n) =
      (insertAll b a out).take n := by
  induction a generalizing out with
  | nil => rfl
  | cons x xs ih =>
    simp only [List.foldl_cons, insertAll]
    rw [popOver_eq_take (by rw [length_insertBefore, List.length_take]; omega), insertBefore_take, ih]
    rfl

theorem lowestN_eq (lt : α → α → Bool) (n : Nat) (a : List α) :
    lowestN lt n a = (insertAll lt a []).take n := by
  have := topLoop_eq lt n a []
  simpa [lowestN] using this

theorem highestN_eq (lt : α → α → Bool) (n : Nat) (a : List α) :
    highestN lt n a = (insertAll (fun x y => lt y x) a []).take n := by
  have := topLoop_eq (fun x y => lt y x) n a []
  simpa [highestN] using this

/-- `lowestN` selects the `n` smallest, in increasing order, earlier elements first among ties. -/
theorem lowestN_spec {lt : α → α → Bool} (h : StrictWeak lt) (n : Nat) (a : List α) :
    Smallest lt n a (lowestN lt n a) :=
  ⟨_, insertAll_stable h a, lowestN_eq lt n a⟩

/-- `highestN` selects the `n` largest, in decreasing order, earlier elements first among ties. -/
theorem highestN_spec {lt : α → α → Bool} (h : StrictWeak lt) (n : Nat) (a : List α) :
    Smallest (fun x y => lt y x) n a (highestN lt n a) :=
  ⟨_, insertAll_stable h.flip a, highestN_eq lt n a⟩

/-- What `Smallest` says: as many elements as asked for and available, in order, and together with
the elements left out a rearrangement of the array; none left out is smaller than one chosen. -/
theorem smallest_meaning {lt : α → α → Bool} {n : Nat} {a r : List α} (h : Smallest lt n a r) :
    r.length = min n a.length ∧ r.Pairwise (fun x y => lt y x = false) ∧
    ∃ rest, (r ++ rest).Perm a ∧ ∀ x ∈ r, ∀ y ∈ rest, lt y x = false := by
  obtain ⟨b, hb, rfl⟩ := h
  refine ⟨by rw [List.length_take, hb.perm.length_eq], hb.sorted.take, b.drop n, ?_, ?_⟩
  · rw [List.take_append_drop]; exact hb.perm
  · have := hb.sorted
    rw [← List.take_append_drop n b, List.pairwise_append] at this
    exact this.2.2

/-- The selection is unique. -/
theorem smallest_unique {lt : α → α → Bool} (hs : StrictWeak lt) {n : Nat} {a r r' : List α}
    (h : Smallest lt n a r) (h' : Smallest lt n a r') : r = r' := by
  obtain ⟨b, hb, rfl⟩ := h
  obtain ⟨b', hb', rfl⟩ := h'
  rw [stable_sort_unique hs hb hb']

/-- `a.max` and `a.min`: the first largest (smallest) element; an empty array raises. -/
theorem maxOne_spec {lt : α → α → Bool} (h : StrictWeak lt) (base : Int) (a : List α) :
    (a = [] → checkedOne base a (fun n => .ok (lowestN lt n a)) = .error (.rt base)) ∧
    (a ≠ [] → ∃ pre x post, checkedOne base a (fun n => .ok (lowestN lt n a)) = .ok x ∧
      a = pre ++ x :: post ∧ (∀ y ∈ pre, lt x y = true) ∧ (∀ y ∈ post, lt y x = false)) := by
  constructor
  · rintro rfl; rfl
  · intro ha
    have hl : a.length ≠ 0 := by simpa using ha
    obtain ⟨b, hb, he⟩ := lowestN_spec h 1 a
    match b, hb with
    | [], hb => exact absurd hb.perm.symm (by simpa using ha)
    | x :: xs, hb =>
      have hsel : lowestN lt 1 a = [x] := by simpa using he
      -- x is the first of its ties
      have hst := hb.stable x
      rw [List.filter_cons, if_pos (h.tie_refl x)] at hst
      obtain ⟨pre, post, rfl, hpre, _, _⟩ := List.filter_eq_cons_iff.1 hst.symm
      have hmin : ∀ y ∈ pre ++ x :: post, lt y x = false := by
        intro y hy
        rcases List.mem_cons.1 (hb.perm.mem_iff.2 hy) with rfl | hm
        · exact h.irrefl _
        · exact (List.pairwise_cons.1 hb.sorted).1 y hm
      refine ⟨pre, x, post, ?_, rfl, ?_, fun y hy => hmin y (by simp [hy])⟩
      · rw [checkedOne, if_neg hl, hsel]; rfl
      · intro y hy
        have := hpre y hy
        have h2 := hmin y (by simp [hy])
        simp only [Tie, Bool.and_eq_true, Bool.not_eq_true', not_and, Bool.not_eq_false] at this
        by_contra hc
        rw [Bool.not_eq_true] at hc
        have := this hc
        rw [h2] at this; cases this

/-- `highestN` is `lowestN` for the reversed order, so `maxOne_spec` also describes `a.max`. -/
theorem highestN_flip (lt : α → α → Bool) (n : Nat) (a : List α) :
    highestN lt n a = lowestN (fun x y => lt y x) n a := rfl

/-- The checks: an empty array, then a negative count. -/
theorem checkedN_spec {β : Type _} (base : Int) (a : List α) (n : Int) (f : Nat → Res β) :
    (a = [] → checkedN base a n f = .error (.rt base)) ∧
    (a ≠ [] → n < 0 → checkedN base a n f = .error (.rt (base + 1))) ∧
    (∀ k : Nat, a ≠ [] → n = k → checkedN base a n f = f k) := by
  refine ⟨by rintro rfl; rfl, ?_, ?_⟩
  · intro ha hn; simp [checkedN, ha, hn]
  · rintro k ha rfl; rw [checkedN, if_neg (by simpa using ha), if_neg (by omega)]; simp

/-! ### argmax and friends -/

/-- Elements with their positions, counted from `i`. -/
def numbered (i : Int) : List α → List (Int × α)
  | [] => []
  | x :: xs => (i, x) :: numbered (i + 1) xs

theorem argInsert_eq (lt before : α → α → Bool)
    (hb : ∀ x y, before x y = true → lt y x = true ∨ lt x y = true) (i : Int) (x : α)
    (out : List (Int × α)) :
    argInsert lt before i x out = .ok (insertBefore (fun p q => before p.2 q.2) (i, x) out) := by
  induction out with
  | nil => rfl
  | cons p rest ih =>
    obtain ⟨bi, bx⟩ := p
    simp only [argInsert, insertBefore]
    split
    · next h =>
      have : (!lt bx x && !lt x bx && decide (bi > i)) = false := by
        rcases hb _ _ h with h' | h' <;> simp [h']
      simp [advance, this]
    · rw [ih]; rfl

theorem argLoop_eq (lt before : α → α → Bool)
    (hb : ∀ x y, before x y = true → lt y x = true ∨ lt x y = true) (n : Nat) (i : Int) (a : List α)
    (out : List (Int × α)) :
    argLoop lt before n i a out = .ok ((numbered i a).foldl
      (fun out x => popOver n (insertBefore (fun p q => before p.2 q.2) x out)) out) := by
  induction a generalizing i out with
  | nil => rfl
  | cons x xs ih => simp only [argLoop, argInsert_eq lt before hb, ih, numbered, List.foldl_cons]

theorem StrictWeak.onSnd {lt : α → α → Bool} (h : StrictWeak lt) :
    StrictWeak (fun p q : ι × α => lt p.2 q.2) where
  irrefl := fun x => h.irrefl _
  trans := fun x y z => h.trans _ _ _
  cotrans := fun x y z => h.cotrans _ _ _

theorem numbered_get (i : Int) (a : List α) (k : Nat) :
    (numbered i a)[k]? = a[k]?.map (fun x => (i + k, x)) := by
  induction a generalizing i k with
  | nil => simp [numbered]
  | cons x xs ih =>
    cases k with
    | zero => simp [numbered]
    | succ k =>
      simp only [numbered, List.getElem?_cons_succ, ih]
      congr 1; funext y; congr 1; push_cast; omega

/-- `argLowestN`: the positions of the elements `lowestN` selects.  The result lists, in the order
of the selection, positions `i` with `a[i]` the selected element; ties go to the smaller position. -/
theorem argLowestN_spec {lt : α → α → Bool} (h : StrictWeak lt) (n : Nat) (a : List α) :
    ∃ ps : List (Int × α), argLowestN lt n a = .ok (ps.map Prod.fst) ∧
      Smallest (fun p q => lt p.2 q.2) n (numbered 0 a) ps ∧
      (∀ p ∈ ps, ∃ k : Nat, p.1 = k ∧ a[k]? = some p.2) := by
  have hl := argLoop_eq lt (fun x best => lt x best) (fun x y h => .inr h) n 0 a []
  have ht := topLoop_eq (fun p q : Int × α => lt p.2 q.2) n (numbered 0 a) []
  rw [List.take_nil] at ht
  refine ⟨_, by rw [argLowestN, hl]; rfl, ⟨_, insertAll_stable h.onSnd _, ht⟩, ?_⟩
  intro p hp
  rw [ht] at hp
  have hm := (insertAll_stable h.onSnd (numbered 0 a)).perm.mem_iff.1 (List.mem_of_mem_take hp)
  obtain ⟨k, hk⟩ := List.mem_iff_getElem?.1 hm
  rw [numbered_get] at hk
  cases hx : a[k]? with
  | none => simp [hx] at hk
  | some x => simp [hx] at hk; subst hk; exact ⟨k, rfl, hx⟩

/-- `argHighestN`: the same for the largest. -/
theorem argHighestN_spec {lt : α → α → Bool} (h : StrictWeak lt) (n : Nat) (a : List α) :
    ∃ ps : List (Int × α), argHighestN lt n a = .ok (ps.map Prod.fst) ∧
      Smallest (fun p q => lt q.2 p.2) n (numbered 0 a) ps ∧
      (∀ p ∈ ps, ∃ k : Nat, p.1 = k ∧ a[k]? = some p.2) := by
  have hl := argLoop_eq lt (fun x best => lt best x) (fun x y h => .inl h) n 0 a []
  have ht := topLoop_eq (fun p q : Int × α => lt q.2 p.2) n (numbered 0 a) []
  rw [List.take_nil] at ht
  refine ⟨_, by rw [argHighestN, hl]; rfl, ⟨_, insertAll_stable h.flip.onSnd _, ht⟩, ?_⟩
  intro p hp
  rw [ht] at hp
  have hm := (insertAll_stable (lt := fun p q : Int × α => lt q.2 p.2) h.flip.onSnd
    (numbered 0 a)).perm.mem_iff.1 (List.mem_of_mem_take hp)
  obtain ⟨k, hk⟩ := List.mem_iff_getElem?.1 hm
  rw [numbered_get] at hk
  cases hx : a[k]? with
  | none => simp [hx] at hk
  | some x => simp [hx] at hk; subst hk; exact ⟨k, rfl, hx⟩

/-! ### the map versions -/

section
variable [LinearOrder κ]

/-- Values first, then keys. -/
def lexBefore (before : α → α → Bool) (p q : κ × α) : Bool :=
  before p.2 q.2 || (!before q.2 p.2 && decide (p.1 < q.1))

theorem lexBefore_strict {before : α → α → Bool} (h : StrictWeak before) :
    StrictWeak (lexBefore before : κ × α → κ × α → Bool) where
  irrefl := by intro x; simp [lexBefore, h.irrefl]
  trans := by
    intro x y z h1 h2
    simp only [lexBefore, Bool.or_eq_true, Bool.and_eq_true, Bool.not_eq_true', decide_eq_true_eq] at *
    rcases h1 with h1 | ⟨h1, k1⟩ <;> rcases h2 with h2 | ⟨h2, k2⟩
    · exact .inl (h.trans _ _ _ h1 h2)
    · rcases h.cotrans _ _ z.2 h1 with h' | h'
      · exact .inl h'
      · rw [h2] at h'; cases h'
    · rcases h.cotrans _ _ x.2 h2 with h' | h'
      · rw [h1] at h'; cases h'
      · exact .inl h'
    · exact .inr ⟨h.notlt_trans h1 h2, lt_trans k1 k2⟩
  cotrans := by
    intro x y z h1
    simp only [lexBefore, Bool.or_eq_true, Bool.and_eq_true, Bool.not_eq_true', decide_eq_true_eq] at *
    cases hxz : before x.2 z.2
    · cases hzy : before z.2 y.2
      · rcases h1 with h1 | ⟨h1, k1⟩
        · rcases h.cotrans _ _ z.2 h1 with h' | h'
          · rw [hxz] at h'; cases h'
          · rw [hzy] at h'; cases h'
        · cases hzx : before z.2 x.2
          · cases hyz : before y.2 z.2
            · rcases lt_or_ge x.1 z.1 with h' | h'
              · exact .inl (.inr ⟨rfl, h'⟩)
              · exact .inr (.inr ⟨rfl, lt_of_le_of_lt h' k1⟩)
            · rcases h.cotrans _ _ x.2 hyz with h' | h'
              · rw [h1] at h'; cases h'
              · rw [hxz] at h'; cases h'
          · rcases h.cotrans _ _ y.2 hzx with h' | h'
            · rw [hzy] at h'; cases h'
            · rw [h1] at h'; cases h'
      · exact .inr (.inl rfl)
    · exact .inl (.inl rfl)

theorem mapInsert_eq (lt before : α → α → Bool)
    (hb : ∀ x y, before x y = true → lt y x = true ∨ lt x y = true) (k : κ) (x : α)
    (out : List (κ × α)) :
    mapInsert lt before k x out = insertBefore (lexBefore before) (k, x) out := by
  induction out with
  | nil => rfl
  | cons p rest ih =>
    obtain ⟨bk, bx⟩ := p
    simp only [mapInsert, insertBefore]
    rw [show lexBefore before (k, x) (bk, bx) = (before x bx || (!before bx x && decide (bk > k)))
      from rfl]
    split
    · next h =>
      have : (!lt bx x && !lt x bx && decide (bk < k)) = false := by
        simp only [Bool.or_eq_true, Bool.and_eq_true, decide_eq_true_eq] at h
        rcases h with h | ⟨_, h⟩
        · rcases hb _ _ h with h' | h' <;> simp [h']
        · simp [not_lt_of_gt h]
      simp [mapAdvance, this]
    · rw [ih]

/-- `map.argminN`: the keys of the `n` smallest values, ties by key. -/
theorem mapArgLowestN_spec {lt : α → α → Bool} (h : StrictWeak lt) (n : Nat) (m : List (κ × α)) :
    ∃ ps, mapArgLowestN lt n m = ps.map Prod.fst ∧ Smallest (lexBefore lt) n m ps := by
  have ht := topLoop_eq (lexBefore (κ := κ) lt) n m []
  rw [List.take_nil] at ht
  have he := mapInsert_eq (κ := κ) lt (fun x best => lt x best) (fun x y h => .inr h)
  refine ⟨_, ?_, ⟨_, insertAll_stable (lexBefore_strict h) m, rfl⟩⟩
  rw [← ht, mapArgLowestN]
  simp only [he]

/-- `map.argmaxN`: the keys of the `n` largest values, ties by (ascending) key. -/
theorem mapArgHighestN_spec {lt : α → α → Bool} (h : StrictWeak lt) (n : Nat) (m : List (κ × α)) :
    ∃ ps, mapArgHighestN lt n m = ps.map Prod.fst ∧
      Smallest (lexBefore (fun x y => lt y x)) n m ps := by
  have ht := topLoop_eq (lexBefore (κ := κ) (fun x y => lt y x)) n m []
  rw [List.take_nil] at ht
  have he := mapInsert_eq (κ := κ) lt (fun x best => lt best x) (fun x y h => .inl h)
  refine ⟨_, ?_, ⟨_, insertAll_stable (lexBefore_strict h.flip) m, rfl⟩⟩
  rw [← ht, mapArgHighestN]
  simp only [he]

/-- The order in which the keys were inserted into the map does not matter. -/
theorem mapArgN_order_free {lt : α → α → Bool} (h : StrictWeak lt) (n : Nat) {m m' : List (κ × α)}
    (hn : (m.map Prod.fst).Nodup) (hp : m.Perm m') :
    mapArgLowestN lt n m = mapArgLowestN lt n m' ∧
      mapArgHighestN lt n m = mapArgHighestN lt n m' := by
  have key : ∀ before : α → α → Bool, StrictWeak before → ∀ r, StableSort (lexBefore before) m r →
      StableSort (lexBefore before) m' r := by
    intro before hb r hr
    refine ⟨hr.perm.trans hp, hr.sorted, fun x => ?_⟩
    rw [hr.stable x]
    -- ties have equal keys, so each class has at most one element
    have hsub : ∀ l : List (κ × α), (l.map Prod.fst).Nodup → (l.filter (Tie (lexBefore before) x)).length ≤ 1 := by
      intro l hl
      have hk : ∀ y ∈ l.filter (Tie (lexBefore before) x), y.1 = x.1 := by
        intro y hy
        have := (List.mem_filter.1 hy).2
        simp only [Tie, lexBefore, Bool.and_eq_true, Bool.not_eq_true', Bool.or_eq_false_iff,
          Bool.and_eq_false_imp, decide_eq_false_iff_not] at this
        obtain ⟨⟨h1, h2⟩, h3, h4⟩ := this
        exact le_antisymm (not_lt.1 (h2 (by simp [h3]))) (not_lt.1 (h4 (by simp [h1])))
      have hnd : ((l.filter (Tie (lexBefore before) x)).map Prod.fst).Nodup :=
        hl.sublist (List.filter_sublist.map _)
      match hm : l.filter (Tie (lexBefore before) x) with
      | [] => simp
      | [_] => simp
      | y :: z :: w =>
        rw [hm] at hnd hk
        have h1 := hk y (by simp)
        have h2 := hk z (by simp)
        simp [h1, h2] at hnd
    have hpf := hp.filter (Tie (lexBefore before) x)
    have h1 := hsub m hn
    match hm : m.filter (Tie (lexBefore before) x) with
    | [] => rw [hm] at hpf; exact (List.nil_perm.1 hpf).symm
    | [y] => rw [hm] at hpf; exact (List.singleton_perm.1 hpf)
    | _ :: _ :: _ => rw [hm] at h1; simp at h1
  constructor
  · obtain ⟨ps, e1, b, hb, rfl⟩ := mapArgLowestN_spec h n m
    obtain ⟨ps', e2, b', hb', rfl⟩ := mapArgLowestN_spec h n m'
    rw [e1, e2, stable_sort_unique (lexBefore_strict h) (key lt h _ hb) hb']
  · obtain ⟨ps, e1, b, hb, rfl⟩ := mapArgHighestN_spec h n m
    obtain ⟨ps', e2, b', hb', rfl⟩ := mapArgHighestN_spec h n m'
    rw [e1, e2, stable_sort_unique (lexBefore_strict h.flip) (key _ h.flip _ hb) hb']
end

/-! ### Non-vacuity -/

/-- Compares numbers modulo 10: distinct numbers may tie. -/
def ltMod (x y : Int) : Bool := decide (x % 10 < y % 10)

theorem ltMod_strict : StrictWeak ltMod where
  irrefl := by intro x; simp [ltMod]
  trans := by intro x y z; simp only [ltMod, decide_eq_true_eq]; omega
  cotrans := by intro x y z; simp only [ltMod, decide_eq_true_eq]; omega

example : sortLT (σ := Unit) (fun x y => ret (ltMod x y)) [13, 21, 3, 11, 22] () =
    (.ok [21, 11, 22, 13, 3], ()) := by decide
example : highestN ltMod 2 [13, 21, 3, 11, 22] = [13, 3] := by decide
example : argHighestN ltMod 3 [13, 21, 3, 11, 22] = .ok [0, 2, 4] := by decide
example : argLowestN ltMod 2 [13, 21, 3, 11, 22] = .ok [1, 3] := by decide
example : mapArgHighestN ltMod 2 [("b", 13), ("c", 21), ("a", 3)] = ["a", "b"] := by decide
example : mapArgHighestN ltMod 2 [("a", 3), ("c", 21), ("b", 13)] = ["a", "b"] := by decide

end Verif.Lib
