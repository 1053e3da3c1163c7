import Verif.Lib.Eff
import Verif.Avro.Basic
/-!
# Higher-order functions of the array library (C32)

Models `titus/lib/array.py` 921-1140.  Truth values returned by user functions are Booleans
(guaranteed by the signatures).
-/

namespace Verif.Lib
open Verif.Avro (Val)

variable {σ α β γ : Type _}

/-! ## Model -/

/-- `a.map`: `[callfcn(state, scope, fcn, [x]) for x in a]` (array.py 921-926). -/
def mapA (f : α → Eff σ β) : List α → Eff σ (List β)
  | [], s => (.ok [], s)
  | x :: xs, s =>
    match f x s with
    | (.error e, s1) => (.error e, s1)
    | (.ok y, s1) =>
      match mapA f xs s1 with
      | (.error e, s2) => (.error e, s2)
      | (.ok ys, s2) => (.ok (y :: ys), s2)

/-- `enumerate(a)` starting at `i`. -/
def enumFrom (i : Int) : List α → List (Int × α)
  | [] => []
  | x :: xs => (i, x) :: enumFrom (i + 1) xs

/-- `enumerate(a)`. -/
def enumerate (a : List α) : List (Int × α) := enumFrom 0 a

/-- `a.mapWithIndex` (array.py 929-934). -/
def mapWithIndex (f : Int → α → Eff σ β) (a : List α) : Eff σ (List β) :=
  mapA (fun p => f p.1 p.2) (enumerate a)

/-- `a.filter`: `[x for x in a if callfcn(...)]` (array.py 937-942). -/
def filterA (f : α → Eff σ Bool) : List α → Eff σ (List α)
  | [], s => (.ok [], s)
  | x :: xs, s =>
    match f x s with
    | (.error e, s1) => (.error e, s1)
    | (.ok b, s1) =>
      match filterA f xs s1 with
      | (.error e, s2) => (.error e, s2)
      | (.ok ys, s2) => (.ok (if b then x :: ys else ys), s2)

/-- `a.filterWithIndex`: `[x for i, x in enumerate(a) if callfcn(.., [i, x])]`
(array.py 945-950). -/
def filterWithIndex (f : Int → α → Eff σ Bool) (a : List α) : Eff σ (List α) := fun s =>
  match filterA (fun p : Int × α => f p.1 p.2) (enumerate a) s with
  | (.error e, s') => (.error e, s')
  | (.ok ps, s') => (.ok (ps.map Prod.snd), s')

/-- The body of the loop of `a.filterMap` on the value returned by the user function
(array.py 962-967): None is dropped, a one-entry dict whose key names a type of the return
union is taken for a tagged value. -/
def dropOrUntag (typeNames : List String) : Val → Option Val
  | .null => none
  | .dict [(tag, value)] => if tag ∈ typeNames then some value else some (.dict [(tag, value)])
  | y => some y

/-- `a.filterMap` (array.py 953-968): the loop with accumulator `out`. -/
def filterMapLoop (typeNames : List String) (f : α → Eff σ Val) :
    List Val → List α → Eff σ (List Val)
  | out, [], s => (.ok out, s)
  | out, x :: xs, s =>
    match f x s with
    | (.error e, s1) => (.error e, s1)
    | (.ok y, s1) =>
      match dropOrUntag typeNames y with
      | none => filterMapLoop typeNames f out xs s1
      | some v => filterMapLoop typeNames f (out ++ [v]) xs s1

/-- `a.filterMap` (array.py 953-968). -/
def filterMapA (typeNames : List String) (f : α → Eff σ Val) (a : List α) : Eff σ (List Val) :=
  filterMapLoop typeNames f [] a

/-- `a.filterMapWithIndex` (array.py 971-986). -/
def filterMapWithIndex (typeNames : List String) (f : Int → α → Eff σ Val) (a : List α) :
    Eff σ (List Val) := filterMapA typeNames (fun p : Int × α => f p.1 p.2) (enumerate a)

/-- The loop of `a.flatMap` (array.py 994-997): `out.extend(callfcn(...))`. -/
def flatMapLoop (f : α → Eff σ (List β)) : List β → List α → Eff σ (List β)
  | out, [], s => (.ok out, s)
  | out, x :: xs, s =>
    match f x s with
    | (.error e, s1) => (.error e, s1)
    | (.ok ys, s1) => flatMapLoop f (out ++ ys) xs s1

/-- `a.flatMap` (array.py 989-997). -/
def flatMapA (f : α → Eff σ (List β)) (a : List α) : Eff σ (List β) := flatMapLoop f [] a

/-- `a.flatMapWithIndex` (array.py 1000-1008). -/
def flatMapWithIndex (f : Int → α → Eff σ (List β)) (a : List α) : Eff σ (List β) :=
  flatMapA (fun p : Int × α => f p.1 p.2) (enumerate a)

/-- One step of `zip(*args)`: the next element of every list, or `none` at the end of one. -/
def uncons : List (List α) → Option (List α × List (List α))
  | [] => some ([], [])
  | [] :: _ => none
  | (x :: xs) :: rest =>
    match uncons rest with
    | none => none
    | some (h, t) => some (x :: h, xs :: t)

/-- `zip(a, *rest)`, each tuple as a list. -/
def zipArgs : List α → List (List α) → List (List α)
  | [], _ => []
  | x :: xs, rest =>
    match uncons rest with
    | none => []
    | some (h, t) => (x :: h) :: zipArgs xs t

/-- `a.zipmap` (array.py 1011-1024) for any number of arrays. -/
def zipmap (f : List α → Eff σ β) (a : List α) (rest : List (List α)) : Eff σ (List β) :=
  if rest.all (fun b => b.length == a.length) then mapA f (zipArgs a rest)
  else fun s => (.error (.rt 15650), s)

/-- `a.zipmapWithIndex` (array.py 1027-1040). -/
def zipmapWithIndex (f : Int → List α → Eff σ β) (a : List α) (rest : List (List α)) :
    Eff σ (List β) :=
  if rest.all (fun b => b.length == a.length) then
    mapA (fun p : Int × List α => f p.1 p.2) (enumerate (zipArgs a rest))
  else fun s => (.error (.rt 15660), s)

/-- `functools.reduce(f, a, z)`. -/
def reduceFrom (f : β → α → Eff σ β) : β → List α → Eff σ β
  | z, [], s => (.ok z, s)
  | z, x :: xs, s =>
    match f z x s with
    | (.error e, s1) => (.error e, s1)
    | (.ok z', s1) => reduceFrom f z' xs s1

/-- `a.reduce` (array.py 1043-1051). -/
def reduceA (f : α → α → Eff σ α) : List α → Eff σ α
  | [] => fun s => (.error (.rt 15670), s)
  | x :: xs => reduceFrom f x xs

/-- `a.reduceRight` (array.py 1054-1062). -/
def reduceRight (f : α → α → Eff σ α) (a : List α) : Eff σ α :=
  match a.reverse with
  | [] => fun s => (.error (.rt 15680), s)
  | x :: xs => reduceFrom (fun x y => f y x) x xs

/-- `a.fold` (array.py 1065-1070). -/
def foldA (f : β → α → Eff σ β) (a : List α) (zero : β) : Eff σ β := reduceFrom f zero a

/-- `a.foldRight` (array.py 1073-1078). -/
def foldRight (f : α → β → Eff σ β) (a : List α) (zero : β) : Eff σ β :=
  reduceFrom (fun y x => f x y) zero a.reverse

/-- The loop of `a.takeWhile` (array.py 1086-1092). -/
def takeWhileLoop (f : α → Eff σ Bool) : List α → List α → Eff σ (List α)
  | out, [], s => (.ok out, s)
  | out, x :: xs, s =>
    match f x s with
    | (.error e, s1) => (.error e, s1)
    | (.ok true, s1) => takeWhileLoop f (out ++ [x]) xs s1
    | (.ok false, s1) => (.ok out, s1)

/-- `a.takeWhile` (array.py 1081-1092). -/
def takeWhileA (f : α → Eff σ Bool) (a : List α) : Eff σ (List α) := takeWhileLoop f [] a

/-- The counting loop of `a.dropWhile` (array.py 1100-1105). -/
def dropCount (f : α → Eff σ Bool) : Nat → List α → Eff σ Nat
  | i, [], s => (.ok i, s)
  | i, x :: xs, s =>
    match f x s with
    | (.error e, s1) => (.error e, s1)
    | (.ok true, s1) => dropCount f (i + 1) xs s1
    | (.ok false, s1) => (.ok i, s1)

/-- `a.dropWhile` (array.py 1095-1106): `a[i:]`. -/
def dropWhileA (f : α → Eff σ Bool) (a : List α) : Eff σ (List α) := fun s =>
  match dropCount f 0 a s with
  | (.error e, s') => (.error e, s')
  | (.ok i, s') => (.ok (a.drop i), s')

/-- `a.any` (array.py 1111-1116): `any(...)` stops at the first true. -/
def anyA (f : α → Eff σ Bool) : List α → Eff σ Bool
  | [], s => (.ok false, s)
  | x :: xs, s =>
    match f x s with
    | (.error e, s1) => (.error e, s1)
    | (.ok true, s1) => (.ok true, s1)
    | (.ok false, s1) => anyA f xs s1

/-- `a.all` (array.py 1119-1124): `all(...)` stops at the first false. -/
def allA (f : α → Eff σ Bool) : List α → Eff σ Bool
  | [], s => (.ok true, s)
  | x :: xs, s =>
    match f x s with
    | (.error e, s1) => (.error e, s1)
    | (.ok false, s1) => (.ok false, s1)
    | (.ok true, s1) => allA f xs s1

/-- `a.corresponds` (array.py 1127-1132). -/
def corresponds (f : α → β → Eff σ Bool) (a : List α) (b : List β) : Eff σ Bool :=
  if a.length = b.length then allA (fun p : α × β => f p.1 p.2) (a.zip b)
  else ret false

/-- `a.correspondsWithIndex` (array.py 1135-1140). -/
def correspondsWithIndex (f : Int → α → β → Eff σ Bool) (a : List α) (b : List β) :
    Eff σ Bool :=
  if a.length = b.length then
    allA (fun p : Int × α × β => f p.1 p.2.1 p.2.2) (enumerate (a.zip b))
  else ret false

/-! ## Theorems

Every theorem has the shape: given what the calls on the elements do, in order, the library
function returns this and ends in the state after the last call.  By `chain_or_fails` the cases
are exhaustive. -/

section
variable {f : α → Eff σ β} {s s1 s2 : σ} {tr : List (α × β)} {a : α} {e : Err} {rest : List α}

/-- All calls succeed: the results in order. -/
theorem map_ok (h : Chain f s tr s1) : mapA f (tr.map Prod.fst) s = (.ok (tr.map Prod.snd), s1) := by
  induction h with
  | nil => rfl
  | cons hf _ ih => simp only [List.map_cons, mapA, hf, ih]

/-- The first failing call ends the whole. -/
theorem map_raises (h : Chain f s tr s1) (ha : f a s1 = (.error e, s2)) :
    mapA f (tr.map Prod.fst ++ a :: rest) s = (.error e, s2) := by
  induction h with
  | nil => simp only [List.map_nil, List.nil_append, mapA, ha]
  | cons hf _ ih => simp only [List.map_cons, List.cons_append, mapA, hf, ih ha]
end

/-- `enumerate` pairs every element with its position. -/
theorem enumFrom_get (i : Int) (a : List α) (k : Nat) :
    (enumFrom i a)[k]? = a[k]?.map (fun x => (i + k, x)) := by
  induction a generalizing i k with
  | nil => simp [enumFrom]
  | cons x xs ih =>
    cases k with
    | zero => simp [enumFrom]
    | succ k =>
      simp only [enumFrom, List.getElem?_cons_succ, ih]
      congr 1; funext y; congr 1; push_cast; omega

theorem enumerate_get (a : List α) (k : Nat) :
    (enumerate a)[k]? = a[k]?.map (fun x => ((k : Int), x)) := by
  rw [enumerate, enumFrom_get]; simp

@[simp] theorem enumFrom_snd (i : Int) (a : List α) : (enumFrom i a).map Prod.snd = a := by
  induction a generalizing i with
  | nil => rfl
  | cons x xs ih => simp [enumFrom, ih]

/-- The elements to visit with their indices: position `k` holds `(k, a[k])`. -/
def Indexed (a : List α) (ps : List (Int × α)) : Prop :=
  ∀ k : Nat, ps[k]? = a[k]?.map (fun x => ((k : Int), x))

theorem indexed_iff {a : List α} {ps : List (Int × α)} : Indexed a ps ↔ ps = enumerate a := by
  constructor
  · intro h; apply List.ext_getElem?; intro k; rw [h k, enumerate_get]
  · rintro rfl; exact enumerate_get a

/-- `a.mapWithIndex` calls the function on each position and element, in order. -/
theorem mapWithIndex_ok {f : Int → α → Eff σ β} {s s1 : σ} {tr : List ((Int × α) × β)}
    {xs : List α} (hi : Indexed xs (tr.map Prod.fst)) (h : Chain (fun p => f p.1 p.2) s tr s1) :
    mapWithIndex f xs s = (.ok (tr.map Prod.snd), s1) := by
  rw [mapWithIndex, ← indexed_iff.1 hi]; exact map_ok h

theorem mapWithIndex_raises {f : Int → α → Eff σ β} {s s1 s2 : σ} {tr : List ((Int × α) × β)}
    {xs : List α} {p : Int × α} {rest : List (Int × α)} {e : Err}
    (hi : Indexed xs (tr.map Prod.fst ++ p :: rest))
    (h : Chain (fun p => f p.1 p.2) s tr s1) (ha : f p.1 p.2 s1 = (.error e, s2)) :
    mapWithIndex f xs s = (.error e, s2) := by
  rw [mapWithIndex, ← indexed_iff.1 hi]; exact map_raises h ha

/-- `a.filter` keeps exactly the elements on which the call returned true, in order. -/
theorem filter_ok {f : α → Eff σ Bool} {s s1 : σ} {tr : List (α × Bool)} (h : Chain f s tr s1) :
    filterA f (tr.map Prod.fst) s = (.ok ((tr.filter (fun p => p.2)).map Prod.fst), s1) := by
  induction h with
  | nil => rfl
  | @cons s a b s1 tr s2 hf _ ih =>
    simp only [List.map_cons, filterA, hf, ih, List.filter_cons]
    cases b <;> simp

theorem filter_raises {f : α → Eff σ Bool} {s s1 s2 : σ} {tr : List (α × Bool)} {a : α} {e : Err}
    {rest : List α} (h : Chain f s tr s1) (ha : f a s1 = (.error e, s2)) :
    filterA f (tr.map Prod.fst ++ a :: rest) s = (.error e, s2) := by
  induction h with
  | nil => simp only [List.map_nil, List.nil_append, filterA, ha]
  | cons hf _ ih => simp only [List.map_cons, List.cons_append, filterA, hf, ih ha]

theorem filterWithIndex_ok {f : Int → α → Eff σ Bool} {s s1 : σ} {tr : List ((Int × α) × Bool)}
    {xs : List α} (hi : Indexed xs (tr.map Prod.fst)) (h : Chain (fun p => f p.1 p.2) s tr s1) :
    filterWithIndex f xs s = (.ok ((tr.filter (fun p => p.2)).map (fun p => p.1.2)), s1) := by
  rw [filterWithIndex, ← indexed_iff.1 hi, filter_ok h]; simp [List.map_map, Function.comp_def]

theorem filterWithIndex_raises {f : Int → α → Eff σ Bool} {s s1 s2 : σ}
    {tr : List ((Int × α) × Bool)}
    {xs : List α} {p : Int × α} {rest : List (Int × α)} {e : Err}
    (hi : Indexed xs (tr.map Prod.fst ++ p :: rest))
    (h : Chain (fun p => f p.1 p.2) s tr s1) (ha : f p.1 p.2 s1 = (.error e, s2)) :
    filterWithIndex f xs s = (.error e, s2) := by
  rw [filterWithIndex, ← indexed_iff.1 hi, filter_raises h ha]

/-- What a result of the union type `[B, null]` means: `Means names y r` relates the run-time
value `y` to nothing (null), to the value inside the tag, or to the bare value. -/
inductive Means (names : List String) : Val → Option Val → Prop
  | null : Means names .null none
  | tagged {t v} : t ∈ names → Means names (.dict [(t, v)]) (some v)
  | bare {v} : v ≠ .null → (∀ t w, v = .dict [(t, w)] → t ∉ names) → Means names v (some v)

theorem dropOrUntag_means (names : List String) (y : Val) :
    Means names y (dropOrUntag names y) := by
  cases y with
  | null => exact .null
  | dict d =>
    match d with
    | [] => exact .bare (by simp) (by simp)
    | [(t, v)] =>
      simp only [dropOrUntag]
      by_cases h : t ∈ names
      · rw [if_pos h]; exact .tagged h
      · rw [if_neg h]; exact .bare (by simp) (by intro t' w' he; cases he; exact h)
    | _ :: _ :: _ => exact .bare (by simp) (by simp)
  | _ => exact .bare (by simp) (by simp)

theorem means_unique {names : List String} {y : Val} {r : Option Val} (h : Means names y r) :
    dropOrUntag names y = r := by
  cases h with
  | null => rfl
  | tagged h => simp [dropOrUntag, h]
  | bare h1 h2 =>
    cases y with
    | null => exact absurd rfl h1
    | dict d =>
      match d with
      | [] => rfl
      | [(t, v)] => simp [dropOrUntag, h2 t v rfl]
      | _ :: _ :: _ => rfl
    | _ => rfl

theorem filterMapLoop_ok {names : List String} {f : α → Eff σ Val} {s s1 : σ}
    {tr : List (α × Val)} (h : Chain f s tr s1) (out : List Val) :
    filterMapLoop names f out (tr.map Prod.fst) s =
      (.ok (out ++ tr.filterMap (fun p => dropOrUntag names p.2)), s1) := by
  induction h generalizing out with
  | nil => simp [filterMapLoop]
  | @cons s a b s1 tr s2 hf _ ih =>
    simp only [List.map_cons, filterMapLoop, hf]
    cases hd : dropOrUntag names b with
    | none => simp only [ih]; simp [List.filterMap_cons, hd]
    | some v => simp only [ih]; simp [List.filterMap_cons, hd]

/-- `a.filterMap` returns, in order, what the non-null results mean. -/
theorem filterMap_ok {names : List String} {f : α → Eff σ Val} {s s1 : σ}
    {tr : List (α × Val)} {g : Val → Option Val} (h : Chain f s tr s1)
    (hg : ∀ p ∈ tr, Means names p.2 (g p.2)) :
    filterMapA names f (tr.map Prod.fst) s = (.ok (tr.filterMap (fun p => g p.2)), s1) := by
  rw [filterMapA, filterMapLoop_ok h, List.nil_append]
  have : tr.filterMap (fun p => dropOrUntag names p.2) = tr.filterMap (fun p => g p.2) :=
    List.filterMap_congr (fun p hp => means_unique (hg p hp))
  rw [this]

theorem filterMap_raises {names : List String} {f : α → Eff σ Val} {s s1 s2 : σ}
    {tr : List (α × Val)} {a : α} {e : Err} {rest : List α}
    (h : Chain f s tr s1) (ha : f a s1 = (.error e, s2)) :
    filterMapA names f (tr.map Prod.fst ++ a :: rest) s = (.error e, s2) := by
  unfold filterMapA
  generalize [] = out
  induction h generalizing out with
  | nil => simp only [List.map_nil, List.nil_append, filterMapLoop, ha]
  | @cons s a b s1 tr s2 hf _ ih =>
    simp only [List.map_cons, List.cons_append, filterMapLoop, hf]
    cases hd : dropOrUntag names b <;> simp only [ih ha]

theorem filterMapWithIndex_ok {names : List String} {f : Int → α → Eff σ Val} {s s1 : σ}
    {tr : List ((Int × α) × Val)} {g : Val → Option Val} {xs : List α}
    (hi : Indexed xs (tr.map Prod.fst)) (h : Chain (fun p => f p.1 p.2) s tr s1)
    (hg : ∀ p ∈ tr, Means names p.2 (g p.2)) :
    filterMapWithIndex names f xs s = (.ok (tr.filterMap (fun p => g p.2)), s1) := by
  rw [filterMapWithIndex, ← indexed_iff.1 hi]; exact filterMap_ok h hg

/-- A bare map value whose only key is `"map"` is taken for a tagged value: the user function is
the identity on values of type `[map of int, null]`, and `a.filterMap` returns the number inside
the map instead of the map. -/
theorem filterMap_untagged_violation :
    filterMapA (σ := Unit) ["map"] (fun v => ret v) [.dict [("map", .int 3)]] () =
      (.ok [.int 3], ()) := by
  rfl

/-- `a.flatMap` concatenates the results. -/
theorem flatMap_ok {f : α → Eff σ (List β)} {s s1 : σ} {tr : List (α × List β)}
    (h : Chain f s tr s1) :
    flatMapA f (tr.map Prod.fst) s = (.ok (tr.flatMap Prod.snd), s1) := by
  suffices hs : ∀ out, flatMapLoop f out (tr.map Prod.fst) s = (.ok (out ++ tr.flatMap Prod.snd), s1) by
    simpa [flatMapA] using hs []
  induction h with
  | nil => intro out; simp [flatMapLoop]
  | cons hf _ ih => intro out; simp only [List.map_cons, flatMapLoop, hf, ih]; simp

theorem flatMap_raises {f : α → Eff σ (List β)} {s s1 s2 : σ} {tr : List (α × List β)} {a : α}
    {e : Err} {rest : List α} (h : Chain f s tr s1) (ha : f a s1 = (.error e, s2)) :
    flatMapA f (tr.map Prod.fst ++ a :: rest) s = (.error e, s2) := by
  unfold flatMapA
  generalize [] = out
  induction h generalizing out with
  | nil => simp only [List.map_nil, List.nil_append, flatMapLoop, ha]
  | cons hf _ ih => simp only [List.map_cons, List.cons_append, flatMapLoop, hf, ih ha]

theorem flatMapWithIndex_ok {f : Int → α → Eff σ (List β)} {s s1 : σ}
    {tr : List ((Int × α) × List β)} {xs : List α}
    (hi : Indexed xs (tr.map Prod.fst)) (h : Chain (fun p => f p.1 p.2) s tr s1) :
    flatMapWithIndex f xs s = (.ok (tr.flatMap Prod.snd), s1) := by
  rw [flatMapWithIndex, ← indexed_iff.1 hi]; exact flatMap_ok h

/-! ### zipmap -/

/-- The columns of a table of equally long rows: column `i` holds the `i`-th entry of each row. -/
def Columns (rows : List (List α)) (cols : List (List α)) : Prop :=
  (∀ r ∈ rows, r.length = cols.length) ∧
  ∀ i : Nat, i < cols.length → cols[i]? = some (rows.filterMap (fun r => r[i]?))

theorem uncons_some {rest : List (List α)} (h : ∀ r ∈ rest, r ≠ []) :
    uncons rest = some (rest.filterMap List.head?, rest.map List.tail) := by
  induction rest with
  | nil => rfl
  | cons r rest ih =>
    match r, h r (by simp) with
    | x :: xs, _ =>
      simp only [uncons, ih (fun r hr => h r (by simp [hr]))]
      simp

theorem zipArgs_columns (a : List α) (rest : List (List α))
    (h : ∀ r ∈ rest, r.length = a.length) : Columns (a :: rest) (zipArgs a rest) := by
  induction a generalizing rest with
  | nil =>
    refine ⟨?_, by simp [zipArgs]⟩
    intro r hr
    rcases List.mem_cons.1 hr with rfl | hr
    · simp [zipArgs]
    · rw [h r hr]; simp [zipArgs]
  | cons x xs ih =>
    have hne : ∀ r ∈ rest, r ≠ [] := by
      intro r hr he; have := h r hr; rw [he] at this; simp at this
    simp only [zipArgs, uncons_some hne]
    have ht : ∀ r ∈ rest.map List.tail, r.length = xs.length := by
      intro r hr
      obtain ⟨r', hr', rfl⟩ := List.mem_map.1 hr
      have := h r' hr'
      simp only [List.length_cons] at this
      simp [this]
    obtain ⟨h1, h2⟩ := ih _ ht
    have hlen : (zipArgs xs (rest.map List.tail)).length = xs.length := (h1 xs (by simp)).symm
    refine ⟨?_, ?_⟩
    · intro r hr
      rcases List.mem_cons.1 hr with rfl | hr
      · simp [hlen]
      · rw [h r hr]; simp [hlen]
    · intro i hi
      cases i with
      | zero =>
        simp only [List.getElem?_cons_zero, Option.some.injEq, List.filterMap_cons]
        congr 1
        apply List.filterMap_congr
        intro r _
        cases r <;> rfl
      | succ i =>
        simp only [List.length_cons, Nat.add_lt_add_iff_right] at hi
        rw [List.getElem?_cons_succ, h2 i hi]
        simp only [List.filterMap_cons, List.getElem?_cons_succ, List.filterMap_map]
        have : rest.filterMap ((fun r => r[i]?) ∘ List.tail) = rest.filterMap (fun r => r[i + 1]?) :=
          List.filterMap_congr (by intro r _; cases r <;> simp)
        rw [this]

theorem columns_unique {rows cols cols' : List (List α)} (hr : rows ≠ [])
    (h : Columns rows cols) (h' : Columns rows cols') : cols = cols' := by
  obtain ⟨r, rs, rfl⟩ := List.exists_cons_of_ne_nil hr
  have hl : cols.length = cols'.length := by
    rw [← h.1 r (by simp), ← h'.1 r (by simp)]
  apply List.ext_getElem?
  intro i
  by_cases hi : i < cols.length
  · rw [h.2 i hi, h'.2 i (hl ▸ hi)]
  · rw [List.getElem?_eq_none (by omega), List.getElem?_eq_none (by omega)]

/-- `a.zipmap` on equally long arrays maps the function over the columns. -/
theorem zipmap_ok {f : List α → Eff σ β} {s s1 : σ} {tr : List (List α × β)} {a : List α}
    {rest : List (List α)} (hc : Columns (a :: rest) (tr.map Prod.fst)) (h : Chain f s tr s1) :
    zipmap f a rest s = (.ok (tr.map Prod.snd), s1) := by
  have hl : ∀ r ∈ rest, r.length = a.length := by
    intro r hr; rw [hc.1 r (by simp [hr]), hc.1 a (by simp)]
  have : rest.all (fun b => b.length == a.length) = true := by simpa using hl
  rw [zipmap, if_pos this, columns_unique (by simp) (zipArgs_columns a rest hl) hc]
  exact map_ok h

theorem zipmap_raises {f : List α → Eff σ β} {s s1 s2 : σ} {tr : List (List α × β)} {a : List α}
    {rest : List (List α)} {c : List α} {cs : List (List α)} {e : Err}
    (hc : Columns (a :: rest) (tr.map Prod.fst ++ c :: cs)) (h : Chain f s tr s1)
    (ha : f c s1 = (.error e, s2)) : zipmap f a rest s = (.error e, s2) := by
  have hl : ∀ r ∈ rest, r.length = a.length := by
    intro r hr; rw [hc.1 r (by simp [hr]), hc.1 a (by simp)]
  have : rest.all (fun b => b.length == a.length) = true := by simpa using hl
  rw [zipmap, if_pos this, columns_unique (by simp) (zipArgs_columns a rest hl) hc]
  exact map_raises h ha

/-- Arrays of different lengths: the documented error, no call. -/
theorem zipmap_misaligned (f : List α → Eff σ β) (g : Int → List α → Eff σ β) (a : List α)
    (rest : List (List α)) (s : σ) (h : ∃ r ∈ rest, r.length ≠ a.length) :
    zipmap f a rest s = (.error (.rt 15650), s) ∧
    zipmapWithIndex g a rest s = (.error (.rt 15660), s) := by
  have : ¬ rest.all (fun b => b.length == a.length) = true := by
    obtain ⟨r, hr, hl⟩ := h
    simp only [List.all_eq_true, not_forall]
    exact ⟨r, hr, by simpa using hl⟩
  exact ⟨by rw [zipmap, if_neg this], by rw [zipmapWithIndex, if_neg this]⟩

theorem zipmapWithIndex_ok {f : Int → List α → Eff σ β} {s s1 : σ}
    {tr : List ((Int × List α) × β)} {a : List α} {cols : List (List α)}
    {rest : List (List α)} (hc : Columns (a :: rest) cols) (hi : Indexed cols (tr.map Prod.fst))
    (h : Chain (fun p => f p.1 p.2) s tr s1) :
    zipmapWithIndex f a rest s = (.ok (tr.map Prod.snd), s1) := by
  have hl : ∀ r ∈ rest, r.length = a.length := by
    intro r hr; rw [hc.1 r (by simp [hr]), hc.1 a (by simp)]
  have : rest.all (fun b => b.length == a.length) = true := by simpa using hl
  rw [zipmapWithIndex, if_pos this, columns_unique (by simp) (zipArgs_columns a rest hl) hc,
    ← indexed_iff.1 hi]
  exact map_ok h

/-! ### folds -/

/-- `Threads z tr z'`: in the trace of a two-argument function each call gets the result of the
one before as first argument, starting with `z` and ending with `z'`. -/
inductive Threads : β → List ((β × α) × β) → β → Prop
  | nil (z : β) : Threads z [] z
  | cons {z x z1 tr z2} : Threads z1 tr z2 → Threads z (((z, x), z1) :: tr) z2

theorem reduceFrom_ok {f : β → α → Eff σ β} {s s1 : σ} {tr : List ((β × α) × β)} {z z' : β}
    (h : Chain (fun p => f p.1 p.2) s tr s1) (ht : Threads z tr z') :
    reduceFrom f z (tr.map (fun p => p.1.2)) s = (.ok z', s1) := by
  induction ht generalizing s with
  | nil z => cases h; rfl
  | cons _ ih =>
    cases h with
    | cons hf hc => simp only at hf; simp only [List.map_cons, reduceFrom, hf]; exact ih hc

theorem reduceFrom_raises {f : β → α → Eff σ β} {s s1 s2 : σ} {tr : List ((β × α) × β)} {z z' : β}
    {a : α} {rest : List α} {e : Err}
    (h : Chain (fun p => f p.1 p.2) s tr s1) (ht : Threads z tr z')
    (ha : f z' a s1 = (.error e, s2)) :
    reduceFrom f z (tr.map (fun p => p.1.2) ++ a :: rest) s = (.error e, s2) := by
  induction ht generalizing s with
  | nil z => cases h; simp only [List.map_nil, List.nil_append, reduceFrom, ha]
  | cons _ ih =>
    cases h with
    | cons hf hc =>
      simp only at hf
      simp only [List.map_cons, List.cons_append, reduceFrom, hf]
      exact ih hc ha

/-- Every run of a fold is one of the two above. -/
theorem fold_cases (f : β → α → Eff σ β) (xs : List α) (z : β) (s : σ) :
    (∃ tr z' s1, xs = tr.map (fun p => p.1.2) ∧ Chain (fun p : β × α => f p.1 p.2) s tr s1 ∧
      Threads z tr z') ∨
    (∃ tr z' s1 a rest e s2, xs = tr.map (fun p => p.1.2) ++ a :: rest ∧
      Chain (fun p : β × α => f p.1 p.2) s tr s1 ∧ Threads z tr z' ∧ f z' a s1 = (.error e, s2)) := by
  induction xs generalizing z s with
  | nil => exact .inl ⟨[], z, s, rfl, .nil s, .nil z⟩
  | cons x xs ih =>
    rcases h : f z x s with ⟨r, s1⟩
    cases r with
    | error e => exact .inr ⟨[], z, s, x, xs, e, s1, rfl, .nil s, .nil z, h⟩
    | ok z1 =>
      rcases ih z1 s1 with ⟨tr, z', s2, h1, h2, h3⟩ | ⟨tr, z', s2, a, rest, e, s3, h1, h2, h3, h4⟩
      · exact .inl ⟨((z, x), z1) :: tr, z', s2, by simp [h1], .cons h h2, .cons h3⟩
      · exact .inr ⟨((z, x), z1) :: tr, z', s2, a, rest, e, s3, by simp [h1], .cons h h2,
          .cons h3, h4⟩

/-- `a.fold`: the calls run from the left and each receives the previous result. -/
theorem fold_ok {f : β → α → Eff σ β} {s s1 : σ} {tr : List ((β × α) × β)} {z z' : β}
    (h : Chain (fun p => f p.1 p.2) s tr s1) (ht : Threads z tr z') :
    foldA f (tr.map (fun p => p.1.2)) z s = (.ok z', s1) := reduceFrom_ok h ht

theorem fold_raises {f : β → α → Eff σ β} {s s1 s2 : σ} {tr : List ((β × α) × β)} {z z' : β}
    {a : α} {rest : List α} {e : Err}
    (h : Chain (fun p => f p.1 p.2) s tr s1) (ht : Threads z tr z')
    (ha : f z' a s1 = (.error e, s2)) :
    foldA f (tr.map (fun p => p.1.2) ++ a :: rest) z s = (.error e, s2) :=
  reduceFrom_raises h ht ha

/-- `a.foldRight`: the calls run from the right; the trace lists them in the order they happen. -/
theorem foldRight_ok {f : α → β → Eff σ β} {s s1 : σ} {tr : List ((β × α) × β)} {z z' : β}
    (h : Chain (fun p => f p.2 p.1) s tr s1) (ht : Threads z tr z') :
    foldRight f (tr.map (fun p => p.1.2)).reverse z s = (.ok z', s1) := by
  rw [foldRight, List.reverse_reverse]; exact reduceFrom_ok h ht

theorem foldRight_raises {f : α → β → Eff σ β} {s s1 s2 : σ} {tr : List ((β × α) × β)} {z z' : β}
    {a : α} {rest : List α} {e : Err}
    (h : Chain (fun p => f p.2 p.1) s tr s1) (ht : Threads z tr z')
    (ha : f a z' s1 = (.error e, s2)) :
    foldRight f (tr.map (fun p => p.1.2) ++ a :: rest).reverse z s = (.error e, s2) := by
  rw [foldRight, List.reverse_reverse]; exact reduceFrom_raises h ht ha

/-- `a.reduce` starts with the first element, `a.reduceRight` with the last. -/
theorem reduce_ok {f : α → α → Eff σ α} {s s1 : σ} {tr : List ((α × α) × α)} {z z' : α}
    (h : Chain (fun p => f p.1 p.2) s tr s1) (ht : Threads z tr z') :
    reduceA f (z :: tr.map (fun p => p.1.2)) s = (.ok z', s1) := reduceFrom_ok h ht

theorem reduceRight_ok {f : α → α → Eff σ α} {s s1 : σ} {tr : List ((α × α) × α)} {z z' : α}
    (h : Chain (fun p => f p.2 p.1) s tr s1) (ht : Threads z tr z') :
    reduceRight f ((tr.map (fun p => p.1.2)).reverse ++ [z]) s = (.ok z', s1) := by
  have hr : ((tr.map (fun p => p.1.2)).reverse ++ [z]).reverse = z :: tr.map (fun p => p.1.2) := by
    simp
  rw [reduceRight, hr]
  exact reduceFrom_ok (f := fun x y => f y x) h ht

theorem reduce_raises {f : α → α → Eff σ α} {s s1 s2 : σ} {tr : List ((α × α) × α)} {z z' : α}
    {a : α} {rest : List α} {e : Err}
    (h : Chain (fun p => f p.1 p.2) s tr s1) (ht : Threads z tr z')
    (ha : f z' a s1 = (.error e, s2)) :
    reduceA f (z :: (tr.map (fun p => p.1.2) ++ a :: rest)) s = (.error e, s2) :=
  reduceFrom_raises h ht ha

theorem reduceRight_raises {f : α → α → Eff σ α} {s s1 s2 : σ} {tr : List ((α × α) × α)} {z z' : α}
    {a : α} {rest : List α} {e : Err}
    (h : Chain (fun p => f p.2 p.1) s tr s1) (ht : Threads z tr z')
    (ha : f a z' s1 = (.error e, s2)) :
    reduceRight f ((tr.map (fun p => p.1.2) ++ a :: rest).reverse ++ [z]) s = (.error e, s2) := by
  have hr : ((tr.map (fun p => p.1.2) ++ a :: rest).reverse ++ [z]).reverse =
      z :: (tr.map (fun p => p.1.2) ++ a :: rest) := by simp
  rw [reduceRight, hr]
  exact reduceFrom_raises (f := fun x y => f y x) h ht ha

theorem reduce_empty (f : α → α → Eff σ α) (s : σ) :
    reduceA f [] s = (.error (.rt 15670), s) ∧ reduceRight f [] s = (.error (.rt 15680), s) :=
  ⟨rfl, rfl⟩

theorem reduceFrom_pure (g : β → α → β) (a : List α) (z : β) (s : σ) :
    reduceFrom (fun z x => ret (g z x)) z a s = (.ok (a.foldl g z), s) := by
  induction a generalizing z with
  | nil => rfl
  | cons x xs ih => simp only [reduceFrom, ret, List.foldl_cons]; exact ih _

/-- The textbook results for functions without effects. -/
theorem folds_pure (g : β → α → β) (h : α → β → β) (k : α → α → α) (a : List α) (x : α) (z : β)
    (s : σ) :
    foldA (fun z x => ret (g z x)) a z s = (.ok (a.foldl g z), s) ∧
    foldRight (fun x z => ret (h x z)) a z s = (.ok (a.foldr h z), s) ∧
    reduceA (fun x y => ret (k x y)) (x :: a) s = (.ok (a.foldl k x), s) ∧
    reduceRight (fun x y => ret (k x y)) (a ++ [x]) s = (.ok (a.foldr k x), s) := by
  refine ⟨reduceFrom_pure g a z s, ?_, reduceFrom_pure k a x s, ?_⟩
  · rw [foldRight, reduceFrom_pure (fun y x => h x y), List.foldl_reverse]
  · have hr : (a ++ [x]).reverse = x :: a.reverse := by simp
    rw [reduceRight, hr]
    simp only
    rw [reduceFrom_pure (fun x y => k y x), List.foldl_reverse]

/-! ### functions that stop early -/

section
variable {f : α → Eff σ Bool} {s s1 s2 : σ} {tr : List (α × Bool)} {a : α} {e : Err}
  {rest : List α}

theorem takeWhileLoop_gen (h : Chain f s tr s1) (ht : ∀ p ∈ tr, p.2 = true) (out : List α) :
    takeWhileLoop f out (tr.map Prod.fst ++ rest) s =
      takeWhileLoop f (out ++ tr.map Prod.fst) rest s1 := by
  induction h generalizing out with
  | nil => simp
  | @cons s a b s1 tr s2 hf _ ih =>
    have hb : b = true := ht (a, b) (by simp)
    subst hb
    simp only [List.map_cons, List.cons_append, takeWhileLoop, hf]
    rw [ih (fun p hp => ht p (by simp [hp]))]
    simp

/-- `a.takeWhile`: the elements before the first false, and no call after it. -/
theorem takeWhile_all (h : Chain f s tr s1) (ht : ∀ p ∈ tr, p.2 = true) :
    takeWhileA f (tr.map Prod.fst) s = (.ok (tr.map Prod.fst), s1) := by
  have := takeWhileLoop_gen (rest := []) h ht []
  simpa [takeWhileA, takeWhileLoop] using this

theorem takeWhile_stop (h : Chain f s tr s1) (ht : ∀ p ∈ tr, p.2 = true)
    (ha : f a s1 = (.ok false, s2)) :
    takeWhileA f (tr.map Prod.fst ++ a :: rest) s = (.ok (tr.map Prod.fst), s2) := by
  have := takeWhileLoop_gen (rest := a :: rest) h ht []
  simpa [takeWhileA, takeWhileLoop, ha] using this

theorem takeWhile_raises (h : Chain f s tr s1) (ht : ∀ p ∈ tr, p.2 = true)
    (ha : f a s1 = (.error e, s2)) :
    takeWhileA f (tr.map Prod.fst ++ a :: rest) s = (.error e, s2) := by
  have := takeWhileLoop_gen (rest := a :: rest) h ht []
  simpa [takeWhileA, takeWhileLoop, ha] using this

theorem dropCount_gen (h : Chain f s tr s1) (ht : ∀ p ∈ tr, p.2 = true) (i : Nat) :
    dropCount f i (tr.map Prod.fst ++ rest) s = dropCount f (i + tr.length) rest s1 := by
  induction h generalizing i with
  | nil => simp
  | @cons s a b s1 tr s2 hf _ ih =>
    have hb : b = true := ht (a, b) (by simp)
    subst hb
    simp only [List.map_cons, List.cons_append, dropCount, hf]
    rw [ih (fun p hp => ht p (by simp [hp]))]
    congr 1
    simp only [List.length_cons]
    omega

/-- `a.dropWhile`: the elements from the first false on. -/
theorem dropWhile_all (h : Chain f s tr s1) (ht : ∀ p ∈ tr, p.2 = true) :
    dropWhileA f (tr.map Prod.fst) s = (.ok [], s1) := by
  have := dropCount_gen (rest := []) h ht 0
  simp only [List.append_nil, dropCount] at this
  simp [dropWhileA, this]

theorem dropWhile_stop (h : Chain f s tr s1) (ht : ∀ p ∈ tr, p.2 = true)
    (ha : f a s1 = (.ok false, s2)) :
    dropWhileA f (tr.map Prod.fst ++ a :: rest) s = (.ok (a :: rest), s2) := by
  have := dropCount_gen (rest := a :: rest) h ht 0
  simp only [dropCount, ha] at this
  simp [dropWhileA, this]

theorem dropWhile_raises (h : Chain f s tr s1) (ht : ∀ p ∈ tr, p.2 = true)
    (ha : f a s1 = (.error e, s2)) :
    dropWhileA f (tr.map Prod.fst ++ a :: rest) s = (.error e, s2) := by
  have := dropCount_gen (rest := a :: rest) h ht 0
  simp only [dropCount, ha] at this
  simp [dropWhileA, this]

theorem any_gen (h : Chain f s tr s1) (ht : ∀ p ∈ tr, p.2 = false) :
    anyA f (tr.map Prod.fst ++ rest) s = anyA f rest s1 := by
  induction h with
  | nil => simp
  | @cons s a b s1 tr s2 hf _ ih =>
    have hb : b = false := ht (a, b) (by simp)
    subst hb
    simp only [List.map_cons, List.cons_append, anyA, hf]
    exact ih (fun p hp => ht p (by simp [hp]))

/-- `a.any`: false when every call returned false, true at the first true, which is the last
call. -/
theorem any_false (h : Chain f s tr s1) (ht : ∀ p ∈ tr, p.2 = false) :
    anyA f (tr.map Prod.fst) s = (.ok false, s1) := by
  simpa [anyA] using any_gen (rest := []) h ht

theorem any_true (h : Chain f s tr s1) (ht : ∀ p ∈ tr, p.2 = false) (ha : f a s1 = (.ok true, s2)) :
    anyA f (tr.map Prod.fst ++ a :: rest) s = (.ok true, s2) := by
  rw [any_gen h ht]; simp [anyA, ha]

theorem any_raises (h : Chain f s tr s1) (ht : ∀ p ∈ tr, p.2 = false)
    (ha : f a s1 = (.error e, s2)) :
    anyA f (tr.map Prod.fst ++ a :: rest) s = (.error e, s2) := by
  rw [any_gen h ht]; simp [anyA, ha]

theorem all_gen (h : Chain f s tr s1) (ht : ∀ p ∈ tr, p.2 = true) :
    allA f (tr.map Prod.fst ++ rest) s = allA f rest s1 := by
  induction h with
  | nil => simp
  | @cons s a b s1 tr s2 hf _ ih =>
    have hb : b = true := ht (a, b) (by simp)
    subst hb
    simp only [List.map_cons, List.cons_append, allA, hf]
    exact ih (fun p hp => ht p (by simp [hp]))

/-- `a.all`: true when every call returned true, false at the first false. -/
theorem all_true (h : Chain f s tr s1) (ht : ∀ p ∈ tr, p.2 = true) :
    allA f (tr.map Prod.fst) s = (.ok true, s1) := by
  simpa [allA] using all_gen (rest := []) h ht

theorem all_false (h : Chain f s tr s1) (ht : ∀ p ∈ tr, p.2 = true) (ha : f a s1 = (.ok false, s2)) :
    allA f (tr.map Prod.fst ++ a :: rest) s = (.ok false, s2) := by
  rw [all_gen h ht]; simp [allA, ha]

theorem all_raises (h : Chain f s tr s1) (ht : ∀ p ∈ tr, p.2 = true)
    (ha : f a s1 = (.error e, s2)) :
    allA f (tr.map Prod.fst ++ a :: rest) s = (.error e, s2) := by
  rw [all_gen h ht]; simp [allA, ha]

/-- The cases above are exhaustive: any list splits at the first call that does not return `v`. -/
theorem early_cases (f : α → Eff σ Bool) (v : Bool) (xs : List α) (s : σ) :
    (∃ tr s1, xs = tr.map Prod.fst ∧ Chain f s tr s1 ∧ ∀ p ∈ tr, p.2 = v) ∨
    (∃ tr s1 a rest r s2, xs = tr.map Prod.fst ++ a :: rest ∧ Chain f s tr s1 ∧
      (∀ p ∈ tr, p.2 = v) ∧ f a s1 = (r, s2) ∧ r ≠ .ok v) := by
  induction xs generalizing s with
  | nil => exact .inl ⟨[], s, rfl, .nil s, by simp⟩
  | cons x xs ih =>
    rcases h : f x s with ⟨r, s1⟩
    by_cases hr : r = .ok v
    · subst hr
      rcases ih s1 with ⟨tr, s', h1, h2, h3⟩ | ⟨tr, s2, a, rest, r, s3, h1, h2, h3, h4, h5⟩
      · exact .inl ⟨(x, v) :: tr, s', by simp [h1], .cons h h2, by
          intro p hp; rcases List.mem_cons.1 hp with rfl | hp; rfl; exact h3 p hp⟩
      · exact .inr ⟨(x, v) :: tr, s2, a, rest, r, s3, by simp [h1], .cons h h2, by
          intro p hp
          rcases List.mem_cons.1 hp with rfl | hp
          · rfl
          · exact h3 p hp, h4, h5⟩
    · exact .inr ⟨[], s, x, xs, r, s1, rfl, .nil s, by simp, h, hr⟩
end

/-- `a.corresponds`: false without any call on arrays of different lengths. -/
theorem corresponds_spec (f : α → β → Eff σ Bool) (g : Int → α → β → Eff σ Bool) (a : List α)
    (b : List β) (s : σ) :
    (a.length ≠ b.length → corresponds f a b s = (.ok false, s) ∧
      correspondsWithIndex g a b s = (.ok false, s)) ∧
    (∀ (c : α → β → Bool), a.length = b.length → f = (fun x y => ret (c x y)) →
      corresponds f a b s = (.ok (decide (∀ i (h : i < a.length) (h' : i < b.length), c a[i] b[i] = true)), s)) := by
  refine ⟨fun h => ⟨by simp [corresponds, h, ret], by simp [correspondsWithIndex, h, ret]⟩, ?_⟩
  rintro c hl rfl
  simp only [corresponds, hl, if_true]
  have aux : ∀ (ps : List (α × β)), allA (fun p => ret (c p.1 p.2)) ps s =
      (.ok (ps.all (fun p => c p.1 p.2)), s) := by
    intro ps
    induction ps with
    | nil => rfl
    | cons p ps ih =>
      simp only [allA, ret, List.all_cons]
      cases c p.1 p.2
      · rfl
      · simpa [ret] using ih
  rw [aux]
  congr 2
  rw [Bool.eq_iff_iff, List.all_eq_true, decide_eq_true_iff]
  constructor
  · intro h i h1 h2
    exact h (a[i], b[i]) (List.mem_iff_getElem.2 ⟨i, by simp [hl, h2], by simp⟩)
  · intro h p hp
    obtain ⟨i, hi, rfl⟩ := List.mem_iff_getElem.1 hp
    simp only [List.getElem_zip]
    simp only [List.length_zip, hl, Nat.min_self] at hi
    exact h i (by omega) hi

/-- With effects, on equally long arrays: the calls run over the pairs in order until one is
false. -/
theorem corresponds_calls (f : α → β → Eff σ Bool) (g : Int → α → β → Eff σ Bool) (a : List α)
    (b : List β) (s : σ) (h : a.length = b.length) :
    corresponds f a b s = allA (fun p => f p.1 p.2) (a.zip b) s ∧
    ∃ ps, Indexed (a.zip b) ps ∧
      correspondsWithIndex g a b s = allA (fun p => g p.1 p.2.1 p.2.2) ps s :=
  ⟨by simp [corresponds, h], enumerate (a.zip b), enumerate_get _, by simp [correspondsWithIndex, h]⟩

/-! ### Non-vacuity: a user function that counts its calls and fails on the number 3 -/

/-- Counts calls in the state; raises a user error on 3; is true of even numbers. -/
def probe (x : Int) : Eff Nat Bool := fun n =>
  if x = 3 then (.error (.user "three" none), n + 1) else (.ok (x % 2 = 0), n + 1)

example : filterA probe [4, 5, 6] 0 = (.ok [4, 6], 3) := by decide
example : filterA probe [4, 3, 6] 0 = (.error (.user "three" none), 2) := by decide
example : takeWhileA probe [4, 6, 5, 3] 0 = (.ok [4, 6], 3) := by decide
example : dropWhileA probe [4, 6, 5, 3] 0 = (.ok [5, 3], 3) := by decide
example : anyA probe [5, 4, 3] 0 = (.ok true, 2) := by decide
example : allA probe [4, 5, 3] 0 = (.ok false, 2) := by decide
example : Chain probe 0 [(4, true), (5, false)] 2 := .cons (s1 := 1) (by decide) (.cons (s1 := 2) (by decide) (.nil _))
example : zipmap (σ := Unit) (fun c => ret c.sum) [1, 2, 3] [[10, 20, 30], [100, 200, (300 : Int)]] () =
    (.ok [111, 222, 333], ()) := by decide
example : Columns [[1, 2], [3, (4 : Int)]] [[1, 3], [2, 4]] :=
  ⟨by decide, by intro i hi; match i with | 0 => rfl | 1 => rfl | (n + 2) => simp at hi⟩

end Verif.Lib
