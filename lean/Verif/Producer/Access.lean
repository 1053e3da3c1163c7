import Verif.Avro.Json
import Verif.Lib.Num
import Mathlib.Data.List.SplitOn
/-! # Places in a JSON document: model and laws (C82)

Models `titus/producer/tools.py` 28-87: `splitIndex`, `get`, `assign`, `assigned`, `remove`, `removed`.

Simplifications.  Documents are trees: no list or object occurs twice in one.  Changing a tree in place is giving back the changed tree, so `assign` and
`assigned` are the same function.  Strings are ASCII where white space and numerals matter.  Python lets an object get a key that is a number; the
result is not JSON, and the model calls that the error `notJson`. -/

namespace Verif.Producer
open Avro

/-- One step of an index: a key or a number. -/
inductive Ix where
  | key (s : String)
  | pos (i : Int)
deriving DecidableEq

def keyErr : Err := .py "KeyError"
def indexErr : Err := .py "IndexError"
def typeErr : Err := .py "TypeError"
/-- Not an exception: an object with a number for a key is outside of the model. -/
def notJson : Err := .py "not JSON"

/-- The place that an index means in a list of length `n`; negative ones count from the end. -/
def place (n : Nat) (i : Int) : Option Nat :=
  if 0 ≤ i then (if i < n then some i.toNat else none)
  else if -n ≤ i then some (n + i).toNat else none

/-- `out[i]` (tools.py 46). -/
def step : Val → Ix → Res Val
  | .dict d, .key k => match PyDict.get? d k with
    | some v => .ok v
    | none => .error keyErr
  | .dict _, .pos _ => .error keyErr
  | .arr xs, .pos i => match (place xs.length i).bind (xs[·]?) with
    | some v => .ok v
    | none => .error indexErr
  | .str s, .pos i => match (place s.length i).bind (s.toList[·]?) with
    | some c => .ok (.str (String.singleton c))
    | none => .error indexErr
  | _, _ => .error typeErr

/-- `get`, tools.py 40-47. -/
def get : Val → List Ix → Res Val
  | v, [] => .ok v
  | v, i :: is => match step v i with
    | .error e => .error e
    | .ok w => get w is

/-- `out[i] = to` (line 56). -/
def put : Val → Ix → Val → Res Val
  | .dict d, .key k, t => .ok (.dict (PyDict.set d k t))
  | .dict _, .pos _, _ => .error notJson
  | .arr xs, .pos i, t => match place xs.length i with
    | some n => .ok (.arr (xs.set n t))
    | none => .error indexErr
  | _, _, _ => .error typeErr

/-- `assign`, lines 49-56; the empty index has no last element. -/
def assign : Val → List Ix → Val → Res Val
  | _, [], _ => .error indexErr
  | v, [i], t => put v i t
  | v, i :: is, t => match step v i with
    | .error e => .error e
    | .ok w => match assign w is t with
      | .error e => .error e
      | .ok w' => put v i w'

/-- `del out[i]` (line 81). -/
def del : Val → Ix → Res Val
  | .dict d, .key k => if (PyDict.get? d k).isSome then .ok (.dict (PyDict.del d k)) else .error keyErr
  | .dict _, .pos _ => .error keyErr
  | .arr xs, .pos i => match place xs.length i with
    | some n => .ok (.arr (xs.eraseIdx n))
    | none => .error indexErr
  | _, _ => .error typeErr

/-- `remove`, lines 74-81. -/
def remove : Val → List Ix → Res Val
  | _, [] => .error indexErr
  | v, [i] => del v i
  | v, i :: is => match step v i with
    | .error e => .error e
    | .ok w => match remove w is with
      | .error e => .error e
      | .ok w' => put v i w'

/-- `x.strip()` -/
def trim (s : List Char) : List Char := ((s.dropWhile Lib.Num.isSpace).reverse.dropWhile Lib.Num.isSpace).reverse

/-- Lines 32-36: a part of an index that is a numeral becomes a number. -/
def part (s : List Char) : Ix := match Lib.Num.pyInt 10 s with
  | some i => .pos i
  | none => .key (String.ofList s)

/-- `splitIndex`, lines 30-38. -/
def splitIndex (s : String) : List Ix := ((s.toList.splitOn ',').map trim).map part

/-! ## Specification: what is where -/

/-- `Sub v js w`: in the document `v`, the keys and positions `js` lead to `w`. -/
inductive Sub : Val → List Ix → Val → Prop where
  | here (v : Val) : Sub v [] v
  | key {d : List (String × Val)} {k : String} {c w : Val} {js : List Ix} (hm : (k, c) ∈ d) (h : Sub c js w) : Sub (.dict d) (.key k :: js) w
  | pos {xs : List Val} {i : Nat} {c w : Val} {js : List Ix} (hm : xs[i]? = some c) (h : Sub c js w) : Sub (.arr xs) (.pos i :: js) w

/-- Every object in the document has each key once. -/
def Tidy (v : Val) : Prop := ∀ js d, Sub v js (.dict d) → (PyDict.keys d).Nodup

/-- Two indexes that part: neither is the beginning of the other. -/
def Apart (is js : List Ix) : Prop := ∃ p a b r s, is = p ++ a :: r ∧ js = p ++ b :: s ∧ a ≠ b

/-- No negative numbers. -/
def Ix.plain : Ix → Prop
  | .key _ => True
  | .pos i => 0 ≤ i

/-! ## Lemmas -/

theorem place_nat {n i : Nat} (h : i < n) : place n i = some i := by simp [place, h]

theorem place_lt {n : Nat} {i : Int} {j : Nat} (h : place n i = some j) : j < n := by
  unfold place at h
  by_cases h1 : 0 ≤ i
  · rw [if_pos h1] at h
    by_cases h2 : i < n
    · rw [if_pos h2] at h; injection h with h; omega
    · rw [if_neg h2] at h; cases h
  · rw [if_neg h1] at h
    by_cases h2 : -(n : Int) ≤ i
    · rw [if_pos h2] at h; injection h with h; omega
    · rw [if_neg h2] at h; cases h

theorem Tidy.key {d : List (String × Val)} {k : String} {c : Val} (h : Tidy (.dict d)) (hm : (k, c) ∈ d) : Tidy c :=
  fun js d' hs => h (.key k :: js) d' (.key hm hs)

theorem Tidy.pos {xs : List Val} {i : Nat} {c : Val} (h : Tidy (.arr xs)) (hm : xs[i]? = some c) : Tidy c :=
  fun js d' hs => h (.pos i :: js) d' (.pos hm hs)

theorem step_key {d : List (String × Val)} {k : String} {c : Val} (h : Tidy (.dict d)) (hm : (k, c) ∈ d) : step (.dict d) (.key k) = .ok c := by
  simp [step, PyDict.get?_of_mem (h [] d (.here _)) hm]

theorem step_pos {xs : List Val} {i : Nat} {c : Val} (hm : xs[i]? = some c) : step (.arr xs) (.pos i) = .ok c := by
  have : i < xs.length := (List.getElem?_eq_some_iff.1 hm).1
  simp only [step, place_nat this, Option.bind_some, hm]

/-- **C82.** `get` finds what is there. -/
theorem get_sub {v w : Val} {js : List Ix} (ht : Tidy v) (h : Sub v js w) : get v js = .ok w := by
  induction h with
  | here => rfl
  | key hm _ ih => rw [get, step_key ht hm]; exact ih (ht.key hm)
  | pos hm _ ih => rw [get, step_pos hm]; exact ih (ht.pos hm)

/-- Putting and taking. -/
theorem step_put {v w t : Val} {i : Ix} (h : put v i t = .ok w) : step w i = .ok t := by
  cases v <;> cases i <;> simp only [put] at h <;> try (cases h; done)
  · rename_i xs i
    cases hp : place xs.length i with
    | none => rw [hp] at h; cases h
    | some n =>
      rw [hp] at h
      injection h with h
      subst h
      have := place_lt hp
      simp [step, hp, this]
  · injection h with h
    subst h
    simp [step]

/-- **C82.** What was assigned is there. -/
theorem get_assign {v w t : Val} {is : List Ix} (h : assign v is t = .ok w) : get w is = .ok t := by
  induction is generalizing v w with
  | nil => cases h
  | cons i is ih =>
    cases is with
    | nil => simp only [assign] at h; simp [get, step_put h]
    | cons j is =>
      simp only [assign] at h
      cases hs : step v i with
      | error e => rw [hs] at h; cases h
      | ok c =>
        rw [hs] at h
        simp only at h
        cases ha : assign c (j :: is) t with
        | error e => rw [ha] at h; cases h
        | ok c' =>
          rw [ha] at h
          simp only at h
          rw [get, step_put h]
          exact ih ha

/-- A different key or position is not affected. -/
theorem step_put_ne {v w t : Val} {i j : Ix} (hi : i.plain) (hj : j.plain) (hij : i ≠ j) (h : put v i t = .ok w) : step w j = step v j := by
  cases v <;> cases i <;> simp only [put] at h <;> try (cases h; done)
  · rename_i xs i
    cases hp : place xs.length i with
    | none => rw [hp] at h; cases h
    | some n =>
      rw [hp] at h
      injection h with h
      subst h
      cases j with
      | key k => rfl
      | pos j =>
        simp only [step, List.length_set]
        cases hq : place xs.length j with
        | none => rfl
        | some m =>
          have hne : n ≠ m := by
            simp only [Ix.plain] at hi hj
            simp only [place, if_pos hi] at hp
            simp only [place, if_pos hj] at hq
            have : i ≠ j := fun e => hij (by rw [e])
            split at hp <;> split at hq <;> simp_all <;> omega
          simp [List.getElem?_set_ne hne]
  · rename_i d k
    injection h with h
    subst h
    cases j with
    | pos j => rfl
    | key k' =>
      have : k ≠ k' := fun e => hij (by rw [e])
      simp [step, PyDict.get?_set_ne _ _ this]

/-- **C82.** What was assigned changes nothing elsewhere. -/
theorem get_assign_other {v w t : Val} {is js : List Ix} (hi : ∀ i ∈ is, i.plain) (hj : ∀ i ∈ js, i.plain) (hap : Apart is js)
    (h : assign v is t = .ok w) : get w js = get v js := by
  obtain ⟨p, a, b, r, s, rfl, rfl, hab⟩ := hap
  induction p generalizing v w with
  | nil =>
    simp only [List.nil_append] at *
    have key : ∀ t', put v a t' = .ok w → get w (b :: s) = get v (b :: s) := fun t' ht' => by
      rw [get, step_put_ne (hi a (by simp)) (hj b (by simp)) hab ht', get]
    cases r with
    | nil => exact key t (by simpa only [assign] using h)
    | cons c r =>
      simp only [assign] at h
      cases hs : step v a with
      | error e => rw [hs] at h; cases h
      | ok x =>
        rw [hs] at h
        simp only at h
        cases ha : assign x (c :: r) t with
        | error e => rw [ha] at h; cases h
        | ok x' => rw [ha] at h; exact key x' h
  | cons i p ih =>
    have he : (i :: p) ++ a :: r = i :: (p ++ a :: r) := rfl
    have he' : (i :: p) ++ b :: s = i :: (p ++ b :: s) := rfl
    rw [he] at h hi
    rw [he'] at hj ⊢
    obtain ⟨y, ys, hy⟩ : ∃ y ys, p ++ a :: r = y :: ys := by cases p <;> exact ⟨_, _, rfl⟩
    rw [hy] at h
    simp only [assign] at h
    rw [← hy] at h
    cases hs : step v i with
    | error e => rw [hs] at h; cases h
    | ok x =>
      rw [hs] at h
      simp only at h
      cases ha : assign x (p ++ a :: r) t with
      | error e => rw [ha] at h; cases h
      | ok x' =>
        rw [ha] at h
        simp only at h
        rw [get, step_put h, get, hs]
        exact ih (fun k hk => hi k (List.mem_cons_of_mem _ hk)) ha (fun k hk => hj k (List.mem_cons_of_mem _ hk))

/-- **C82.** Every place but the root can be assigned to. -/
theorem assign_ok {v w : Val} {js : List Ix} (ht : Tidy v) (h : Sub v js w) (hj : js ≠ []) (t : Val) : ∃ v', assign v js t = .ok v' := by
  induction h with
  | here => exact absurd rfl hj
  | @key d k c w js hm hs ih =>
    cases js with
    | nil => exact ⟨_, rfl⟩
    | cons j js =>
      obtain ⟨c', hc⟩ := ih (ht.key hm) (by simp)
      exact ⟨.dict (PyDict.set d k c'), by simp only [assign, step_key ht hm, hc, put]⟩
  | @pos xs i c w js hm hs ih =>
    have hl : i < xs.length := (List.getElem?_eq_some_iff.1 hm).1
    cases js with
    | nil => exact ⟨.arr (xs.set i t), by simp only [assign, put, place_nat hl]⟩
    | cons j js =>
      obtain ⟨c', hc⟩ := ih (ht.pos hm) (by simp)
      exact ⟨.arr (xs.set i c'), by simp only [assign, step_pos hm, hc, put, place_nat hl]⟩

/-- The root cannot. -/
theorem assign_root_violation (v t : Val) : get v [] = .ok v ∧ assign v [] t = .error indexErr ∧ remove v [] = .error indexErr := ⟨rfl, rfl, rfl⟩

/-- Removing is done in the container that holds the place. -/
theorem remove_iff {v : Val} (p : List Ix) (i : Ix) {w : Val} (h : remove v (p ++ [i]) = .ok w) :
    ∃ c c', get v p = .ok c ∧ del c i = .ok c' ∧ get w p = .ok c' ∧ (p = [] ∨ assign v p c' = .ok w) := by
  induction p generalizing v w with
  | nil => exact ⟨v, w, rfl, h, rfl, .inl rfl⟩
  | cons j p ih =>
    have he : (j :: p) ++ [i] = j :: (p ++ [i]) := rfl
    obtain ⟨y, ys, hy⟩ : ∃ y ys, p ++ [i] = y :: ys := by cases p <;> exact ⟨_, _, rfl⟩
    rw [he, hy] at h
    simp only [remove] at h
    rw [← hy] at h
    cases hs : step v j with
    | error e => rw [hs] at h; cases h
    | ok x =>
      rw [hs] at h
      simp only at h
      cases ha : remove x (p ++ [i]) with
      | error e => rw [ha] at h; cases h
      | ok x' =>
        rw [ha] at h
        simp only at h
        obtain ⟨c, c', h1, h2, h3, h4⟩ := ih ha
        refine ⟨c, c', by rw [get, hs]; exact h1, h2, by rw [get, step_put h]; exact h3, .inr ?_⟩
        cases p with
        | nil =>
          have : x' = c' := by injection h3
          subst this
          simpa only [assign] using h
        | cons k p =>
          obtain h4 | h4 := h4
          · cases h4
          · simp only [assign, hs, h4, h]

/-- **C82.** A key that was removed is gone and the other keys keep their values. -/
theorem del_key {d : List (String × Val)} {k : String} {w : Val} (hd : (PyDict.keys d).Nodup) (h : del (.dict d) (.key k) = .ok w) (k' : String) :
    step w (.key k') = if k = k' then .error keyErr else step (.dict d) (.key k') := by
  simp only [del] at h
  by_cases hk : (PyDict.get? d k).isSome = true
  · rw [if_pos hk] at h
    injection h with h
    subst h
    by_cases he : k = k'
    · subst he; simp [step, PyDict.get?_del (d := d) hd]
    · simp [step, PyDict.get?_del (d := d) hd, he]
  · rw [if_neg hk] at h; cases h

/-- **C82.** An element that was removed is gone and the following ones move up. -/
theorem del_pos {xs : List Val} {n : Nat} {w : Val} (h : del (.arr xs) (.pos n) = .ok w) :
    ∃ ys, w = .arr ys ∧ ys.length + 1 = xs.length ∧ ∀ j, ys[j]? = if j < n then xs[j]? else xs[j + 1]? := by
  simp only [del] at h
  cases hp : place xs.length n with
  | none => rw [hp] at h; cases h
  | some m =>
    rw [hp] at h
    injection h with h
    have hm : m = n := by
      simp only [place, Int.natCast_nonneg, if_true] at hp
      split at hp <;> simp_all
    subst hm
    have := place_lt hp
    exact ⟨_, h.symm, by rw [List.length_eraseIdx_of_lt this]; omega, fun j => List.getElem?_eraseIdx⟩

/-! ## Indexes as text -/

/-- White space. -/
def Blank (s : List Char) : Prop := ∀ c ∈ s, Lib.Num.isSpace c = true

/-- A text that a part of an index can be written as: a numeral for a number; for a key, the key, which must not contain a comma, begin or end with
white space, or be a numeral. -/
inductive Writes : Ix → List Char → Prop where
  | pos {i : Int} {s : List Char} (h : Lib.Num.Numeral 10 s i) (hs : ',' ∉ s) (ht : trim s = s) : Writes (.pos i) s
  | key {s : List Char} (h : ∀ i, ¬ Lib.Num.Numeral 10 s i) (hs : ',' ∉ s) (ht : trim s = s) : Writes (.key (String.ofList s)) s

theorem trim_pad {a s b : List Char} (ha : Blank a) (hb : Blank b) (hs : trim s = s) : trim (a ++ s ++ b) = s := by
  have h1 : ∀ (a s : List Char), Blank a → (a ++ s).dropWhile Lib.Num.isSpace = s.dropWhile Lib.Num.isSpace := by
    intro a s ha
    induction a with
    | nil => rfl
    | cons c a ih => simp [ha c (by simp), ih (fun c hc => ha c (by simp [hc]))]
  by_cases hn : s.dropWhile Lib.Num.isSpace = []
  · have hs0 : s = [] := by rw [← hs]; simp [trim, hn]
    subst hs0
    have : (a ++ [] ++ b).dropWhile Lib.Num.isSpace = [] := by
      rw [List.append_nil, h1 a b ha]
      have := h1 b [] hb
      simpa using this
    rw [trim, this]; rfl
  · have h2 : (s ++ b).dropWhile Lib.Num.isSpace = s.dropWhile Lib.Num.isSpace ++ b := by
      clear hs
      induction s with
      | nil => exact absurd rfl hn
      | cons c s ih =>
        by_cases hc : Lib.Num.isSpace c = true
        · simp only [List.cons_append, List.dropWhile_cons, hc, if_true] at hn ⊢; exact ih hn
        · simp [hc]
    rw [trim, List.append_assoc, h1 a _ ha, h2, List.reverse_append, h1 b.reverse _ (fun c hc => hb c (by simpa using hc))]
    exact hs

/-- **C82.** An index written with commas and any white space around its parts is split into its parts. -/
theorem splitIndex_spec (parts : List (Ix × List Char × List Char × List Char)) (hne : parts ≠ [])
    (h : ∀ p ∈ parts, Writes p.1 p.2.1 ∧ Blank p.2.2.1 ∧ Blank p.2.2.2) :
    splitIndex (String.ofList ([','].intercalate (parts.map fun p => p.2.2.1 ++ p.2.1 ++ p.2.2.2))) = parts.map (·.1) := by
  have hb : ∀ {s}, Blank s → ',' ∉ s := fun hs hc => absurd (hs ',' hc) (by decide)
  rw [splitIndex, String.toList_ofList, List.splitOn_intercalate ',' _ (by simpa using hne)]
  · rw [List.map_map, List.map_map]
    refine List.map_congr_left fun p hp => ?_
    obtain ⟨hw, h1, h2⟩ := h p hp
    obtain ⟨ix, s, a, b⟩ := p
    simp only [Function.comp] at *
    cases hw with
    | pos hn hs ht => rw [trim_pad h1 h2 ht, part, (Lib.Num.pyInt_iff 10 _ _).2 hn]
    | key hn hs ht =>
      rw [trim_pad h1 h2 ht, part]
      cases hq : Lib.Num.pyInt 10 s with
      | none => rfl
      | some i => exact absurd ((Lib.Num.pyInt_iff 10 _ _).1 hq) (hn i)
  · intro l hl
    obtain ⟨p, hp, rfl⟩ := List.mem_map.1 hl
    obtain ⟨hw, h1, h2⟩ := h p hp
    obtain ⟨ix, s, a, b⟩ := p
    simp only at hw h1 h2 ⊢
    have hs : ',' ∉ s := by cases hw <;> assumption
    simp [hb h1, hb h2, hs]

theorem split_example : splitIndex "one, two, 3,four" = [.key "one", .key "two", .pos 3, .key "four"] := by decide +kernel

/-- The root cannot be written, and a key that looks like a number cannot be reached. -/
theorem split_violation : splitIndex "" = [.key ""] ∧ splitIndex "a,1" = [.key "a", .pos 1] ∧
    (∀ v, get (.dict [("a", .dict [("1", v)])]) (splitIndex "a,1") = .error keyErr) := by
  have h1 : splitIndex "a,1" = [.key "a", .pos 1] := by decide +kernel
  refine ⟨by decide +kernel, h1, fun v => ?_⟩
  rw [h1]
  simp [get, step, PyDict.get?]

end Verif.Producer
