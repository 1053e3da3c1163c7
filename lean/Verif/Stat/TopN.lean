import Verif.Stat.Num
import Verif.Lib.Sort
import Mathlib.Algebra.BigOperators.Group.List.Basic
/-! # stat.sample.topN and stat.sample.fillCounter (C63) -/

namespace Verif.Stat
open Num Verif.Lib

/-- titus/lib/stat/sample.py:788-793, the loop of `topN`: the index of the first element that is less
than `x`, or the length.  The user function is called on one element after the other until it says
yes. -/
def place {σ α : Type} (lessThan : α → α → Eff σ Bool) (x : α) : Nat → List α → Eff σ Nat
  | index, [], s => (.ok index, s)
  | index, best :: top, s =>
    match lessThan best x s with
    | (.error e, s') => (.error e, s')
    | (.ok true, s') => (.ok index, s')
    | (.ok false, s') => place lessThan x (index + 1) top s'

/-- titus/lib/stat/sample.py:783-800 `TopN.__call__`. -/
def topN {σ α : Type} (x : α) (top : List α) (n : Int) (lessThan : α → α → Eff σ Bool) :
    Eff σ (List α) := fun s =>
  if n ≤ 0 then (.ok [], s)
  else match place lessThan x 0 top s with
    | (.error e, s') => (.error e, s')
    | (.ok index, s') =>
      let out := if index = top.length then top ++ [x] else top.take index ++ [x] ++ top.drop index
      (.ok (out.take n.toNat), s')

/-- A stream of data. -/
def runTopN {σ α : Type} (n : Int) (lessThan : α → α → Eff σ Bool) : List α → List α → Eff σ (List α)
  | [], top, s => (.ok top, s)
  | x :: l, top, s =>
    match topN x top n lessThan s with
    | (.error e, s') => (.error e, s')
    | (.ok top', s') => runTopN n lessThan l top' s'

theorem place_pure {σ α : Type} (lt : α → α → Bool) (x : α) (top : List α) (s : σ) : ∀ k,
    ∃ i, place (fun a b => ret (lt a b)) x k top s = (.ok (k + i), s) ∧ i ≤ top.length ∧
      top.take i ++ x :: top.drop i = insertBefore (fun x best => lt best x) x top := by
  induction top with
  | nil => intro k; exact ⟨0, rfl, by simp, rfl⟩
  | cons b top ih =>
    intro k
    rw [place]
    cases hb : lt b x with
    | true => exact ⟨0, by simp [ret, hb], by simp, by simp [insertBefore, hb]⟩
    | false =>
      obtain ⟨i, e, hi, h⟩ := ih (k + 1)
      refine ⟨i + 1, ?_, by simpa using hi, ?_⟩
      · simp only [ret, hb]
        rw [e]
        congr 2
        omega
      · simpa [insertBefore, hb] using h

/-- One step: insertion behind the elements that are not less, and truncation. -/
theorem topN_pure {σ α : Type} (lt : α → α → Bool) (x : α) (top : List α) (n : Nat) (s : σ) :
    topN x top n (fun a b => ret (lt a b)) s =
      (.ok ((insertBefore (fun x best => lt best x) x top).take n), s) := by
  rw [topN]
  by_cases hn : n = 0
  · subst hn; simp
  · rw [if_neg (by omega)]
    obtain ⟨i, e, hi, h⟩ := place_pure lt x top s 0
    rw [e]
    simp only [zero_add, Int.toNat_natCast]
    by_cases hl : i = top.length
    · rw [if_pos hl, ← h]
      simp [hl]
    · rw [if_neg hl, ← h]
      simp

theorem runTopN_eq {σ α : Type} (lt : α → α → Bool) (n : Nat) (l : List α) (s : σ) :
    ∀ out : List α, runTopN n (fun a b => ret (lt a b)) l (out.take n) s =
      (.ok ((insertAll (fun x y => lt y x) l out).take n), s) := by
  induction l with
  | nil => intro out; rfl
  | cons x l ih =>
    intro out
    rw [runTopN, topN_pure]
    simp only
    rw [insertBefore_take, ih]
    rfl

/-- **C63, topN.** With a strict weak order, the state after any stream is the `n` largest of the
stream, largest first, earlier data first among equals. -/
theorem topN_stream {σ α : Type} {lt : α → α → Bool} (h : StrictWeak lt) (n : Nat) (l : List α)
    (s : σ) : ∃ r, runTopN n (fun a b => ret (lt a b)) l [] s = (.ok r, s) ∧
      Smallest (fun x y => lt y x) n l r := by
  have e := runTopN_eq lt n l s []
  simp only [List.take_nil] at e
  exact ⟨_, e, _, insertAll_stable h.flip l, rfl⟩

/-- Whatever the function and the state: no more than `n` elements. -/
theorem topN_length {σ α : Type} (x : α) (top : List α) (n : Int) (lessThan : α → α → Eff σ Bool)
    (s s' : σ) (r : List α) (h : topN x top n lessThan s = (.ok r, s')) :
    r.length ≤ n.toNat ∧ ∀ y ∈ r, y = x ∨ y ∈ top := by
  rw [topN] at h
  by_cases hn : n ≤ 0
  · rw [if_pos hn] at h
    simp only [Prod.mk.injEq, Except.ok.injEq] at h
    obtain ⟨rfl, -⟩ := h
    simp
  · rw [if_neg hn] at h
    rcases hp : place lessThan x 0 top s with ⟨_ | i, s1⟩
    · rw [hp] at h; simp at h
    · rw [hp] at h
      simp only [Prod.mk.injEq, Except.ok.injEq] at h
      obtain ⟨rfl, -⟩ := h
      refine ⟨by rw [List.length_take]; omega, ?_⟩
      intro y hy
      have hy := List.mem_of_mem_take hy
      split_ifs at hy with hi
      · rcases List.mem_append.1 hy with h | h
        · exact Or.inr h
        · exact Or.inl (by simpa using h)
      · rw [List.append_assoc] at hy
        rcases List.mem_append.1 hy with h | h
        · exact Or.inr (List.mem_of_mem_take h)
        · rcases List.mem_append.1 h with h | h
          · exact Or.inl (by simpa using h)
          · exact Or.inr (List.mem_of_mem_drop h)

/-! ## Counters -/

/-- titus/lib/stat/sample.py:765-768 `FillCounter.__call__`, on the map `values`. -/
def fillCounter (r : ℚ → Num) (x : String) (w : Num) (values : PyDict String Num) : PyDict String Num :=
  PyDict.set values x (add r ((PyDict.get? values x).getD (.fin 0)) w)

/-- A stream of labels and weights. -/
def runCounter (r : ℚ → Num) (l : List (String × ℚ)) (values : PyDict String Num) : PyDict String Num :=
  l.foldl (fun v d => fillCounter r d.1 (.fin d.2) v) values

theorem runCounter_get (l : List (String × ℚ)) (k : String) : ∀ (v : PyDict String Num) (c : ℚ),
    (PyDict.get? v k).getD (.fin 0) = .fin c →
    (PyDict.get? (runCounter .fin l v) k).getD (.fin 0)
      = .fin (c + ((l.filter (fun d => d.1 = k)).map (·.2)).sum) := by
  induction l with
  | nil => intro v c h; simpa [runCounter] using h
  | cons d l ih =>
    intro v c h
    show (PyDict.get? (runCounter .fin l (fillCounter .fin d.1 (.fin d.2) v)) k).getD _ = _
    by_cases hk : d.1 = k
    · rw [ih _ (c + d.2)]
      · simp [hk, add_assoc]
      · subst hk
        simp [fillCounter, h]
    · rw [ih _ c]
      · simp [hk]
      · rw [fillCounter, PyDict.get?_set_ne _ _ hk, h]

theorem runCounter_keys (r) (l : List (String × ℚ)) (k : String) : ∀ (v : PyDict String Num),
    (PyDict.get? (runCounter r l v) k).isSome = true ↔
      (PyDict.get? v k).isSome = true ∨ ∃ d ∈ l, d.1 = k := by
  induction l with
  | nil => intro v; simp [runCounter]
  | cons d l ih =>
    intro v
    have := ih (fillCounter r d.1 (.fin d.2) v)
    rw [show runCounter r (d :: l) v = runCounter r l (fillCounter r d.1 (.fin d.2) v) from rfl, this]
    rw [fillCounter, PyDict.get?_set]
    by_cases hk : d.1 = k
    · simp [hk]
    · simp [hk]

/-- **C63, counters.** From an empty map, after any stream every label seen has an entry, no other has,
and the entry is the total weight of the label. -/
theorem fillCounter_stream (l : List (String × ℚ)) (k : String) :
    PyDict.get? (runCounter .fin l []) k =
      if ∃ d ∈ l, d.1 = k then some (.fin ((l.filter (fun d => d.1 = k)).map (·.2)).sum) else none := by
  have h1 := runCounter_get l k [] 0 rfl
  have h2 := runCounter_keys .fin l k []
  simp only [zero_add] at h1
  cases hg : PyDict.get? (runCounter .fin l []) k with
  | none =>
    rw [hg] at h2
    rw [if_neg]
    intro hc
    simpa using h2.2 (Or.inr hc)
  | some v =>
    rw [hg] at h1 h2
    rw [if_pos]
    · simpa using h1
    · simpa using h2.1 rfl

example : (runTopN (σ := Unit) 2 (fun a b => ret (decide (a < b))) [3, 5, 1, 5, 4] [] ()).1
    = .ok ([5, 5] : List Nat) := by decide
example : runCounter .fin [("a", 1), ("b", 2), ("a", 1/2)] [] = [("a", .fin (3/2)), ("b", .fin 2)] := by
  decide +kernel

end Verif.Stat
