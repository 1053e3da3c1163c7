import Verif.CallGraph.Model
import Mathlib.Logic.Relation
/-! # C21: the call graph queries are exact -/

namespace Verif.CallGraph

open Relation

/-! ## Specification -/

/-- `a` calls `b` directly. -/
def Edge (g : Graph) (a b : Name) : Prop := ∃ cs, PyDict.get? g a = some cs ∧ b ∈ cs

/-- There is a chain of `n` calls starting at `f`. -/
inductive Chain (g : Graph) : Nat → Name → Prop where
  | nil (f : Name) : Chain g 0 f
  | cons {n : Nat} {f c : Name} (h : Edge g f c) (hc : Chain g n c) : Chain g (n + 1) f

/-- `f` can reach itself by one or more calls. -/
def Recursive (g : Graph) (f : Name) : Prop := TransGen (Edge g) f f

/-- `f` is or reaches a recursive function. -/
def ReachesRecursive (g : Graph) (f : Name) : Prop :=
  ∃ x, ReflTransGen (Edge g) f x ∧ Recursive g x

/-! ## calledBy -/

/-- A call from a function that is not excluded. -/
def EdgeE (g : Graph) (E : List Name) (a b : Name) : Prop := Edge g a b ∧ a ∉ E

theorem trans_mono {α : Type} {r r' : α → α → Prop} (hr : ∀ a b, r a b → r' a b) {a b : α}
    (h : TransGen r a b) : TransGen r' a b := by
  induction h with
  | single h => exact .single (hr _ _ h)
  | tail _ h ih => exact ih.tail (hr _ _ h)

theorem split_path {g : Graph} {E : List Name} {f b : Name} {a : Name}
    (h : TransGen (EdgeE g E) a b) :
    TransGen (EdgeE g (f :: E)) a b ∨
      (EdgeE g E f b ∨ ∃ c, EdgeE g E f c ∧ TransGen (EdgeE g (f :: E)) c b) := by
  induction h using TransGen.head_induction_on with
  | @single a ha =>
    by_cases haf : a = f
    · subst haf; exact .inr (.inl ha)
    · exact .inl (.single ⟨ha.1, by simp [haf, ha.2]⟩)
  | @head a c hac _ ih =>
    rcases ih with ih | ih
    · by_cases haf : a = f
      · subst haf; exact .inr (.inr ⟨c, hac, ih⟩)
      · exact .inl (.head ⟨hac.1, by simp [haf, hac.2]⟩ ih)
    · exact .inr ih

theorem calledBy_spec (g : Graph) (E : List Name) (f b : Name) :
    b ∈ calledBy g E f ↔ TransGen (EdgeE g E) f b := by
  induction hn : free g E using Nat.strongRecOn generalizing E f with
  | ind n ih =>
    rw [calledBy]
    by_cases hx : E.contains f = true
    · simp only [hx, dite_true, List.not_mem_nil, false_iff]
      intro h
      rcases TransGen.head'_iff.1 h with ⟨c, hc, -⟩
      exact hc.2 (by simpa using hx)
    · simp only [hx]
      have hxE : f ∉ E := by simpa using hx
      split
      · rename_i h; simp at h
      split
      · rename_i cs hg
        have hlt := free_lt hx hg
        simp only [List.mem_append, List.mem_flatMap]
        constructor
        · rintro (h | ⟨c, hc, h⟩)
          · exact .single ⟨⟨cs, hg, h⟩, hxE⟩
          · have := (ih _ (hn ▸ hlt) _ _ rfl).1 h
            exact .head ⟨⟨cs, hg, hc⟩, hxE⟩ (trans_mono (fun x y hxy => ⟨hxy.1, fun hm => hxy.2 (by simp [hm])⟩) this)
        · intro h
          have edge : ∀ c, EdgeE g E f c → c ∈ cs := by
            rintro c ⟨⟨cs', h1, h2⟩, -⟩
            rw [hg] at h1; cases h1; exact h2
          rcases split_path (f := f) h with h | h | ⟨c, hc, h⟩
          · rcases TransGen.head'_iff.1 h with ⟨c, hc, -⟩
            exact absurd (List.mem_cons_self) hc.2
          · exact .inl (edge b h)
          · exact .inr ⟨c, edge c hc, (ih _ (hn ▸ hlt) _ _ rfl).2 h⟩
      · rename_i hg
        simp only [List.not_mem_nil, false_iff]
        intro h
        rcases TransGen.head'_iff.1 h with ⟨c, ⟨⟨cs, h1, -⟩, -⟩, -⟩
        rw [hg] at h1; simp at h1

/-- C21: `calledBy(f)` is exactly the set of names reachable from `f` by one or more calls. -/
theorem calledBy_exact (g : Graph) (f b : Name) :
    b ∈ calledBy g [] f ↔ TransGen (Edge g) f b := by
  rw [calledBy_spec]
  constructor
  · exact fun h => trans_mono (fun _ _ hxy => hxy.1) h
  · exact fun h => trans_mono (fun _ _ hxy => ⟨hxy, by simp⟩) h

/-- C21: `isRecursive(f)` holds exactly when `f` can reach itself. -/
theorem isRecursive_exact (g : Graph) (f : Name) : isRecursive g f = true ↔ Recursive g f := by
  rw [isRecursive, List.contains_iff_mem, calledBy_exact]; rfl

/-! ## callDepth -/

theorem deeper_none_left (x : Option Nat) : deeper none x = none := by cases x <;> rfl

theorem foldl_deeper_none (cs : List Name) (d : Name → Option Nat) :
    cs.foldl (fun deepest c => deeper deepest (d c)) none = none := by
  induction cs with
  | nil => rfl
  | cons c cs ih => simp only [List.foldl_cons, deeper_none_left, ih]

/-- The loop of `callDepth`. -/
theorem foldl_deeper (cs : List Name) (d : Name → Option Nat) (s : Nat) :
    (cs.foldl (fun deepest c => deeper deepest (d c)) (some s) = none ∧ ∃ c ∈ cs, d c = none) ∨
    (∃ m, cs.foldl (fun deepest c => deeper deepest (d c)) (some s) = some m ∧ s ≤ m ∧
      (∀ c ∈ cs, ∃ k, d c = some k ∧ k ≤ m) ∧ (m = s ∨ ∃ c ∈ cs, d c = some m)) := by
  induction cs generalizing s with
  | nil => exact .inr ⟨s, rfl, Nat.le_refl _, by simp, .inl rfl⟩
  | cons c cs ih =>
    simp only [List.foldl_cons]
    cases hd : d c with
    | none =>
      left
      exact ⟨foldl_deeper_none cs d, c, by simp, hd⟩
    | some k =>
      have hde : deeper (some s) (some k) = some (max s k) := by
        simp only [deeper]
        split <;> (congr 1; omega)
      rw [hde]
      rcases ih (max s k) with ⟨h1, c', h2, h3⟩ | ⟨m, h1, h2, h3, h4⟩
      · exact .inl ⟨h1, c', by simp [h2], h3⟩
      · refine .inr ⟨m, h1, by omega, ?_, ?_⟩
        · intro c' hc'
          rcases List.mem_cons.1 hc' with rfl | hc'
          · exact ⟨k, hd, by omega⟩
          · exact h3 c' hc'
        · rcases h4 with h4 | ⟨c', h4, h5⟩
          · by_cases hs : s < k
            · exact .inr ⟨c, by simp, by rw [hd]; congr 1; omega⟩
            · exact .inl (by omega)
          · exact .inr ⟨c', by simp [h4], h5⟩

theorem callDepth_some {g : Graph} {E : List Name} {s : Nat} {f : Name} {d : Nat}
    (h : callDepth g E s f = some d) :
    s ≤ d ∧ Chain g (d - s) f ∧ ∀ n, Chain g n f → n ≤ d - s := by
  induction hn : free g E using Nat.strongRecOn generalizing E s f d with
  | ind n ih =>
    rw [callDepth] at h
    by_cases hx : E.contains f = true
    · rw [dif_pos hx] at h; simp at h
    · rw [dif_neg hx] at h
      split at h
      · rename_i cs hg
        have hlt := free_lt hx hg
        rcases foldl_deeper cs (fun c => callDepth g (f :: E) (s + 1) c) s with
          ⟨h1, -⟩ | ⟨m, h1, h2, h3, h4⟩
        · rw [h1] at h; simp at h
        · rw [h1] at h
          have hm : m = d := by simpa using h
          subst hm
          refine ⟨h2, ?_, ?_⟩
          · rcases h4 with rfl | ⟨c, hc, h4⟩
            · simpa using Chain.nil f
            · obtain ⟨i1, i2, -⟩ := ih _ (hn ▸ hlt) h4 rfl
              have : m - s = (m - (s + 1)) + 1 := by omega
              rw [this]
              exact .cons ⟨cs, hg, hc⟩ i2
          · intro k hk
            cases hk with
            | nil => omega
            | @cons k _ c he hc =>
              obtain ⟨cs', h5, h6⟩ := he
              rw [hg] at h5; cases h5
              obtain ⟨k', h7, h8⟩ := h3 c h6
              obtain ⟨i1, -, i3⟩ := ih _ (hn ▸ hlt) h7 rfl
              have := i3 _ hc
              omega
      · rename_i hg
        have hm : s = d := by simpa using h
        subst hm
        refine ⟨Nat.le_refl _, by simpa using Chain.nil f, ?_⟩
        intro k hk
        cases hk with
        | nil => omega
        | cons he hc =>
          obtain ⟨cs', h5, -⟩ := he
          rw [hg] at h5; simp at h5

theorem callDepth_none {g : Graph} {E : List Name} {s : Nat} {f : Name}
    (h : callDepth g E s f = none) :
    (∃ e ∈ E, ReflTransGen (Edge g) f e) ∨ ReachesRecursive g f := by
  induction hn : free g E using Nat.strongRecOn generalizing E s f with
  | ind n ih =>
    rw [callDepth] at h
    by_cases hx : E.contains f = true
    · exact .inl ⟨f, by simpa using hx, .refl⟩
    · rw [dif_neg hx] at h
      split at h
      · rename_i cs hg
        have hlt := free_lt hx hg
        rcases foldl_deeper cs (fun c => callDepth g (f :: E) (s + 1) c) s with
          ⟨-, c, hc, h2⟩ | ⟨m, h1, -⟩
        · have he : Edge g f c := ⟨cs, hg, hc⟩
          rcases ih _ (hn ▸ hlt) h2 rfl with ⟨e, he', h3⟩ | ⟨x, h3, h4⟩
          · rcases List.mem_cons.1 he' with rfl | he'
            · exact .inr ⟨e, .refl, TransGen.head' he h3⟩
            · exact .inl ⟨e, he', .head he h3⟩
          · exact .inr ⟨x, .head he h3, h4⟩
        · rw [h1] at h; simp at h
      · simp at h

theorem Chain.of_reach {g : Graph} {f x : Name} {n : Nat} (h : ReflTransGen (Edge g) f x)
    (hx : Chain g n x) : ∃ m, n ≤ m ∧ Chain g m f := by
  induction h using ReflTransGen.head_induction_on with
  | refl => exact ⟨n, Nat.le_refl _, hx⟩
  | head he _ ih => obtain ⟨m, h1, h2⟩ := ih; exact ⟨m + 1, by omega, .cons he h2⟩

theorem Chain.of_trans {g : Graph} {f x : Name} {n : Nat} (h : TransGen (Edge g) f x)
    (hx : Chain g n x) : ∃ m, n < m ∧ Chain g m f := by
  obtain ⟨c, hc, hr⟩ := TransGen.head'_iff.1 h
  obtain ⟨m, h1, h2⟩ := Chain.of_reach hr hx
  exact ⟨m + 1, by omega, .cons hc h2⟩

theorem unbounded_of_recursive {g : Graph} {f : Name} (h : ReachesRecursive g f) (n : Nat) :
    ∃ m, n ≤ m ∧ Chain g m f := by
  obtain ⟨x, hr, hx⟩ := h
  have : ∃ m, n ≤ m ∧ Chain g m x := by
    induction n with
    | zero => exact ⟨0, Nat.le_refl _, .nil x⟩
    | succ n ih =>
      obtain ⟨m, h1, h2⟩ := ih
      obtain ⟨m', h3, h4⟩ := Chain.of_trans hx h2
      exact ⟨m', by omega, h4⟩
  obtain ⟨m, h1, h2⟩ := this
  obtain ⟨m', h3, h4⟩ := Chain.of_reach hr h2
  exact ⟨m', by omega, h4⟩

/-- C21: `callDepth(f)` is infinite exactly when `f` is or reaches a recursive function. -/
theorem callDepth_inf_iff (g : Graph) (f : Name) :
    callDepth g [] 0 f = none ↔ ReachesRecursive g f := by
  constructor
  · intro h
    rcases callDepth_none h with ⟨e, he, -⟩ | h
    · simp at he
    · exact h
  · intro h
    cases hd : callDepth g [] 0 f with
    | none => rfl
    | some d =>
      obtain ⟨-, -, h3⟩ := callDepth_some hd
      obtain ⟨m, h4, h5⟩ := unbounded_of_recursive h (d + 1)
      have := h3 m h5
      omega

/-- C21: when it is finite it is the length of the longest call chain. -/
theorem callDepth_longest (g : Graph) (f : Name) (d : Nat) :
    callDepth g [] 0 f = some d ↔ Chain g d f ∧ ∀ n, Chain g n f → n ≤ d := by
  constructor
  · intro h
    obtain ⟨-, h2, h3⟩ := callDepth_some h
    exact ⟨by simpa using h2, by simpa using h3⟩
  · rintro ⟨h1, h2⟩
    cases hd : callDepth g [] 0 f with
    | none =>
      obtain ⟨m, h4, h5⟩ := unbounded_of_recursive ((callDepth_inf_iff g f).1 hd) (d + 1)
      have := h2 m h5
      omega
    | some k =>
      obtain ⟨-, h3, h4⟩ := callDepth_some hd
      have a := h4 d h1
      have b := h2 _ h3
      congr 1; omega

/-- C21: `hasRecursive(f)` holds exactly when `f` is or reaches a recursive function. -/
theorem hasRecursive_exact (g : Graph) (f : Name) :
    hasRecursive g f = true ↔ ReachesRecursive g f := by
  rw [hasRecursive, Option.isNone_iff_eq_none, callDepth_inf_iff]

/-- C21: `hasSideEffects(f)` holds exactly when `f` reaches one of the three updates. -/
theorem hasSideEffects_exact (g : Graph) (f : Name) :
    hasSideEffects g f = true ↔
      TransGen (Edge g) f "cell-to" ∨ TransGen (Edge g) f "pool-to" ∨
      TransGen (Edge g) f "pool-del" := by
  simp [hasSideEffects, calledBy_exact, or_assoc]

/-! ## Concrete cases -/

/-- A graph with a cycle below "(action)" and a finite part below "(end)". -/
def sample : Graph :=
  [("(action)", ["u.a", "+"]), ("u.a", ["u.b", "let"]), ("u.b", ["u.a", "cell-to"]),
   ("(end)", ["u.c"]), ("u.c", ["do", "+"])]

theorem sample_edge (a b : Name) : Edge sample a b ↔
    (a = "(action)" ∧ (b = "u.a" ∨ b = "+")) ∨ (a = "u.a" ∧ (b = "u.b" ∨ b = "let")) ∨
    (a = "u.b" ∧ (b = "u.a" ∨ b = "cell-to")) ∨ (a = "(end)" ∧ b = "u.c") ∨
    (a = "u.c" ∧ (b = "do" ∨ b = "+")) := by
  simp only [Edge, sample, PyDict.get?]
  repeat' split
  all_goals first | (rename_i h; subst h; simp; done) | skip
  all_goals simp_all [eq_comm]

example : "cell-to" ∈ calledBy sample [] "(action)" := by
  rw [calledBy_exact]
  exact ((TransGen.single ((sample_edge _ _).2 (by simp))).tail
    (b := "u.a") ((sample_edge _ "u.b").2 (by simp))).tail ((sample_edge _ _).2 (by simp))

example : isRecursive sample "u.a" = true ∧ isRecursive sample "(action)" = false ∧
    hasRecursive sample "(action)" = true ∧ callDepth sample [] 0 "(end)" = some 2 := by
  refine ⟨?_, ?_, ?_, ?_⟩ <;> decide +kernel

end Verif.CallGraph
