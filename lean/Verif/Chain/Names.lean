import Verif.Chain.Model
import Std.Data.String.ToNat
/-!
# Chaining of engines: names (C83)

The names that `ast` gives to types, functions, cells and pools of the engines.  Different things get different names.
-/

namespace Verif.Chain
open Avro Scope Path Sig Ast Lang

/-- Digits and then something else: the digits are the same, and so is the rest. -/
theorem digits_split {a b r s : List Char} (ha : ∀ c ∈ a, c.isDigit = true) (hb : ∀ c ∈ b, c.isDigit = true)
    (h : a ++ '_' :: r = b ++ '_' :: s) : a = b ∧ r = s := by
  induction a generalizing b with
  | nil => cases b with
    | nil => exact ⟨rfl, (List.cons.inj h).2⟩
    | cons c b =>
      have h1 := (List.cons.inj h).1
      have h2 := hb c (List.mem_cons_self ..)
      rw [← h1] at h2
      exact absurd h2 (by decide)
  | cons c a ih => cases b with
    | nil =>
      have h1 := (List.cons.inj h).1
      have h2 := ha c (List.mem_cons_self ..)
      rw [h1] at h2
      exact absurd h2 (by decide)
    | cons d b =>
      have h1 := List.cons.inj h
      obtain ⟨h3, h4⟩ := ih (fun c hc => ha c (List.mem_cons_of_mem _ hc)) (fun c hc => hb c (List.mem_cons_of_mem _ hc)) h1.2
      exact ⟨by rw [h1.1, h3], h4⟩

theorem nat_digits (n : Nat) : ∀ c ∈ (toString n).toList, c.isDigit = true := by
  intro c hc
  have : (toString n).toList = Nat.toDigits 10 n := by
    show (Nat.repr n).toList = _
    unfold Nat.repr
    exact String.toList_ofList
  rw [this] at hc
  exact Nat.isDigit_of_mem_toDigits (by decide) (by decide) hc

/-- The part that all names have. -/
theorem step_split {p : String} {i j : Nat} {r s : List Char} (h : p.toList ++ ((toString (i + 1)).toList ++ '_' :: r) = p.toList ++ ((toString (j + 1)).toList ++ '_' :: s)) :
    i = j ∧ r = s := by
  obtain ⟨h1, h2⟩ := digits_split (nat_digits _) (nat_digits _) (List.append_cancel_left h)
  have h3 : Nat.repr (i + 1) = Nat.repr (j + 1) := String.ext h1
  exact ⟨by have := Nat.repr_injective h3; omega, h2⟩

theorem cell_list (i : Nat) (e x : String) : (prefixCell i e x).toList = "step".toList ++ ((toString (i + 1)).toList ++ '_' :: (e.toList ++ '_' :: x.toList)) := by
  unfold prefixCell
  simp only [String.toList_append, List.append_assoc]
  rfl

theorem action_list (i : Nat) (e : String) : (prefixAction i e).toList = "step".toList ++ ((toString (i + 1)).toList ++ '_' :: (e.toList ++ "_action".toList)) := by
  unfold prefixAction
  simp only [String.toList_append, List.append_assoc]
  rfl

theorem fcn_list (i : Nat) (e x : String) : (prefixFcnDef i e x).toList = "step".toList ++ ((toString (i + 1)).toList ++ '_' :: (e.toList ++ ("_fcn_".toList ++ x.toList))) := by
  unfold prefixFcnDef
  simp only [String.toList_append, List.append_assoc]
  rfl

/-- C83: cells (and pools) of different engines, and different cells of one engine, have different names. -/
theorem prefixCell_inj {i j : Nat} {e e' x y : String} (h : prefixCell i e x = prefixCell j e' y) : i = j ∧ (e = e' → x = y) := by
  have h1 := congrArg String.toList h
  rw [cell_list, cell_list] at h1
  obtain ⟨h2, h3⟩ := step_split h1
  refine ⟨h2, ?_⟩
  rintro rfl
  exact String.ext (List.cons.inj (List.append_cancel_left h3)).2

/-- C83: types. -/
theorem prefixType_inj {i j : Nat} {e e' : String} {x y : Name} (h : prefixType i e x = prefixType j e' y) : i = j ∧ (e = e' → x = y) := by
  unfold prefixType at h
  rw [Name.mk.injEq] at h
  have h1 := congrArg String.toList h.2
  simp only [String.toList_append, List.append_assoc] at h1
  obtain ⟨h2, h3⟩ := step_split (p := "Step") h1
  refine ⟨h2, ?_⟩
  rintro rfl
  have h4 := (List.cons.inj (List.append_cancel_left h3)).2
  obtain ⟨a, b⟩ := x
  obtain ⟨c, d⟩ := y
  rw [Name.mk.injEq]
  exact ⟨h.1, String.ext h4⟩

/-- C83: user-defined functions. -/
theorem prefixFcnDef_inj {i j : Nat} {e e' x y : String} (h : prefixFcnDef i e x = prefixFcnDef j e' y) : i = j ∧ (e = e' → x = y) := by
  have h1 := congrArg String.toList h
  rw [fcn_list, fcn_list] at h1
  obtain ⟨h2, h3⟩ := step_split h1
  refine ⟨h2, ?_⟩
  rintro rfl
  exact String.ext (List.append_cancel_left (List.append_cancel_left h3))

/-- C83: the functions for the actions. -/
theorem prefixAction_inj {i j : Nat} {e e' : String} (h : prefixAction i e = prefixAction j e') : i = j := by
  have h1 := congrArg String.toList h
  rw [action_list, action_list] at h1
  exact (step_split h1).1

/-- C83: no user-defined function gets the name of an action, if each step has one engine. -/
theorem action_ne_fcn {i j : Nat} {e e' x : String} (he : i = j → e = e') : prefixAction i e ≠ prefixFcnDef j e' x := by
  intro h
  have h1 := congrArg String.toList h
  rw [action_list, fcn_list] at h1
  obtain ⟨h2, h3⟩ := step_split h1
  rw [he h2] at h3
  have h4 := List.append_cancel_left h3
  have h5 : "_action".toList.take 2 = ("_fcn_".toList ++ x.toList).take 2 := by rw [h4]
  have h6 : ("_fcn_".toList ++ x.toList).take 2 = ['_', 'f'] := rfl
  rw [h6] at h5
  exact absurd h5 (by decide)

theorem userName_some {x f : String} (h : userName x = some f) : x = "u." ++ f := by
  unfold userName at h
  split at h
  · next rest hx =>
    cases h
    refine String.ext ?_
    rw [hx]
    simp
  · cases h

theorem userName_u (f : String) : userName ("u." ++ f) = some f := by
  unfold userName
  rw [String.toList_append]
  show some (String.ofList f.toList) = some f
  rw [String.ofList_toList]

theorem prefixFcnRef_u (i : Nat) (e f : String) : prefixFcnRef i e ("u." ++ f) = "u." ++ prefixFcnDef i e f := by
  unfold prefixFcnRef
  rw [userName_u]

/-- C83: library functions keep their names. -/
theorem prefixFcnRef_lib {i : Nat} {e x : String} (h : userName x = none) : prefixFcnRef i e x = x := by
  unfold prefixFcnRef
  rw [h]

/-- C83: functions. -/
theorem prefixFcnRef_inj {i : Nat} {e x y : String} (h : prefixFcnRef i e x = prefixFcnRef i e y) : x = y := by
  unfold prefixFcnRef at h
  cases hx : userName x with
  | none => cases hy : userName y with
    | none => rw [hx, hy] at h; exact h
    | some g =>
      rw [hx, hy] at h
      simp only at h
      rw [h, userName_u] at hx
      cases hx
  | some f => cases hy : userName y with
    | none =>
      rw [hx, hy] at h
      simp only at h
      rw [← h, userName_u] at hy
      cases hy
    | some g =>
      rw [hx, hy] at h
      simp only at h
      have h1 : prefixFcnDef i e f = prefixFcnDef i e g := by
        have := congrArg String.toList h
        rw [String.toList_append, String.toList_append] at this
        exact String.ext (List.append_cancel_left this)
      rw [userName_some hx, userName_some hy, (prefixFcnDef_inj h1).2 rfl]

/-- C83: no cell of an engine has the name of one of the cells that `ast` adds. -/
theorem prefixCell_special (i : Nat) (e x : String) : prefixCell i e x ∉ ["name", "instance", "metadata", "actionsStarted", "actionsFinished", "version"] := by
  intro h
  have h1 : (prefixCell i e x).toList.take 4 = "step".toList := by rw [cell_list]; rfl
  simp only [List.mem_cons, List.not_mem_nil, or_false] at h
  rcases h with h | h | h | h | h | h <;> rw [h] at h1 <;> exact absurd h1 (by decide)

example : prefixCell 0 "Engine_1" "x" = "step1_Engine_1_x" := by decide +kernel
example : prefixCell 0 "a_b" "c" = prefixCell 0 "a" "b_c" := by decide +kernel
example : prefixFcnRef 2 "E" "u.f" = "u.step3_E_fcn_f" ∧ prefixFcnRef 2 "E" "m.abs" = "m.abs" := by decide +kernel

end Verif.Chain
