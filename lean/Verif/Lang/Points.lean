import Verif.Lang.Check
/-!
# Small facts about expressions

Facts that no larger theorem needs, but that fix what single definitions do.
-/

namespace Verif.Lang
open Avro

/-- A filter of Try lets through the codes that are equal, as Python numbers, to one of its entries, and the messages that are. -/
theorem filterItem_spec (l : List Val) :
    (∀ c : Int, .inr c ∈ l.filterMap filterItem ↔ ∃ v ∈ l, v = .int c ∨ (v = .bool true ∧ c = 1) ∨ (v = .bool false ∧ c = 0)) ∧
    ∀ m : String, .inl m ∈ l.filterMap filterItem ↔ .str m ∈ l := by
  refine ⟨fun c => ?_, fun m => ?_⟩
  · rw [List.mem_filterMap]
    refine exists_congr fun v => and_congr_right fun _ => ?_
    cases v with
    | bool b => cases b <;> simp [filterItem, eq_comm]
    | _ => simp [filterItem]
  · rw [List.mem_filterMap]
    constructor
    · rintro ⟨v, hv, h⟩
      cases v <;> simp [filterItem] at h
      subst h
      exact hv
    · exact fun h => ⟨_, h, rfl⟩

example : (.inr 1 : String ⊕ Int) ∈ [Val.str "a", .bool true].filterMap filterItem := by
  rw [(filterItem_spec _).1]
  exact ⟨.bool true, by simp, .inr (.inl ⟨rfl, rfl⟩)⟩

end Verif.Lang
