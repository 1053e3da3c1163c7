import Verif.Py.Basic
import Std.Data.String.ToNat
/-!
# Generated names (C55)

Models `uniqueEngineName`, `uniqueRecordName`, `uniqueEnumName`, `uniqueFixedName` (`titus/util.py` 43-65).
-/

namespace Verif.Names

/-- The four functions. -/
inductive Kind where | engine | record | enum | fixed
deriving DecidableEq

/-- The texts before the number. -/
def prefixOf : Kind → String
  | .engine => "Engine_"
  | .record => "Record_"
  | .enum => "Enum_"
  | .fixed => "Fixed_"

/-- `"Engine_{0}".format(n)` -/
def fmt (k : Kind) (n : Nat) : String := prefixOf k ++ Nat.repr n

/-- The module variables `unique...NameCounter`. -/
abbrev Counters := Kind → Nat

/-- One call (46-47, 52-53, 58-59, 64-65). -/
def call (c : Counters) (k : Kind) : String × Counters :=
  let c' : Counters := fun j => if j = k then c j + 1 else c j
  (fmt k (c' k), c')

/-- Calls one after the other. -/
def calls : Counters → List Kind → List String × Counters
  | c, [] => ([], c)
  | c, k :: ks =>
    let r := call c k
    let rs := calls r.2 ks
    (r.1 :: rs.1, rs.2)

theorem fmt_inj {k k' : Kind} {n n' : Nat} (h : fmt k n = fmt k' n') : k = k' ∧ n = n' := by
  have h1 := congrArg String.toList h
  simp only [fmt, String.toList_append] at h1
  have key : ∀ (a : Kind), (prefixOf a).toList = match a with
      | .engine => ['E', 'n', 'g', 'i', 'n', 'e', '_']
      | .record => ['R', 'e', 'c', 'o', 'r', 'd', '_']
      | .enum => ['E', 'n', 'u', 'm', '_']
      | .fixed => ['F', 'i', 'x', 'e', 'd', '_'] := by intro a; cases a <;> rfl
  rw [key, key] at h1
  have hk : k = k' := by cases k <;> cases k' <;> first | rfl | (simp at h1)
  subst hk
  exact ⟨rfl, Nat.repr_injective (String.ext (List.append_cancel_left h1))⟩

/-- The names given out are numbers above the counters. -/
theorem calls_above (ks : List Kind) (c : Counters) : ∀ s ∈ (calls c ks).1, ∃ k n, c k < n ∧ s = fmt k n := by
  induction ks generalizing c with
  | nil => intro s hs; cases hs
  | cons k ks ih =>
    intro s hs
    rcases List.mem_cons.1 hs with rfl | hs
    · exact ⟨k, _, by simp, rfl⟩
    · obtain ⟨j, n, h1, h2⟩ := ih _ s hs
      refine ⟨j, n, ?_, h2⟩
      simp only [call] at h1
      split at h1 <;> omega

/-- **C55.**  Whatever was called before, no name is given out twice. -/
theorem calls_nodup (ks : List Kind) (c : Counters) : (calls c ks).1.Nodup := by
  induction ks generalizing c with
  | nil => exact List.nodup_nil
  | cons k ks ih =>
    simp only [calls, List.nodup_cons]
    refine ⟨fun h => ?_, ih _⟩
    obtain ⟨j, n, h1, h2⟩ := calls_above ks _ _ h
    obtain ⟨rfl, h3⟩ := fmt_inj h2
    simp only [call, if_true] at h1 h3
    omega

example : (calls (fun _ => 0) [.record, .enum, .record, .engine]).1 = ["Record_1", "Enum_1", "Record_2", "Engine_1"] := by decide +kernel

/-! ## Threads

The increment reads and writes the variable, and the name is made from a third access; other threads may
run in between.  C55 is about calls one after the other; here is what it does not cover. -/

/-- Where a thread is: about to read, to write, to read again, done. -/
inductive Pc where
  | load
  | store (n : Nat)
  | read
  | done (name : String)
deriving DecidableEq

/-- One step of a thread that runs `uniqueEngineName()`. -/
def stepThread (c : Nat) : Pc → Nat × Pc
  | .load => (c, .store (c + 1))
  | .store n => (n, .read)
  | .read => (c, .done (fmt .engine c))
  | .done s => (c, .done s)

/-- The threads take steps in the order given. -/
def schedule : List Nat → Nat × (Nat → Pc) → Nat × (Nat → Pc)
  | [], s => s
  | i :: is, (c, p) =>
    let r := stepThread c (p i)
    schedule is (r.1, fun j => if j = i then r.2 else p j)

/-- Two threads can get the same name. -/
theorem threads_violation : ∃ is, (schedule is (0, fun _ => .load)).2 0 = .done "Engine_2" ∧ (schedule is (0, fun _ => .load)).2 1 = .done "Engine_2" :=
  ⟨[0, 0, 1, 1, 0, 1], by decide +kernel⟩

end Verif.Names
