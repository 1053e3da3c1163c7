import Mathlib.Data.List.Basic
import Mathlib.Data.List.Nodup
import Mathlib.Data.List.Perm.Basic
import Mathlib.Tactic.Common
/-!
# Python run-time basics used by every area of the model

Exceptions are values.  Python dicts are association lists in insertion order.
-/

namespace Verif

/-- The exceptions a PFA engine can raise.
Models `titus/errors.py` (PFARuntimeException with its `code`, PFAUserException with
message and code, PFATimeoutException), `avro`'s AvroException as raised in
`titus/datatype.py`, and any other Python exception by class name. -/
inductive Err where
  | rt (code : Int)
  | user (msg : String) (code : Option Int)
  | timeout
  | avro
  | py (cls : String)
deriving DecidableEq, Repr

/-- Result of a Python call: a value or the exception raised. -/
abbrev Res (α : Type _) := Except Err α

deriving instance DecidableEq for Except

/-- A Python dict: association list in insertion order.  Keys are distinct in every
dict built with the operations below (`PyDict.set_nodup`, `PyDict.del_nodup`). -/
abbrev PyDict (κ : Type _) (ν : Type _) := List (κ × ν)

namespace PyDict
variable {κ : Type _} {ν : Type _} [DecidableEq κ]

/-- `d.get(k)`; `none` when absent. -/
def get? : PyDict κ ν → κ → Option ν
  | [], _ => none
  | (k', v) :: d, k => if k' = k then some v else get? d k

/-- `k in d`. -/
def has (d : PyDict κ ν) (k : κ) : Bool := (get? d k).isSome

/-- `d[k] = v`: replaces in place or appends at the end. -/
def set : PyDict κ ν → κ → ν → PyDict κ ν
  | [], k, v => [(k, v)]
  | (k', v') :: d, k, v => if k' = k then (k', v) :: d else (k', v') :: set d k v

/-- `del d[k]` (no effect when absent; callers guard or catch KeyError). -/
def del : PyDict κ ν → κ → PyDict κ ν
  | [], _ => []
  | (k', v') :: d, k => if k' = k then d else (k', v') :: del d k

/-- `list(d.keys())`. -/
def keys (d : PyDict κ ν) : List κ := d.map Prod.fst

/-- `d.update(e)` / the loop `for k, v in e.items(): d[k] = v`. -/
def update (d e : PyDict κ ν) : PyDict κ ν := e.foldl (fun d kv => set d kv.1 kv.2) d

/-- Well-formedness: no duplicate key. -/
def WF (d : PyDict κ ν) : Prop := (keys d).Nodup

instance (d : PyDict κ ν) : Decidable (WF d) := by unfold WF; infer_instance

@[simp] theorem get?_nil (k : κ) : get? ([] : PyDict κ ν) k = none := rfl

theorem get?_cons (k' : κ) (v : ν) (d : PyDict κ ν) (k : κ) :
    get? ((k', v) :: d) k = if k' = k then some v else get? d k := rfl

theorem get?_set (d : PyDict κ ν) (k k' : κ) (v : ν) :
    get? (set d k v) k' = if k = k' then some v else get? d k' := by
  induction d with
  | nil => simp [set, get?]
  | cons kv d ih =>
    obtain ⟨k0, v0⟩ := kv
    simp only [set]
    split
    · next h => subst h; simp only [get?]; split <;> rfl
    · next h =>
      simp only [get?, ih]
      by_cases h1 : k0 = k' <;> by_cases h2 : k = k' <;> simp_all

@[simp] theorem get?_set_self (d : PyDict κ ν) (k : κ) (v : ν) : get? (set d k v) k = some v := by
  simp [get?_set]

theorem get?_set_ne (d : PyDict κ ν) {k k' : κ} (v : ν) (h : k ≠ k') :
    get? (set d k v) k' = get? d k' := by simp [get?_set, h]

theorem mem_keys_of_get? {d : PyDict κ ν} {k : κ} {v : ν} (h : get? d k = some v) :
    k ∈ keys d := by
  induction d with
  | nil => simp at h
  | cons kv d ih =>
    obtain ⟨k0, v0⟩ := kv
    simp only [get?] at h
    split at h
    · next h' => simp [keys, h']
    · exact List.mem_cons_of_mem _ (ih h)

theorem mem_of_get? {d : PyDict κ ν} {k : κ} {v : ν} (h : get? d k = some v) :
    (k, v) ∈ d := by
  induction d with
  | nil => simp at h
  | cons kv d ih =>
    obtain ⟨k0, v0⟩ := kv
    simp only [get?] at h
    split at h
    · next h' => simp_all
    · exact List.mem_cons_of_mem _ (ih h)

theorem get?_isSome_iff (d : PyDict κ ν) (k : κ) : (get? d k).isSome ↔ k ∈ keys d := by
  induction d with
  | nil => simp [keys]
  | cons kv d ih =>
    obtain ⟨k0, v0⟩ := kv
    simp only [get?]
    split
    · next h => simp [keys, h]
    · next h =>
      rw [ih]
      simp [keys, Ne.symm h]

theorem get?_eq_none_iff (d : PyDict κ ν) (k : κ) : get? d k = none ↔ k ∉ keys d := by
  rw [← get?_isSome_iff]; cases get? d k <;> simp

theorem get?_of_mem {d : PyDict κ ν} (hd : WF d) {k : κ} {v : ν} (h : (k, v) ∈ d) :
    get? d k = some v := by
  induction d with
  | nil => simp at h
  | cons kv d ih =>
    obtain ⟨k0, v0⟩ := kv
    simp only [WF, keys, List.map_cons, List.nodup_cons] at hd
    rcases List.mem_cons.1 h with h | h
    · simp only [Prod.mk.injEq] at h; simp [get?, h.1, h.2]
    · have : k0 ≠ k := by
        rintro rfl
        exact hd.1 (List.mem_map.2 ⟨(k0, v), h, rfl⟩)
      simp [get?, this, ih hd.2 h]

theorem keys_set (d : PyDict κ ν) (k : κ) (v : ν) :
    keys (set d k v) = if k ∈ keys d then keys d else keys d ++ [k] := by
  induction d with
  | nil => simp [set, keys]
  | cons kv d ih =>
    obtain ⟨k0, v0⟩ := kv
    simp only [set]
    split
    · next h => simp [keys, h]
    · next h =>
      have : keys ((k0, v0) :: set d k v) = k0 :: keys (set d k v) := rfl
      rw [this, ih]
      have h2 : keys ((k0, v0) :: d) = k0 :: keys d := rfl
      rw [h2]
      by_cases hk : k ∈ keys d
      · simp [hk]
      · simp [hk, Ne.symm h]

theorem set_nodup {d : PyDict κ ν} (hd : WF d) (k : κ) (v : ν) : WF (set d k v) := by
  unfold WF at *
  rw [keys_set]
  split
  · exact hd
  · next h =>
    rw [List.nodup_append]
    refine ⟨hd, by simp, ?_⟩
    intro a ha b hb
    simp only [List.mem_singleton] at hb
    subst hb
    exact fun e => h (e ▸ ha)

theorem keys_del_subset (d : PyDict κ ν) (k : κ) : ∀ x ∈ keys (del d k), x ∈ keys d := by
  induction d with
  | nil => simp [del]
  | cons kv d ih =>
    obtain ⟨k0, v0⟩ := kv
    simp only [del]
    split
    · intro x hx; exact List.mem_cons_of_mem _ hx
    · intro x hx
      rcases List.mem_cons.1 hx with h | h
      · exact List.mem_cons.2 (Or.inl h)
      · exact List.mem_cons_of_mem _ (ih x h)

theorem del_nodup {d : PyDict κ ν} (hd : WF d) (k : κ) : WF (del d k) := by
  induction d with
  | nil => exact hd
  | cons kv d ih =>
    obtain ⟨k0, v0⟩ := kv
    simp only [WF, keys, List.map_cons, List.nodup_cons] at hd
    simp only [del]
    split
    · exact hd.2
    · simp only [WF, keys, List.map_cons, List.nodup_cons]
      exact ⟨fun h => hd.1 (keys_del_subset d k _ h), ih hd.2⟩

theorem get?_del {d : PyDict κ ν} (hd : WF d) (k k' : κ) :
    get? (del d k) k' = if k = k' then none else get? d k' := by
  induction d with
  | nil => simp [del]
  | cons kv d ih =>
    obtain ⟨k0, v0⟩ := kv
    have hd' := hd
    simp only [WF, keys, List.map_cons, List.nodup_cons] at hd
    simp only [del]
    split
    · next h =>
      subst h
      split
      · next h2 => subst h2; exact (get?_eq_none_iff _ _).2 hd.1
      · next h2 => simp [get?, h2]
    · next h =>
      simp only [get?, ih hd.2]
      by_cases h1 : k0 = k' <;> by_cases h2 : k = k' <;> simp_all

/-- Two dicts hold the same associations (Python's `==` on dicts, order ignored). -/
def Equiv (d e : PyDict κ ν) : Prop := ∀ k, get? d k = get? e k

end PyDict
end Verif
