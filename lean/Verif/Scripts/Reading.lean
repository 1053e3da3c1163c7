import Verif.Scripts.Externalized
import Verif.Reader.Config
/-! # Reading cells and pools whose data was moved to files (C103) -/

namespace Verif.Scripts
open Avro Reader

/-- The entries of a cell in a file. -/
def awayD (f : String) (d : List (String × Val)) : List (String × Val) :=
  d.flatMap fun kv => if kv.1 = "init" then [("init", .str f), ("source", .str "json")] else [kv]

theorem away_dict (f : String) (d : List (String × Val)) : away f (.dict d) = .dict (awayD f d) := rfl

theorem entries_away (f : String) (d : List (String × Val)) : entries (awayD f d) = awayD f (entries d) := by
  induction d with
  | nil => rfl
  | cons kv d ih =>
    have h : entries (awayD f (kv :: d)) = entries (if kv.1 = "init" then [("init", .str f), ("source", .str "json")] else [kv]) ++ entries (awayD f d) := by
      simp [awayD, entries]
    rw [h, ih]
    by_cases hk : kv.1 = "init"
    · simp [entries, awayD, hk]
    · by_cases ha : kv.1 = "@" <;> simp [entries, awayD, hk, ha]

theorem get_away_init (f : String) (d : List (String × Val)) :
    PyDict.get? (awayD f d) "init" = (PyDict.get? d "init").map fun _ => .str f := by
  induction d with
  | nil => rfl
  | cons kv d ih =>
    obtain ⟨k, v⟩ := kv
    by_cases hk : k = "init"
    · simp [awayD, hk, PyDict.get?]
    · have : awayD f ((k, v) :: d) = (k, v) :: awayD f d := by simp [awayD, hk]
      rw [this, PyDict.get?, if_neg hk, PyDict.get?, if_neg hk, ih]

theorem get_away_source (f : String) (d : List (String × Val)) (h : PyDict.get? d "source" = none) :
    PyDict.get? (awayD f d) "source" = (PyDict.get? d "init").map fun _ => .str "json" := by
  induction d with
  | nil => rfl
  | cons kv d ih =>
    obtain ⟨k, v⟩ := kv
    rw [PyDict.get?] at h
    by_cases hs : k = "source"
    · simp [hs] at h
    rw [if_neg hs] at h
    by_cases hk : k = "init"
    · simp [awayD, hk, PyDict.get?]
    · have : awayD f ((k, v) :: d) = (k, v) :: awayD f d := by simp [awayD, hk]
      rw [this, PyDict.get?, if_neg hs, PyDict.get?, if_neg hk, ih h]

theorem get_away_other (f : String) (d : List (String × Val)) (k : String) (h1 : k ≠ "init") (h2 : k ≠ "source") :
    PyDict.get? (awayD f d) k = PyDict.get? d k := by
  induction d with
  | nil => rfl
  | cons kv d ih =>
    obtain ⟨k', v⟩ := kv
    by_cases hk : k' = "init"
    · have : awayD f ((k', v) :: d) = ("init", .str f) :: ("source", .str "json") :: awayD f d := by simp [awayD, hk]
      rw [this, PyDict.get?, if_neg (Ne.symm h1), PyDict.get?, if_neg (Ne.symm h2), ih, PyDict.get?, if_neg (by rw [hk]; exact Ne.symm h1)]
    · have : awayD f ((k', v) :: d) = (k', v) :: awayD f d := by simp [awayD, hk]
      rw [this, PyDict.get?, PyDict.get?, ih]

theorem all_away (f : String) (d : List (String × Val)) (h : d.all (fun kv => kv.1 ∈ ["type", "init", "shared", "rollback", "source"]) = true) :
    (awayD f d).all (fun kv => kv.1 ∈ ["type", "init", "shared", "rollback", "source"]) = true := by
  rw [List.all_eq_true] at h ⊢
  intro kv hkv
  simp only [awayD, List.mem_flatMap] at hkv
  obtain ⟨a, ha, hm⟩ := hkv
  by_cases hk : a.1 = "init"
  · rw [if_pos hk] at hm
    simp only [List.mem_cons, List.not_mem_nil, or_false] at hm
    rcases hm with rfl | rfl <;> simp
  · rw [if_neg hk] at hm
    simp only [List.mem_singleton] at hm
    subst hm
    exact h _ ha

/-- **C103.** A cell that does not say where its data is can be read when the data was moved, and is as before but for that. -/
theorem cell_read {d : List (String × Val)} {c : CellDef} (f : String) (hd : PyDict.get? d "source" = none) (h : readCell (.dict d) = .ok c) :
    readCell (away f (.dict d)) = .ok { c with init := .load "json" f, source := "json" } := by
  have he : PyDict.get? (entries d) "source" = none := by
    rw [PyDict.get?_eq_none_iff] at hd ⊢
    intro hm
    apply hd
    simp only [PyDict.keys, List.mem_map] at hm ⊢
    obtain ⟨a, ha, hk⟩ := hm
    exact ⟨a, (List.mem_filter.1 ha).1, hk⟩
  rw [away_dict]
  simp only [readCell] at h ⊢
  rw [entries_away]
  generalize entries d = e at h he
  split_ifs at h with ha
  rw [if_pos (all_away f e ha)]
  simp only [want] at h ⊢
  rw [get_away_other f e "shared" (by decide) (by decide), get_away_other f e "rollback" (by decide) (by decide),
    get_away_other f e "type" (by decide) (by decide), get_away_init, get_away_source f e he]
  rw [he] at h
  cases hi : PyDict.get? e "init" with
  | none =>
    simp only [hi] at h
    split at h
    · exact absurd h (by simp)
    · split at h
      · exact absurd h (by simp)
      · simp at h
  | some i =>
    simp only [hi, Option.map_some] at h ⊢
    split at h
    · exact absurd h (by simp)
    · split at h
      · exact absurd h (by simp)
      · simp only [Option.getD_none] at h
        simp only [readString, Res.app, Option.getD_some]
        split at h
        · rename_i t i' ht hi'
          simp only [readSource] at h ⊢
          simp only [mkCell] at h ⊢
          simp [strip] at h ⊢
          split_ifs at h ⊢
          cases h
          rw [ht]
          rfl
        · exact absurd h (by simp)

example : readCell (.dict [("type", .str "int"), ("init", .int 7)]) = .ok ⟨.str "int", .text (.int 7), false, false, "embedded"⟩ := by decide +kernel

/-- A pool whose data was moved is refused. -/
theorem pool_violation {d : List (String × Val)} {i : Val} (f : String) (h : ("init", i) ∈ d) :
    readPool (away f (.dict d)) = .error syn := by
  rw [away_dict]
  simp only [readPool]
  rw [entries_away, want, get_away_init]
  have : (PyDict.get? (entries d) "init").isSome = true := by
    rw [PyDict.get?_isSome_iff]
    exact List.mem_map.2 ⟨_, List.mem_filter.2 ⟨h, by simp⟩, rfl⟩
  obtain ⟨x, hx⟩ := Option.isSome_iff_exists.1 this
  simp [hx, readMap, Res.app]

/-- What `json.loads` makes of the entries of an object: the last of a key counts. -/
def loaded (d : List (String × Val)) : List (String × Val) := d.foldl (fun a kv => PyDict.set a kv.1 kv.2) []

/-- A cell that says after its data that this is embedded has the name of the file as its data. -/
theorem source_violation : readCell (.dict (loaded (awayD "c.json" [("type", .str "string"), ("init", .str "x"), ("source", .str "embedded")]))) =
    .ok ⟨.str "string", .text (.str "c.json"), false, false, "embedded"⟩ := by decide +kernel

end Verif.Scripts
