import Verif.Scripts.External
/-! # Moving the data of cells and pools to files: theorems (C103) -/

namespace Verif.Scripts
open Avro Producer

theorem write_write (o : Out) (w : Option String) (a b : List Char) : (o.write w a).write w b = o.write w (a ++ b) := by
  cases w with
  | none => simp [Out.write]
  | some f =>
    simp only [Out.write, Out.mk.injEq, true_and]
    funext g
    by_cases h : g = f <;> simp [h]

/-! ## Fuel -/

mutual
/-- Fuel for a document. -/
def cost : Val → Nat
  | .arr xs => 1 + costL xs
  | .dict d => 1 + costD d
  | _ => 1
@[inherit_doc cost] def costL : List Val → Nat
  | [] => 1
  | v :: xs => 1 + cost v + costL xs
@[inherit_doc cost] def costD : List (String × Val) → Nat
  | [] => 1
  | (_, v) :: d => 2 + cost v + costD d
end

mutual
theorem cost_le (v : Val) : cost v ≤ 2 * (restOf v).length + 1 := by
  match v with
  | .arr xs => have := costL_le xs; simp [cost, restOf]; omega
  | .dict d => have := costD_le d; simp [cost, restOf]; omega
  | .null => simp [cost]
  | .bool _ => simp [cost]
  | .int _ => simp [cost]
  | .flt _ => simp [cost]
  | .str _ => simp [cost]
  | .bytes _ => simp [cost]
theorem costL_le (xs : List Val) : costL xs ≤ 2 * (eventsL xs).length + 1 := by
  match xs with
  | [] => simp [costL]
  | v :: xs => have := costL_le xs; have := cost_le v; simp [costL, eventsL]; omega
theorem costD_le (d : List (String × Val)) : costD d ≤ 2 * (eventsD d).length + 1 := by
  match d with
  | [] => simp [costD]
  | (k, v) :: d => have := costD_le d; have := cost_le v; simp [costD, eventsD]; omega
end

section
variable {T : Texts} {cells pools : List (String × String)}

theorem doArray_value (next : Bool) (n i : Nat) (v : Val) (es : List Event) (w : Option String) (st : List Step) (o : Out) :
    doArray T next cells pools (n + 1) i (firstOf v :: es) w st o =
      match doValue T next cells pools n (firstOf v) es w (st ++ [.idx i]) (if i ≠ 0 then o.write w [',', ' '] else o) with
      | .error e => .error e
      | .ok (es, o) => doArray T next cells pools n (i + 1) es w st o := by
  cases v <;> simp [firstOf, doArray] <;> rfl

theorem doValue_scalar (hT : Std T) (next : Bool) (n : Nat) (v : Val) (hv : (∀ xs, v ≠ .arr xs) ∧ ∀ d, v ≠ .dict d) (es : List Event)
    (w : Option String) (st : List Step) (o : Out) (hn : cost v ≤ n) :
    doValue T next cells pools n (firstOf v) (restOf v ++ es) w st o = .ok (es, o.write w (dumps T v)) := by
  obtain ⟨n, rfl⟩ : ∃ m, n = m + 1 := ⟨n - 1, by cases v <;> simp [cost] at hn <;> omega⟩
  cases v with
  | arr xs => exact absurd rfl (hv.1 xs)
  | dict d => exact absurd rfl (hv.2 d)
  | null => simp [firstOf, restOf, doValue, scalar, dumps, hT.null]
  | bool b => cases b <;> simp [firstOf, restOf, doValue, scalar, dumps, hT.t, hT.f]
  | str s => simp [firstOf, restOf, doValue, scalar, dumps, hT.str]
  | _ => simp [firstOf, restOf, doValue, scalar, dumps]

/-- Nothing below this place is moved. -/
def Free (cells pools : List (String × String)) (st : List Step) : Prop := ∀ s k, target cells pools (st ++ s) k = none

theorem Free.app {st : List Step} (h : Free cells pools st) (s : List Step) : Free cells pools (st ++ s) := fun s' k => by
  rw [List.append_assoc]; exact h _ _

mutual
theorem value_free (hT : Std T) (v : Val) (n : Nat) (es : List Event) (w : Option String) (st : List Step) (o : Out)
    (hs : Free cells pools st) (hn : cost v ≤ n) :
    doValue T true cells pools n (firstOf v) (restOf v ++ es) w st o = .ok (es, o.write w (dumps T v)) := by
  match v with
  | .arr xs =>
    simp only [cost] at hn
    obtain ⟨n, rfl⟩ : ∃ m, n = m + 1 := ⟨n - 1, by omega⟩
    simp only [firstOf, restOf, doValue, List.append_assoc, List.singleton_append]
    rw [array_free hT xs n 0 es w st _ (fun i => hs.app _) (by omega)]
    simp [write_write, dumps]
  | .dict d =>
    simp only [cost] at hn
    obtain ⟨n, rfl⟩ : ∃ m, n = m + 1 := ⟨n - 1, by omega⟩
    simp only [firstOf, restOf, doValue, List.append_assoc, List.singleton_append]
    rw [dict_free hT d n true es w st _ hs (by omega)]
    simp [write_write, dumps]
  | .null => exact doValue_scalar hT _ _ _ (by simp) _ _ _ _ hn
  | .bool _ => exact doValue_scalar hT _ _ _ (by simp) _ _ _ _ hn
  | .int _ => exact doValue_scalar hT _ _ _ (by simp) _ _ _ _ hn
  | .flt _ => exact doValue_scalar hT _ _ _ (by simp) _ _ _ _ hn
  | .str _ => exact doValue_scalar hT _ _ _ (by simp) _ _ _ _ hn
  | .bytes _ => exact doValue_scalar hT _ _ _ (by simp) _ _ _ _ hn
theorem array_free (hT : Std T) (xs : List Val) (n i : Nat) (es : List Event) (w : Option String) (st : List Step) (o : Out)
    (hs : ∀ i, Free cells pools (st ++ [.idx i])) (hn : costL xs ≤ n) :
    doArray T true cells pools n i (eventsL xs ++ .endArr :: es) w st o =
      .ok (es, o.write w ((if i = 0 ∨ xs = [] then [] else [',', ' ']) ++ dumpsL T xs ++ [']'])) := by
  match xs with
  | [] =>
    simp only [costL] at hn
    obtain ⟨n, rfl⟩ : ∃ m, n = m + 1 := ⟨n - 1, by omega⟩
    simp [eventsL, doArray, dumpsL]
  | v :: xs =>
    simp only [costL] at hn
    obtain ⟨n, rfl⟩ : ∃ m, n = m + 1 := ⟨n - 1, by omega⟩
    simp only [eventsL, List.cons_append, List.append_assoc]
    rw [doArray_value, value_free hT v n _ w _ _ (hs i) (by omega)]
    simp only
    rw [array_free hT xs n (i + 1) es w st _ hs (by omega)]
    by_cases hi : i = 0 <;> cases xs <;> simp [hi, write_write, dumpsL]
theorem dict_free (hT : Std T) (d : List (String × Val)) (n : Nat) (first : Bool) (es : List Event) (w : Option String) (st : List Step) (o : Out)
    (hs : Free cells pools st) (hn : costD d ≤ n) :
    doMap T true cells pools n first (eventsD d ++ .endMap :: es) w st o =
      .ok (es, o.write w ((if first = true ∨ d = [] then [] else [',', ' ']) ++ dumpsD T d ++ ['}'])) := by
  match d with
  | [] =>
    simp only [costD] at hn
    obtain ⟨n, rfl⟩ : ∃ m, n = m + 1 := ⟨n - 1, by omega⟩
    simp [eventsD, doMap, dumpsD]
  | (k, v) :: d =>
    simp only [costD] at hn
    obtain ⟨n, rfl⟩ : ∃ m, n = m + 1 + 1 := ⟨n - 2, by omega⟩
    have ht : target cells pools st k = none := by simpa using hs [] k
    simp only [eventsD, List.cons_append, List.append_assoc, doMap, doPair, ht, if_true]
    rw [value_free hT v n _ w _ _ (hs.app _) (by omega)]
    simp only
    rw [dict_free hT d (n + 1) false es w st _ hs (by omega)]
    cases first <;> cases d <;> simp [write_write, dumpsD]
end

/-! ## Texts with commas between -/

/-- Texts with commas before all, or all but the first. -/
def joined : Bool → List (List Char) → List Char
  | _, [] => []
  | first, t :: ts => (if first then [] else [',', ' ']) ++ t ++ joined false ts

/-- A key and its value. -/
def pairText (T : Texts) (kv : String × Val) : List Char := T.key kv.1 ++ [':', ' '] ++ dumps T kv.2

theorem dumpsD_joined (d : List (String × Val)) : dumpsD T d = joined true (d.map (pairText T)) := by
  have key : ∀ d, joined false (d.map (pairText T)) = (if d = [] then [] else [',', ' ']) ++ dumpsD T d := by
    intro d
    induction d with
    | nil => simp [joined, dumpsD]
    | cons kv d ih =>
      obtain ⟨k, v⟩ := kv
      simp only [List.map_cons, joined, ih, dumpsD, pairText]
      cases d <;> simp
  cases d with
  | nil => simp [joined, dumpsD]
  | cons kv d =>
    obtain ⟨k, v⟩ := kv
    simp only [List.map_cons, joined, key, dumpsD, pairText]
    cases d <;> simp

/-- The files. -/
abbrev Files := String → Option (List Char)

/-- The loop of an object in the output stream. -/
theorem map_loop (st : List Step) (txt : String × Val → List Char) (eff : String × Val → Files → Files) (d : List (String × Val))
    (hp : ∀ kv ∈ d, ∀ n es o, cost kv.2 + 1 ≤ n → doPair T true cells pools n kv.1 (firstOf kv.2 :: (restOf kv.2 ++ es)) none st o =
      .ok (es, ⟨o.main ++ txt kv, eff kv o.files⟩)) (n : Nat) (first : Bool) (es : List Event) (o : Out) (hn : costD d ≤ n) :
    doMap T true cells pools n first (eventsD d ++ .endMap :: es) none st o =
      .ok (es, ⟨o.main ++ joined first (d.map txt) ++ ['}'], d.foldl (fun h kv => eff kv h) o.files⟩) := by
  induction d generalizing n first o with
  | nil =>
    simp only [costD] at hn
    obtain ⟨n, rfl⟩ : ∃ m, n = m + 1 := ⟨n - 1, by omega⟩
    simp [eventsD, doMap, joined, Out.write]
  | cons kv d ih =>
    obtain ⟨k, v⟩ := kv
    simp only [costD] at hn
    obtain ⟨n, rfl⟩ : ∃ m, n = m + 1 := ⟨n - 1, by omega⟩
    simp only [eventsD, List.cons_append, List.append_assoc, doMap]
    rw [hp (k, v) (by simp) n _ _ (by simp only; omega)]
    simp only
    rw [ih (fun kv h => hp kv (by simp [h])) n false _ (by omega)]
    cases first <;> simp [joined, Out.write]

/-- A pair that is only copied. -/
theorem pair_free (hT : Std T) (k : String) (v : Val) (n : Nat) (es : List Event) (st : List Step) (o : Out)
    (hk : target cells pools st k = none) (hs : Free cells pools (st ++ [.key k])) (hn : cost v + 1 ≤ n) :
    doPair T true cells pools n k (firstOf v :: (restOf v ++ es)) none st o = .ok (es, ⟨o.main ++ pairText T (k, v), o.files⟩) := by
  obtain ⟨n, rfl⟩ : ∃ m, n = m + 1 := ⟨n - 1, by omega⟩
  simp only [doPair, hk, if_true]
  rw [value_free hT v n es none _ _ hs (by omega)]
  simp [Out.write, pairText]

/-! ## One cell or pool -/

/-- Setting a file. -/
def put (f : String) (s : List Char) (h : Files) : Files := fun g => if g = f then some s else h g

theorem free3 (a b c : Step) : Free cells pools [a, b, c] := by
  intro s k
  simp [target]

/-- What becomes of a list or a scalar where only objects are looked into. -/
theorem value_flat (hT : Std T) (v : Val) (hv : ∀ d, v ≠ .dict d) (n : Nat) (es : List Event) (st : List Step) (o : Out)
    (hs : ∀ i, Free cells pools (st ++ [.idx i])) (hn : cost v ≤ n) :
    doValue T true cells pools n (firstOf v) (restOf v ++ es) none st o = .ok (es, ⟨o.main ++ dumps T v, o.files⟩) := by
  by_cases ha : ∃ xs, v = .arr xs
  · obtain ⟨xs, rfl⟩ := ha
    simp only [cost] at hn
    obtain ⟨n, rfl⟩ : ∃ m, n = m + 1 := ⟨n - 1, by omega⟩
    simp only [firstOf, restOf, doValue, List.append_assoc, List.singleton_append]
    rw [array_free hT xs n 0 es none st _ hs (by omega)]
    simp [Out.write, dumps]
  · rw [doValue_scalar hT _ _ _ ⟨fun xs h => ha ⟨xs, h⟩, hv⟩ _ _ _ _ hn]
    rfl

/-- The effect on the files of one cell. -/
def effE (T : Texts) (f : String) : Val → Files → Files
  | .dict d, h => d.foldl (fun h kv => if kv.1 = "init" then put f (dumps T kv.2) h else h) h
  | _, h => h

theorem sourceText_eq (hT : Std T) : sourceText = [',', ' '] ++ pairText T ("source", .str "json") := by
  simp only [pairText, dumps, hT.source, hT.str, hT.json]
  decide +kernel

theorem joined_two (first : Bool) (a b : List Char) (ts : List (List Char)) :
    joined first ((a ++ ([',', ' '] ++ b)) :: ts) = joined first (a :: b :: ts) := by
  simp [joined]

theorem entry_moved (hT : Std T) (s m f : String) (hf : ∀ k, target cells pools [.key s, .key m] k = if k = "init" then some f else none)
    (v : Val) (n : Nat) (es : List Event) (o : Out) (hn : cost v ≤ n) :
    doValue T true cells pools n (firstOf v) (restOf v ++ es) none [.key s, .key m] o =
      .ok (es, ⟨o.main ++ dumps T (away f v), effE T f v o.files⟩) := by
  by_cases hd : ∃ d, v = .dict d
  · obtain ⟨d, rfl⟩ := hd
    simp only [cost] at hn
    obtain ⟨n, rfl⟩ : ∃ m, n = m + 1 := ⟨n - 1, by omega⟩
    simp only [firstOf, restOf, doValue, List.append_assoc, List.singleton_append]
    rw [map_loop [.key s, .key m] (fun kv => if kv.1 = "init" then pairText T ("init", .str f) ++ ([',', ' '] ++ pairText T ("source", .str "json"))
        else pairText T kv) (fun kv h => if kv.1 = "init" then put f (dumps T kv.2) h else h) d ?_ n true es _ (by omega)]
    · have key : ∀ (d : List (String × Val)) (first : Bool),
          joined first (d.map fun kv => if kv.1 = "init" then pairText T ("init", .str f) ++ ([',', ' '] ++ pairText T ("source", .str "json"))
            else pairText T kv) =
          joined first ((d.flatMap fun kv => if kv.1 = "init" then [("init", .str f), ("source", .str "json")] else [kv]).map (pairText T)) := by
        intro d
        induction d with
        | nil => intro first; rfl
        | cons kv d ih =>
          intro first
          have h := ih false
          by_cases hk : kv.1 = "init" <;> simp [joined, hk] at h ⊢ <;> exact h
      simp only [key, away, dumps, dumpsD_joined, effE, Out.write]
      simp
    · intro kv _ n es o hn
      obtain ⟨k, v⟩ := kv
      simp only at hn ⊢
      by_cases hk : k = "init"
      · subst hk
        obtain ⟨n, rfl⟩ : ∃ m, n = m + 1 := ⟨n - 1, by omega⟩
        simp only [doPair, hf, if_true, List.cons_append, List.nil_append]
        rw [value_free hT v n es (some f) _ _ (free3 _ _ _) (by omega)]
        simp only [Out.write, Out.opened, sourceText_eq hT, Except.ok.injEq, Prod.mk.injEq, true_and, Out.mk.injEq]
        refine ⟨by simp [pairText, dumps, hT.str], ?_⟩
        funext g
        by_cases hg : g = f <;> simp [hg, put]
      · rw [pair_free hT k v n es _ o (by rw [hf, if_neg hk]) (free3 _ _ _) hn]
        simp [hk]
  · rw [value_flat hT v (fun d h => hd ⟨d, h⟩) n es _ o (fun i => free3 _ _ _) hn]
    cases v <;> first | rfl | exact absurd ⟨_, rfl⟩ hd

/-! ## The sections -/

/-- The effect on the files of a section. -/
def effS (T : Texts) (t : List (String × String)) : Val → Files → Files
  | .dict d, h => d.foldl (fun h kv => match PyDict.get? t kv.1 with | some f => effE T f kv.2 h | none => h) h
  | _, h => h

theorem section_moved (hT : Std T) (s : String) (t : List (String × String))
    (ht : ∀ m k, target cells pools [.key s, .key m] k = if k = "init" then PyDict.get? t m else none)
    (v : Val) (n : Nat) (es : List Event) (o : Out) (hn : cost v ≤ n) :
    doValue T true cells pools n (firstOf v) (restOf v ++ es) none [.key s] o =
      .ok (es, ⟨o.main ++ dumps T (moved t v), effS T t v o.files⟩) := by
  have hidx : ∀ i, Free cells pools ([.key s] ++ [.idx i]) := by
    intro i x k
    cases x <;> simp [target]
  by_cases hd : ∃ d, v = .dict d
  · obtain ⟨d, rfl⟩ := hd
    simp only [cost] at hn
    obtain ⟨n, rfl⟩ : ∃ m, n = m + 1 := ⟨n - 1, by omega⟩
    simp only [firstOf, restOf, doValue, List.append_assoc, List.singleton_append]
    rw [map_loop [.key s] (fun kv => pairText T (kv.1, match PyDict.get? t kv.1 with | some f => away f kv.2 | none => kv.2))
        (fun kv h => match PyDict.get? t kv.1 with | some f => effE T f kv.2 h | none => h) d ?_ n true es _ (by omega)]
    · simp only [moved, dumps, dumpsD_joined, effS, Out.write, List.map_map]
      simp [Function.comp_def]
      rfl
    · intro kv _ n es o hn
      obtain ⟨k, v⟩ := kv
      simp only at hn ⊢
      have hk0 : target cells pools [.key s] k = none := rfl
      cases hm : PyDict.get? t k with
      | none =>
        rw [pair_free hT k v n es _ o hk0 ?_ hn]
        intro x k'
        cases x with
        | nil => simp [ht, hm]
        | cons a x => simp [target]
      | some f =>
        obtain ⟨n, rfl⟩ : ∃ m, n = m + 1 := ⟨n - 1, by omega⟩
        simp only [doPair, hk0, if_true, List.singleton_append]
        rw [entry_moved hT s k f (by intro k'; rw [ht, hm]) v n es _ (by omega)]
        simp [Out.write, pairText]
  · rw [value_flat hT v (fun d h => hd ⟨d, h⟩) n es _ o hidx hn]
    cases v <;> first | rfl | exact absurd ⟨_, rfl⟩ hd

/-- The effect on the files of a document. -/
def effT (T : Texts) (cells pools : List (String × String)) : Val → Files → Files
  | .dict d, h => d.foldl (fun h kv => if kv.1 = "cells" then effS T cells kv.2 h else if kv.1 = "pools" then effS T pools kv.2 h else h) h
  | _, h => h

theorem doc_moved (hT : Std T) (v : Val) (n : Nat) (es : List Event) (o : Out) (hn : cost v ≤ n) :
    doValue T true cells pools n (firstOf v) (restOf v ++ es) none [] o =
      .ok (es, ⟨o.main ++ dumps T (external cells pools v), effT T cells pools v o.files⟩) := by
  have hidx : ∀ i, Free cells pools ([] ++ [.idx i]) := by
    intro i x k
    rcases x with _ | ⟨a, _ | ⟨b, x⟩⟩ <;> simp [target]
  by_cases hd : ∃ d, v = .dict d
  · obtain ⟨d, rfl⟩ := hd
    simp only [cost] at hn
    obtain ⟨n, rfl⟩ : ∃ m, n = m + 1 := ⟨n - 1, by omega⟩
    simp only [firstOf, restOf, doValue, List.append_assoc, List.singleton_append]
    rw [map_loop [] (fun kv => pairText T (kv.1, if kv.1 = "cells" then moved cells kv.2 else if kv.1 = "pools" then moved pools kv.2 else kv.2))
        (fun kv h => if kv.1 = "cells" then effS T cells kv.2 h else if kv.1 = "pools" then effS T pools kv.2 h else h) d ?_ n true es _ (by omega)]
    · simp only [external, dumps, dumpsD_joined, effT, Out.write, List.map_map]
      simp [Function.comp_def]
    · intro kv _ n es o hn
      obtain ⟨k, v⟩ := kv
      simp only at hn ⊢
      have hk0 : target cells pools [] k = none := rfl
      obtain ⟨n, rfl⟩ : ∃ m, n = m + 1 := ⟨n - 1, by omega⟩
      by_cases h1 : k = "cells"
      · subst h1
        simp only [doPair, hk0, if_true, List.nil_append]
        rw [section_moved hT "cells" cells ?_ v n es _ (by omega)]
        · simp [Out.write, pairText]
        · intro m k
          cases hm : PyDict.get? cells m <;> by_cases hk : k = "init" <;> simp [target, hm, hk]
      · by_cases h2 : k = "pools"
        · subst h2
          simp only [doPair, hk0, if_true, List.nil_append]
          rw [section_moved hT "pools" pools ?_ v n es _ (by omega)]
          · simp [Out.write, pairText]
          · intro m k
            by_cases hk : k = "init" <;> simp [target, hk]
        · rw [pair_free hT k v (n + 1) es _ o hk0 ?_ hn]
          · simp [h1, h2]
          · intro x k'
            rcases x with _ | ⟨a, _ | ⟨b, x⟩⟩
            · simp [target]
            · cases a <;> simp [target, h1, h2]
            · simp [target]
  · rw [value_flat hT v (fun d h => hd ⟨d, h⟩) n es _ o hidx hn]
    cases v <;> first | rfl | exact absurd ⟨_, rfl⟩ hd

/-! ## The files -/

/-- What is kept is in the files, as its JSON text, and the other files are as before. -/
def Upd (T : Texts) (K : String → Val → Prop) (h h' : Files) : Prop :=
  ∀ f, (∃ i, K f i ∧ h' f = some (dumps T i)) ∨ ((∀ i, ¬ K f i) ∧ h' f = h f)

theorem Upd.congr {K K' : String → Val → Prop} {h h' : Files} (hu : Upd T K h h') (hk : ∀ f i, K f i ↔ K' f i) : Upd T K' h h' := by
  intro f
  rcases hu f with ⟨i, hi, he⟩ | ⟨hn, he⟩
  · exact .inl ⟨i, (hk f i).1 hi, he⟩
  · exact .inr ⟨fun i hi => hn i ((hk f i).2 hi), he⟩

theorem upd_none (h : Files) : Upd T (fun _ _ => False) h h := fun _ => .inr ⟨fun _ h => h, rfl⟩

theorem upd_fold {α : Type} (K : α → String → Val → Prop) (eff : α → Files → Files) (l : List α)
    (hu : ∀ a ∈ l, ∀ h, Upd T (K a) h (eff a h)) (h : Files) : Upd T (fun f i => ∃ a ∈ l, K a f i) h (l.foldl (fun h a => eff a h) h) := by
  induction l generalizing h with
  | nil => exact (upd_none h).congr (by simp)
  | cons a l ih =>
    intro f
    simp only [List.foldl_cons]
    rcases ih (fun b hb => hu b (by simp [hb])) (eff a h) f with ⟨i, ⟨b, hb, hk⟩, he⟩ | ⟨hn, he⟩
    · exact .inl ⟨i, ⟨b, by simp [hb], hk⟩, he⟩
    · rcases hu a (by simp) h f with ⟨i, hk, he'⟩ | ⟨hn', he'⟩
      · exact .inl ⟨i, ⟨a, by simp, hk⟩, he.trans he'⟩
      · refine .inr ⟨?_, he.trans he'⟩
        rintro i ⟨b, hb, hk⟩
        rcases List.mem_cons.1 hb with rfl | hb
        · exact hn' i hk
        · exact hn i ⟨b, hb, hk⟩

theorem upd_entry (f : String) (v : Val) (h : Files) :
    Upd T (fun g i => g = f ∧ ∃ e, v = .dict e ∧ ("init", i) ∈ e) h (effE T f v h) := by
  by_cases hd : ∃ d, v = .dict d
  · obtain ⟨d, rfl⟩ := hd
    have := upd_fold (T := T) (fun (kv : String × Val) g i => g = f ∧ kv.1 = "init" ∧ kv.2 = i)
      (fun kv h => if kv.1 = "init" then put f (dumps T kv.2) h else h) d (by
        intro kv _ h g
        by_cases hk : kv.1 = "init"
        · by_cases hg : g = f
          · exact .inl ⟨kv.2, ⟨hg, hk, rfl⟩, by simp [hk, put, hg]⟩
          · exact .inr ⟨fun i hi => hg hi.1, by simp [hk, put, hg]⟩
        · exact .inr ⟨fun i hi => hk hi.2.1, by simp [hk]⟩) h
    refine this.congr ?_
    intro g i
    constructor
    · rintro ⟨⟨k, v⟩, hm, hg, hk, hv⟩
      simp only at hk hv
      exact ⟨hg, d, rfl, by rw [← hk, ← hv]; exact hm⟩
    · rintro ⟨hg, e, he, hm⟩
      cases he
      exact ⟨_, hm, hg, rfl, rfl⟩
  · have : effE T f v h = h := by cases v <;> first | rfl | exact absurd ⟨_, rfl⟩ hd
    rw [this]
    exact (upd_none h).congr (fun g i => ⟨False.elim, fun ⟨_, e, he, _⟩ => hd ⟨e, he⟩⟩)

theorem upd_section (t : List (String × String)) (v : Val) (h : Files) :
    Upd T (fun f i => ∃ s m e, v = .dict s ∧ (m, Val.dict e) ∈ s ∧ PyDict.get? t m = some f ∧ ("init", i) ∈ e) h (effS T t v h) := by
  by_cases hd : ∃ d, v = .dict d
  · obtain ⟨d, rfl⟩ := hd
    have := upd_fold (T := T) (fun (kv : String × Val) f i => PyDict.get? t kv.1 = some f ∧ ∃ e, kv.2 = .dict e ∧ ("init", i) ∈ e)
      (fun kv h => match PyDict.get? t kv.1 with | some f => effE T f kv.2 h | none => h) d (by
        intro kv _ h
        cases hm : PyDict.get? t kv.1 with
        | none => exact (upd_none h).congr (by simp)
        | some f => exact (upd_entry f kv.2 h).congr (fun g i => by simp [eq_comm])) h
    refine this.congr ?_
    intro f i
    constructor
    · rintro ⟨⟨k, v⟩, hm, hf, e, he, hi⟩
      simp only at hf he
      subst he
      exact ⟨d, k, e, rfl, hm, hf, hi⟩
    · rintro ⟨s, m, e, hs, hm, hf, hi⟩
      cases hs
      exact ⟨_, hm, hf, e, rfl, hi⟩
  · have : effS T t v h = h := by cases v <;> first | rfl | exact absurd ⟨_, rfl⟩ hd
    rw [this]
    exact (upd_none h).congr (fun g i => ⟨False.elim, fun ⟨s, _, _, hs, _⟩ => hd ⟨s, hs⟩⟩)

theorem upd_doc (v : Val) (h : Files) : Upd T (Kept cells pools v) h (effT T cells pools v h) := by
  by_cases hd : ∃ d, v = .dict d
  · obtain ⟨d, rfl⟩ := hd
    have := upd_fold (T := T) (fun (kv : String × Val) f i => (kv.1 = "cells" ∧
        ∃ s m e, kv.2 = .dict s ∧ (m, Val.dict e) ∈ s ∧ PyDict.get? cells m = some f ∧ ("init", i) ∈ e) ∨ (kv.1 = "pools" ∧
        ∃ s m e, kv.2 = .dict s ∧ (m, Val.dict e) ∈ s ∧ PyDict.get? pools m = some f ∧ ("init", i) ∈ e))
      (fun kv h => if kv.1 = "cells" then effS T cells kv.2 h else if kv.1 = "pools" then effS T pools kv.2 h else h) d (by
        intro kv _ h
        by_cases h1 : kv.1 = "cells"
        · simp only [h1, if_true]
          exact (upd_section cells kv.2 h).congr (fun f i => by simp)
        · by_cases h2 : kv.1 = "pools"
          · simp only [h2]
            exact (upd_section pools kv.2 h).congr (fun f i => by simp)
          · simp only [h1, h2, if_false]
            exact (upd_none h).congr (fun f i => by simp)) h
    refine this.congr ?_
    intro f i
    constructor
    · rintro ⟨⟨k, v⟩, hm, ⟨hk, s, m, e, hs, he, hf, hi⟩ | ⟨hk, s, m, e, hs, he, hf, hi⟩⟩
      · simp only at hk hs
        subst hk hs
        exact .cell hm he hf hi
      · simp only at hk hs
        subst hk hs
        exact .pool hm he hf hi
    · intro hk
      cases hk with
      | cell hs he hf hi => exact ⟨_, hs, .inl ⟨rfl, _, _, _, rfl, he, hf, hi⟩⟩
      | pool hs he hf hi => exact ⟨_, hs, .inr ⟨rfl, _, _, _, rfl, he, hf, hi⟩⟩
  · have : effT T cells pools v h = h := by cases v <;> first | rfl | exact absurd ⟨_, rfl⟩ hd
    rw [this]
    refine (upd_none h).congr (fun f i => ⟨False.elim, fun hk => ?_⟩)
    cases hk with
    | cell => exact hd ⟨_, rfl⟩
    | pool => exact hd ⟨_, rfl⟩

/-- **C103.** With a parser that has `next`: the output is the JSON text of the document with the cells and pools moved, each file has the JSON
text of the data that was asked for in it, and other files are as before. -/
theorem external_partial (hT : Std T) (v : Val) (o : Out) :
    ∃ files, run T true cells pools (events v) o = .ok ⟨o.main ++ dumps T (external cells pools v) ++ ['\n'], files⟩ ∧
      ∀ f, (∃ i, Kept cells pools v f i ∧ files f = some (dumps T i)) ∨ ((∀ i, ¬ Kept cells pools v f i) ∧ files f = o.files f) := by
  refine ⟨effT T cells pools v o.files, ?_, upd_doc v o.files⟩
  have hc := cost_le v
  simp only [run, events, List.length_cons, runLoop]
  have := doc_moved (cells := cells) (pools := pools) hT v (2 * ((restOf v).length + 1) + 2) [] o (by omega)
  rw [List.append_nil] at this
  rw [this]
  simp [runLoop, Out.write]

/-- If only one thing is kept in a file, the file has its text. -/
theorem kept_file {v : Val} {o : Out} {files : Files}
    (h : ∀ f, (∃ i, Kept cells pools v f i ∧ files f = some (dumps T i)) ∨ ((∀ i, ¬ Kept cells pools v f i) ∧ files f = o.files f))
    {f : String} {i : Val} (hk : Kept cells pools v f i) (hu : ∀ j, Kept cells pools v f j → j = i) : files f = some (dumps T i) := by
  rcases h f with ⟨j, hj, he⟩ | ⟨hn, _⟩
  · rw [hu j hj] at he; exact he
  · exact absurd hk (hn i)

/-! ## Python 3 -/

mutual
/-- There is a key in the document. -/
def hasKey : Val → Bool
  | .arr xs => hasKeyL xs
  | .dict d => !d.isEmpty
  | _ => false
@[inherit_doc hasKey] def hasKeyL : List Val → Bool
  | [] => false
  | v :: xs => hasKey v || hasKeyL xs
end

mutual
theorem value_stuck (hT : Std T) (v : Val) (n : Nat) (es : List Event) (w : Option String) (st : List Step) (o : Out) (hn : cost v ≤ n) :
    doValue T false cells pools n (firstOf v) (restOf v ++ es) w st o =
      if hasKey v then .error (.py "AttributeError") else .ok (es, o.write w (dumps T v)) := by
  match v with
  | .arr xs =>
    simp only [cost] at hn
    obtain ⟨n, rfl⟩ : ∃ m, n = m + 1 := ⟨n - 1, by omega⟩
    simp only [firstOf, restOf, doValue, List.append_assoc, List.singleton_append]
    rw [array_stuck hT xs n 0 es w st _ (by omega)]
    simp [write_write, dumps, hasKey]
    rfl
  | .dict [] =>
    simp only [cost, costD] at hn
    obtain ⟨n, rfl⟩ : ∃ m, n = m + 1 + 1 := ⟨n - 2, by omega⟩
    simp [firstOf, restOf, doValue, eventsD, doMap, hasKey, write_write, dumps, dumpsD]
  | .dict ((k, v) :: d) =>
    simp only [cost, costD] at hn
    obtain ⟨n, rfl⟩ : ∃ m, n = m + 1 + 1 + 1 := ⟨n - 3, by omega⟩
    simp [firstOf, restOf, doValue, eventsD, doMap, doPair, hasKey]
  | .null => exact doValue_scalar hT _ _ _ (by simp) _ _ _ _ hn
  | .bool _ => exact doValue_scalar hT _ _ _ (by simp) _ _ _ _ hn
  | .int _ => exact doValue_scalar hT _ _ _ (by simp) _ _ _ _ hn
  | .flt _ => exact doValue_scalar hT _ _ _ (by simp) _ _ _ _ hn
  | .str _ => exact doValue_scalar hT _ _ _ (by simp) _ _ _ _ hn
  | .bytes _ => exact doValue_scalar hT _ _ _ (by simp) _ _ _ _ hn
theorem array_stuck (hT : Std T) (xs : List Val) (n i : Nat) (es : List Event) (w : Option String) (st : List Step) (o : Out)
    (hn : costL xs ≤ n) :
    doArray T false cells pools n i (eventsL xs ++ .endArr :: es) w st o =
      if hasKeyL xs then .error (.py "AttributeError")
      else .ok (es, o.write w ((if i = 0 ∨ xs = [] then [] else [',', ' ']) ++ dumpsL T xs ++ [']'])) := by
  match xs with
  | [] =>
    simp only [costL] at hn
    obtain ⟨n, rfl⟩ : ∃ m, n = m + 1 := ⟨n - 1, by omega⟩
    simp [eventsL, doArray, dumpsL, hasKeyL]
  | v :: xs =>
    simp only [costL] at hn
    obtain ⟨n, rfl⟩ : ∃ m, n = m + 1 := ⟨n - 1, by omega⟩
    simp only [eventsL, List.cons_append, List.append_assoc]
    rw [doArray_value, value_stuck hT v n _ w _ _ (by omega)]
    cases hv : hasKey v with
    | true => simp [hasKeyL, hv]
    | false =>
      simp only [Bool.false_eq_true, if_false]
      rw [array_stuck hT xs n (i + 1) es w st _ (by omega)]
      cases hx : hasKeyL xs
      · by_cases hi : i = 0 <;> cases xs <;> simp [hi, write_write, dumpsL, hasKeyL, hv] at hx ⊢ <;> simp [hx]
      · simp [hasKeyL, hv, hx]
end

/-- In Python 3, where the parser has no method `next`, every document with a key somewhere is an AttributeError. -/
theorem next_violation (hT : Std T) (v : Val) (o : Out) : run T false cells pools (events v) o =
    if hasKey v then .error (.py "AttributeError") else .ok ⟨o.main ++ dumps T v ++ ['\n'], o.files⟩ := by
  have hc := cost_le v
  simp only [run, events, List.length_cons, runLoop]
  have := value_stuck (cells := cells) (pools := pools) hT v (2 * ((restOf v).length + 1) + 2) [] none [] o (by omega)
  rw [List.append_nil] at this
  rw [this]
  cases hasKey v <;> simp [runLoop, Out.write]

end

/-! ## The arguments -/

/-- An argument without a file: the name of the file is made from that of the cell or pool. -/
theorem argument_default (c p : List (String × String)) (n : List Char) (h : '=' ∉ n) :
    argument c p ("--cell-".toList ++ n) = .ok (PyDict.set c (String.ofList n) (String.ofList (n ++ ".json".toList)), p) ∧
    argument c p ("--pool-".toList ++ n) = .ok (c, PyDict.set p (String.ofList n) (String.ofList (n ++ ".json".toList))) := by
  have h1 : "--cell-".toList = ['-', '-', 'c', 'e', 'l', 'l', '-'] := by decide +kernel
  have h2 : "--pool-".toList = ['-', '-', 'p', 'o', 'o', 'l', '-'] := by decide +kernel
  constructor <;> simp [argument, splitEq, h1, h2, h, List.isPrefixOf]

/-- Every other argument ends the script. -/
theorem argument_other (c p : List (String × String)) (arg : List Char) (h1 : ¬ "--cell-".toList <+: arg) (h2 : ¬ "--pool-".toList <+: arg) :
    argument c p arg = .error (.py "SystemExit") := by
  have key : ∀ a v, splitEq arg = some (a, v) → a <+: arg := by
    intro a v h
    rw [splitEq] at h
    split at h
    · cases h
      refine List.IsPrefix.trans ?_ (List.takeWhile_prefix (· ≠ '='))
      rw [← List.reverse_suffix, List.reverse_reverse]
      exact List.dropWhile_suffix _
    · cases h
  unfold argument
  generalize "--cell-".toList = l1 at *
  generalize "--pool-".toList = l2 at *
  cases hs : splitEq arg with
  | none =>
    simp only [List.isPrefixOf_iff_prefix]
    rw [if_neg h1, if_neg h2]
  | some q =>
    obtain ⟨a, v⟩ := q
    have := key a v hs
    simp only [List.isPrefixOf_iff_prefix]
    rw [if_neg fun h => h1 (h.trans this), if_neg fun h => h2 (h.trans this)]

/-- White space around the sign is not counted: the name ends and the file begins with something else. -/
theorem splitEq_blanks {n b b' f : List Char} (h : '=' ∉ n) (hn : ∀ x ∈ n.getLast?, x.isWhitespace = false) (hf : ∀ x ∈ f.head?, x.isWhitespace = false)
    (hb : ∀ x ∈ b, x.isWhitespace = true) (hb' : ∀ x ∈ b', x.isWhitespace = true) : splitEq (n ++ b ++ '=' :: (b' ++ f)) = some (n, f) := by
  have hm : ∀ x ∈ n ++ b, (decide (x ≠ '=')) = true := by
    intro x hx
    simp only [ne_eq, decide_eq_true_eq]
    rintro rfl
    rcases List.mem_append.1 hx with hx | hx
    · exact h hx
    · exact absurd (hb _ hx) (by decide)
  have e1 : ((n ++ b).reverse.dropWhile Char.isWhitespace).reverse = n := by
    rw [List.reverse_append, List.dropWhile_append_of_pos (fun x hx => hb x (List.mem_reverse.1 hx))]
    have : n.reverse.dropWhile Char.isWhitespace = n.reverse := by
      cases hr : n.reverse with
      | nil => rfl
      | cons x l =>
        have : n.getLast? = some x := by rw [← List.head?_reverse, hr]; rfl
        rw [List.dropWhile_cons_of_neg (by simp [hn x this])]
    rw [this, List.reverse_reverse]
  have e2 : (b' ++ f).dropWhile Char.isWhitespace = f := by
    rw [List.dropWhile_append_of_pos hb']
    cases f with
    | nil => rfl
    | cons x l => rw [List.dropWhile_cons_of_neg (by simp [hf x rfl])]
  rw [splitEq, if_pos (by simp), List.takeWhile_append_of_pos hm, List.dropWhile_append_of_pos hm]
  simp only [List.takeWhile_cons, List.dropWhile_cons, ne_eq, not_true_eq_false, decide_false, Bool.false_eq_true, if_false, List.append_nil, List.tail_cons, e1, e2]

/-- An argument with a file, without white space around the sign (for white space see `splitEq_blanks`). -/
theorem argument_file (c p : List (String × String)) (n f : List Char) (h : '=' ∉ n) (hn : ∀ x ∈ n.getLast?, x.isWhitespace = false)
    (hf : ∀ x ∈ f.head?, x.isWhitespace = false) :
    argument c p ("--cell-".toList ++ n ++ '=' :: f) = .ok (PyDict.set c (String.ofList n) (String.ofList f), p) ∧
    argument c p ("--pool-".toList ++ n ++ '=' :: f) = .ok (c, PyDict.set p (String.ofList n) (String.ofList f)) := by
  have h1 : "--cell-".toList = ['-', '-', 'c', 'e', 'l', 'l', '-'] := by decide +kernel
  have h2 : "--pool-".toList = ['-', '-', 'p', 'o', 'o', 'l', '-'] := by decide +kernel
  have hn' : ∀ a : List Char, a.getLast? = some '-' → ((a ++ n).reverse.dropWhile Char.isWhitespace).reverse = a ++ n := by
    intro a ha
    have hl : ∀ x ∈ (a ++ n).reverse.head?, x.isWhitespace = false := by
      intro x hx
      rw [List.head?_reverse] at hx
      rw [List.getLast?_append] at hx
      cases hl : n.getLast? with
      | none =>
        rw [hl, ha] at hx
        simp at hx
        subst hx; decide
      | some y =>
        rw [hl] at hx
        simp at hx
        subst hx
        exact hn _ (by rw [hl]; rfl)
    have : (a ++ n).reverse.dropWhile Char.isWhitespace = (a ++ n).reverse := by
      cases hr : (a ++ n).reverse with
      | nil => rfl
      | cons x l =>
        rw [hr] at hl
        rw [List.dropWhile_cons_of_neg (by simp [hl x rfl])]
    rw [this, List.reverse_reverse]
  have hf' : f.dropWhile Char.isWhitespace = f := by
    cases f with
    | nil => rfl
    | cons x l => rw [List.dropWhile_cons_of_neg (by simp [hf x rfl])]
  have hsplit : ∀ a : List Char, '=' ∉ a → a.getLast? = some '-' → splitEq (a ++ n ++ '=' :: f) = some (a ++ n, f) := by
    intro a ha hl
    have hm : ∀ x ∈ a ++ n, (decide (x ≠ '=')) = true := by
      intro x hx
      simp only [ne_eq, decide_eq_true_eq]
      rintro rfl
      rcases List.mem_append.1 hx with hx | hx
      · exact ha hx
      · exact h hx
    rw [splitEq, if_pos (by simp), List.takeWhile_append_of_pos hm, List.dropWhile_append_of_pos hm]
    simp only [List.takeWhile_cons, List.dropWhile_cons, ne_eq, not_true_eq_false, decide_false, Bool.false_eq_true, if_false, List.append_nil,
      List.tail_cons, hn' a hl, hf']
  constructor
  · rw [argument, hsplit _ (by rw [h1]; decide) (by rw [h1]; rfl)]
    simp [h1, List.isPrefixOf]
  · rw [argument, hsplit _ (by rw [h2]; decide) (by rw [h2]; rfl)]
    simp [h1, h2, List.isPrefixOf]

example : arguments [] [] ["--cell-a = b.txt".toList] = .ok ([("a", "b.txt")], []) := rfl

/-! ## A concrete case -/

/-- Texts for the examples. -/
def plainTexts : Texts where
  leaf
    | .null => ['n', 'u', 'l', 'l']
    | .bool true => ['t', 'r', 'u', 'e']
    | .bool false => ['f', 'a', 'l', 's', 'e']
    | .str s => '"' :: s.toList ++ ['"']
    | .int i => (toString i).toList
    | _ => ['0']
  key s := '"' :: s.toList ++ ['"']

theorem plainTexts_std : Std plainTexts := ⟨rfl, rfl, rfl, fun _ => rfl, by decide +kernel, by decide +kernel⟩

/-- A document with a cell and a pool. -/
def someDoc : Val := .dict [("cells", .dict [("x", .dict [("type", .str "int"), ("init", .int 7)])]),
  ("pools", .dict [("x", .dict [("init", .dict [("a", .int 1)])])])]

theorem cell_kept : Kept [("x", "c.json")] [] someDoc "c.json" (.int 7) :=
  .cell (s := [("x", .dict [("type", .str "int"), ("init", .int 7)])]) (e := [("type", .str "int"), ("init", .int 7)]) (n := "x")
    (by simp) (by simp) (by decide +kernel) (by simp)

example : (run plainTexts true [("x", "c.json")] [] (events someDoc) ⟨[], fun _ => none⟩).toOption.map
    (fun o => (String.ofList o.main, (o.files "c.json").map String.ofList)) =
    some ("{\"cells\": {\"x\": {\"type\": \"int\", \"init\": \"c.json\", \"source\": \"json\"}}, \"pools\": {\"x\": {\"init\": {\"a\": 1}}}}\n", some "7") := by
  decide +kernel

example : hasKey someDoc = true := by decide +kernel

/-- A cell and a pool of the same name go to the same file: the data of the cell is lost. -/
theorem same_violation : arguments [] [] ["--cell-x".toList, "--pool-x".toList] = .ok ([("x", "x.json")], [("x", "x.json")]) ∧
    (run plainTexts true [("x", "x.json")] [("x", "x.json")] (events someDoc) ⟨[], fun _ => none⟩).toOption.map
      (fun o => (o.files "x.json").map String.ofList) = some (some "{\"a\": 1}") := by
  constructor
  · rfl
  · decide +kernel

end Verif.Scripts
