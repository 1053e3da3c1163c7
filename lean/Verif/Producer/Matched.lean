import Verif.Producer.Match
/-! # What a match contains (C82)

`original`, `modified` and `groups` of the match that `getmatch` gives back (`titus/producer/tools.py` 91-375). -/

namespace Verif.Producer
open Avro

/-! ## Specification -/

/-- `Like v w`: `v` is `w` except that some objects have their entries in another order and lack their position mark "@". -/
inductive Like : Val → Val → Prop where
  | refl (v : Val) : Like v v
  | arr {xs ys : List Val} (hl : xs.length = ys.length) (h : ∀ (i : Nat) x y, xs[i]? = some x → ys[i]? = some y → Like x y) : Like (.arr xs) (.arr ys)
  | dict {d e : List (String × Val)} (hat : "@" ∉ PyDict.keys d) (hk : ∀ k, k ≠ "@" → (k ∈ PyDict.keys d ↔ k ∈ PyDict.keys e))
      (h : ∀ k x y, PyDict.get? d k = some x → PyDict.get? e k = some y → Like x y) : Like (.dict d) (.dict e)

mutual
/-- The pattern has no substitution. -/
def Pat.still : Pat → Bool
  | .dict ps => stillD ps
  | .min ps => stillD ps
  | .arr ps => stillL ps
  | .start ps => stillL ps
  | .end_ ps => stillL ps
  | .or ps => stillL ps
  | .and ps => stillL ps
  | .group _ p => p.still
  | .regex _ sub => sub.isNone
  | _ => true
@[inherit_doc Pat.still] def stillD : List (String × Pat) → Bool
  | [] => true
  | (_, p) :: ps => p.still && stillD ps
@[inherit_doc Pat.still] def stillL : List Pat → Bool
  | [] => true
  | p :: ps => p.still && stillL ps
end

/-- `Named p v n q u`: comparing the pattern `p` with `v` involves comparing `Group(n=q)` with the part `u`. -/
inductive Named : Pat → Val → String → Pat → Val → Prop where
  | here {n : String} {q : Pat} {v : Val} : Named (.group n q) v n q v
  | group {n m : String} {p q : Pat} {v u : Val} (h : Named p v n q u) : Named (.group m p) v n q u
  | dict {ps : List (String × Pat)} {d : List (String × Val)} {k n : String} {p q : Pat} {v u : Val} (hk : k ≠ "@") (hp : (k, p) ∈ ps)
      (hv : PyDict.get? d k = some v) (h : Named p v n q u) : Named (.dict ps) (.dict d) n q u
  | min {ps : List (String × Pat)} {d : List (String × Val)} {k n : String} {p q : Pat} {v u : Val} (hk : k ≠ "@") (hp : (k, p) ∈ ps)
      (hv : PyDict.get? d k = some v) (h : Named p v n q u) : Named (.min ps) (.dict d) n q u
  | arr {ps : List Pat} {xs : List Val} {i : Nat} {n : String} {p q : Pat} {v u : Val} (hp : ps[i]? = some p) (hv : xs[i]? = some v)
      (h : Named p v n q u) : Named (.arr ps) (.arr xs) n q u
  | start {ps : List Pat} {xs : List Val} {i : Nat} {n : String} {p q : Pat} {v u : Val} (hp : ps[i]? = some p) (hv : xs[i]? = some v)
      (h : Named p v n q u) : Named (.start ps) (.arr xs) n q u
  | end_ {ps : List Pat} {xs : List Val} {i j : Nat} {n : String} {p q : Pat} {v u : Val} (hp : ps[i]? = some p) (hv : xs[j]? = some v)
      (hj : j + ps.length = xs.length + i) (h : Named p v n q u) : Named (.end_ ps) (.arr xs) n q u
  | or {ps : List Pat} {n : String} {p q : Pat} {v u : Val} (hp : p ∈ ps) (h : Named p v n q u) : Named (.or ps) v n q u
  | and {ps : List Pat} {n : String} {p q : Pat} {v u : Val} (hp : p ∈ ps) (h : Named p v n q u) : Named (.and ps) v n q u

/-- Every match of the pattern has a group of this name. -/
inductive Must : Pat → String → Prop where
  | here {n : String} {q : Pat} : Must (.group n q) n
  | group {n m : String} {p : Pat} (h : Must p n) : Must (.group m p) n
  | dict {ps : List (String × Pat)} {k n : String} {p : Pat} (hk : k ≠ "@") (hp : (k, p) ∈ ps) (h : Must p n) : Must (.dict ps) n
  | min {ps : List (String × Pat)} {k n : String} {p : Pat} (hk : k ≠ "@") (hp : (k, p) ∈ ps) (h : Must p n) : Must (.min ps) n
  | arr {ps : List Pat} {n : String} {p : Pat} (hp : p ∈ ps) (h : Must p n) : Must (.arr ps) n
  | start {ps : List Pat} {n : String} {p : Pat} (hp : p ∈ ps) (h : Must p n) : Must (.start ps) n
  | end_ {ps : List Pat} {n : String} {p : Pat} (hp : p ∈ ps) (h : Must p n) : Must (.end_ ps) n
  | or {ps : List Pat} {n : String} (h : ∀ p ∈ ps, Must p n) : Must (.or ps) n
  | and {ps : List Pat} {n : String} {p : Pat} (hp : ps.getLast? = some p) (h : Must p n) : Must (.and ps) n

/-- What a match is to contain. -/
structure Good (p : Pat) (v : Val) (m : Match) : Prop where
  original : Like m.original v
  modified : p.still = true → m.modified = m.original
  groups : ∀ n w, (n, w) ∈ m.groups → ∃ q u m', Named p v n q u ∧ getmatch q u = .ok (some m') ∧ w = m'.modified
  names : ∀ n, Must p n → n ∈ PyDict.keys m.groups

/-! ## Lemmas -/

theorem mem_set {α : Type} {d : PyDict String α} {k n : String} {v w : α} (h : (n, w) ∈ PyDict.set d k v) : (n, w) = (k, v) ∨ (n, w) ∈ d := by
  induction d with
  | nil => left; simpa [PyDict.set] using h
  | cons kv d ih =>
    obtain ⟨k', v'⟩ := kv
    rw [PyDict.set] at h
    by_cases hk : k' = k
    · rw [if_pos hk] at h
      rcases List.mem_cons.1 h with h | h
      · left; rw [h, hk]
      · right; exact List.mem_cons_of_mem _ h
    · rw [if_neg hk] at h
      rcases List.mem_cons.1 h with h | h
      · right; rw [h]; exact List.mem_cons_self
      · rcases ih h with h | h
        · exact .inl h
        · exact .inr (List.mem_cons_of_mem _ h)

theorem mem_update {α : Type} {d e : PyDict String α} {n : String} {w : α} (h : (n, w) ∈ PyDict.update d e) : (n, w) ∈ d ∨ (n, w) ∈ e := by
  induction e generalizing d with
  | nil => exact .inl h
  | cons kv e ih =>
    rcases ih (d := PyDict.set d kv.1 kv.2) h with h | h
    · rcases mem_set h with h | h
      · right; rw [h]; exact List.mem_cons_self
      · exact .inl h
    · exact .inr (List.mem_cons_of_mem _ h)

theorem mem_keys_set {α : Type} {d : PyDict String α} {k n : String} {v : α} : n ∈ PyDict.keys (PyDict.set d k v) ↔ n = k ∨ n ∈ PyDict.keys d := by
  rw [PyDict.keys_set]
  by_cases h : k ∈ PyDict.keys d
  · rw [if_pos h]; exact ⟨.inr, fun h' => h'.elim (fun e => e ▸ h) id⟩
  · rw [if_neg h, List.mem_append, List.mem_singleton, or_comm]

theorem mem_keys_update {α : Type} {d e : PyDict String α} {n : String} : n ∈ PyDict.keys (PyDict.update d e) ↔ n ∈ PyDict.keys d ∨ n ∈ PyDict.keys e := by
  induction e generalizing d with
  | nil => exact ⟨.inl, fun h => h.elim id (fun h => by cases h)⟩
  | cons kv e ih =>
    obtain ⟨k, v⟩ := kv
    refine (ih (d := PyDict.set d k v)).trans ?_
    rw [mem_keys_set, keys_cons, List.mem_cons]
    tauto

theorem get?_bareD {d : List (String × Val)} {k : String} : PyDict.get? (bareD d) k = if k = "@" then none else PyDict.get? d k := by
  induction d with
  | nil => simp [bareD]
  | cons kv d ih =>
    obtain ⟨k', v⟩ := kv
    by_cases hk : k' = "@"
    · have : bareD ((k', v) :: d) = bareD d := by simp [bareD, hk]
      rw [this, ih]
      by_cases h : k = "@"
      · rw [if_pos h, if_pos h]
      · rw [if_neg h, if_neg h, PyDict.get?, if_neg (fun e : k' = k => h (e ▸ hk))]
    · have : bareD ((k', v) :: d) = (k', v) :: bareD d := by simp [bareD, hk]
      rw [this, PyDict.get?, PyDict.get?, ih]
      by_cases h : k' = k
      · rw [if_pos h, if_pos h, if_neg (h ▸ hk)]
      · rw [if_neg h, if_neg h]

theorem foldl_groups {ms : List Match} {g : PyDict String Val} {n : String} {w : Val} (h : (n, w) ∈ ms.foldl (fun g m => PyDict.update g m.groups) g) :
    (n, w) ∈ g ∨ ∃ (i : Nat) (m : Match), ms[i]? = some m ∧ (n, w) ∈ m.groups := by
  induction ms generalizing g with
  | nil => exact .inl h
  | cons m ms ih =>
    rcases ih h with h | ⟨i, m', hi, h⟩
    · rcases mem_update h with h | h
      · exact .inl h
      · exact .inr ⟨0, m, rfl, h⟩
    · exact .inr ⟨i + 1, m', by simpa using hi, h⟩

theorem foldl_names {ms : List Match} {g : PyDict String Val} {n : String} (h : n ∈ PyDict.keys g ∨ ∃ m ∈ ms, n ∈ PyDict.keys m.groups) :
    n ∈ PyDict.keys (ms.foldl (fun g m => PyDict.update g m.groups) g) := by
  induction ms generalizing g with
  | nil => simpa using h
  | cons m ms ih =>
    refine ih ?_
    rw [mem_keys_update]
    rcases h with h | ⟨m', hm, h⟩
    · exact .inl (.inl h)
    · rcases List.mem_cons.1 hm with rfl | hm
      · exact .inl (.inr h)
      · exact .inr ⟨m', hm, h⟩

theorem same_good {b : Bool} {p : Pat} {v : Val} {m : Match} (h : same b v = .ok (some m)) (hp : ∀ n, ¬ Must p n) : Good p v m := by
  unfold same at h
  cases b with
  | false => cases h
  | true =>
    injection h with h
    injection h with h
    subst h
    exact ⟨.refl _, fun _ => rfl, fun n w h => (by cases h), fun n h => absurd h (hp n)⟩

theorem num_good {v : Val} {f : Flt → Bool} {p : Pat} {m : Match} (h : (match num? v with | none => (.ok none : Res (Option Match)) | some x => same (f x) v) = .ok (some m))
    (hp : ∀ n, ¬ Must p n) : Good p v m := by
  cases hv : num? v with
  | none => rw [hv] at h; cases h
  | some x => rw [hv] at h; exact same_good h hp

/-- What the dictionaries contain after the keys `ps` were gone through. -/
structure FillOk (ps : List (String × Pat)) (d : List (String × Val)) (f g : Fill) : Prop where
  keys : ∀ k, k ∈ PyDict.keys g.original ↔ k ∈ PyDict.keys f.original ∨ (k ≠ "@" ∧ k ∈ PyDict.keys ps)
  like : ∀ k x, PyDict.get? g.original k = some x → PyDict.get? f.original k = some x ∨ (k ≠ "@" ∧ ∃ y, PyDict.get? d k = some y ∧ Like x y)
  still : stillD ps = true → f.modified = f.original → g.modified = g.original
  groups : ∀ n w, (n, w) ∈ g.groups → (n, w) ∈ f.groups ∨
    ∃ k p v q u m', k ≠ "@" ∧ (k, p) ∈ ps ∧ PyDict.get? d k = some v ∧ Named p v n q u ∧ getmatch q u = .ok (some m') ∧ w = m'.modified
  names : ∀ n, (n ∈ PyDict.keys f.groups ∨ ∃ k p, k ≠ "@" ∧ (k, p) ∈ ps ∧ Must p n) → n ∈ PyDict.keys g.groups

/-- A list of matches. -/
structure ListOk (ps : List Pat) (xs : List Val) (ms : List Match) : Prop where
  length : ms.length = ps.length
  short : ps.length ≤ xs.length
  good : ∀ (i : Nat) p x m, ps[i]? = some p → xs[i]? = some x → ms[i]? = some m → Good p x m

theorem ListOk.groups {ps : List Pat} {xs : List Val} {ms : List Match} (h : ListOk ps xs ms) {n : String} {w : Val}
    (hm : (n, w) ∈ ms.foldl (fun g m => PyDict.update g m.groups) []) :
    ∃ (i : Nat) (p : Pat) (v : Val) (q : Pat) (u : Val) (m' : Match), ps[i]? = some p ∧ xs[i]? = some v ∧ Named p v n q u ∧ getmatch q u = .ok (some m') ∧ w = m'.modified := by
  rcases foldl_groups hm with hm | ⟨i, m, hi, hm⟩
  · cases hm
  · have hl : i < ps.length := h.length ▸ (List.getElem?_eq_some_iff.1 hi).1
    have hp : ps[i]? = some ps[i] := List.getElem?_eq_getElem hl
    have hx : xs[i]? = some (xs[i]'(by have := h.short; omega)) := List.getElem?_eq_getElem _
    obtain ⟨q, u, m', h1, h2, h3⟩ := (h.good i _ _ m hp hx hi).groups n w hm
    exact ⟨i, _, _, q, u, m', hp, hx, h1, h2, h3⟩

theorem ListOk.names {ps : List Pat} {xs : List Val} {ms : List Match} (h : ListOk ps xs ms) {n : String} {p : Pat} (hp : p ∈ ps) (hn : Must p n) :
    n ∈ PyDict.keys (ms.foldl (fun g m => PyDict.update g m.groups) []) := by
  obtain ⟨i, hi, he⟩ := List.getElem_of_mem hp
  have hm : ms[i]? = some (ms[i]'(by rw [h.length]; exact hi)) := List.getElem?_eq_getElem _
  have hx : xs[i]? = some (xs[i]'(by have := h.short; omega)) := List.getElem?_eq_getElem _
  exact foldl_names (.inr ⟨_, List.mem_of_getElem? hm, (h.good i p _ _ (by rw [List.getElem?_eq_getElem hi, he]) hx hm).names n hn⟩)

theorem stillL_mem {ps : List Pat} (h : stillL ps = true) : ∀ p ∈ ps, p.still = true := by
  induction ps with
  | nil => intro p hp; cases hp
  | cons q ps ih =>
    simp only [stillL, Bool.and_eq_true] at h
    intro p hp
    rcases List.mem_cons.1 hp with rfl | hp
    · exact h.1
    · exact ih h.2 p hp

theorem ListOk.still {ps : List Pat} {xs : List Val} {ms : List Match} (h : ListOk ps xs ms) (hs : stillL ps = true) :
    ms.map (·.modified) = ms.map (·.original) := by
  refine List.map_congr_left fun m hm => ?_
  obtain ⟨i, hi, he⟩ := List.getElem_of_mem hm
  have hl : i < ps.length := h.length ▸ hi
  have hx : xs[i]? = some (xs[i]'(by have := h.short; omega)) := List.getElem?_eq_getElem _
  exact (h.good i _ _ m (List.getElem?_eq_getElem hl) hx (by rw [List.getElem?_eq_getElem hi, he])).modified (stillL_mem hs _ (List.getElem_mem hl))

theorem ListOk.like {ps : List Pat} {xs : List Val} {ms : List Match} (h : ListOk ps xs ms) {i : Nat} {x y : Val}
    (h1 : (ms.map (·.original))[i]? = some x) (h2 : xs[i]? = some y) : Like x y := by
  rw [List.getElem?_map] at h1
  cases hm : ms[i]? with
  | none => rw [hm] at h1; cases h1
  | some m =>
    rw [hm] at h1
    injection h1 with h1
    subst h1
    have hl : i < ps.length := h.length ▸ (List.getElem?_eq_some_iff.1 hm).1
    exact (h.good i _ _ m (List.getElem?_eq_getElem hl) h2 hm).original

theorem listMatch_some {a b : List Val} {r : Res (Option (List Match))} {m : Match} (h : Res.app (listMatch a · b) r = .ok (some m)) :
    ∃ ms, r = .ok (some ms) ∧ m = ⟨.arr (a ++ ms.map (·.original) ++ b), .arr (a ++ ms.map (·.modified) ++ b),
      ms.foldl (fun g m => PyDict.update g m.groups) []⟩ := by
  cases r with
  | error e => cases h
  | ok o =>
    cases o with
    | none => cases h
    | some ms =>
      injection h with h
      injection h with h
      exact ⟨ms, rfl, h.symm⟩

mutual
theorem getmatch_good : ∀ (p : Pat) (v : Val) (m : Match), getmatch p v = .ok (some m) → Good p v m
  | .dict ps, v, m, hm => by
    cases v with
    | dict d =>
      rw [getmatch] at hm
      by_cases hc : ((names ps).all (· ∈ names d) && (names d).all (· ∈ names ps)) = true
      · rw [if_pos hc] at hm
        cases hf : matchD ps d ⟨[], [], []⟩ with
        | error e => rw [hf] at hm; cases hm
        | ok o =>
          cases o with
          | none => rw [hf] at hm; cases hm
          | some g =>
            rw [hf] at hm
            injection hm with hm
            injection hm with hm
            subst hm
            have H := matchD_ok ps d _ g hf
            simp only [Bool.and_eq_true, List.all_eq_true, decide_eq_true_eq, names_mem] at hc
            have hk : ∀ k, k ∈ PyDict.keys g.original ↔ (k ≠ "@" ∧ k ∈ PyDict.keys ps) := fun k => (H.keys k).trans ⟨fun h => h.elim (fun h => by cases h) id, .inr⟩
            refine ⟨.dict (fun h => ((hk "@").1 h).1 rfl) (fun k hne => (hk k).trans ⟨fun h => (hc.1 k ⟨h.2, hne⟩).1, fun h => ⟨hne, (hc.2 k ⟨h, hne⟩).1⟩⟩)
              (fun k x y h1 h2 => ?_), fun hs => ?_, fun n w hg => ?_, fun n hn => ?_⟩
            · rcases H.like k x h1 with h | ⟨_, y', hy, h⟩
              · cases h
              · rw [h2] at hy; injection hy with hy; exact hy ▸ h
            · exact congrArg Val.dict (H.still (by simpa only [Pat.still] using hs) rfl)
            · rcases H.groups n w hg with h | ⟨k, p, v, q, u, m', h1, h2, h3, h4, h5, h6⟩
              · cases h
              · exact ⟨q, u, m', .dict h1 h2 h3 h4, h5, h6⟩
            · cases hn with
              | dict hk hp h => exact H.names n (.inr ⟨_, _, hk, hp, h⟩)
      · rw [if_neg hc] at hm; cases hm
    | _ => cases hm
  | .min ps, v, m, hm => by
    cases v with
    | dict d =>
      rw [getmatch] at hm
      by_cases hc : ((names ps).all (fun k => decide (k ∈ PyDict.keys d))) = true
      · rw [if_pos hc] at hm
        cases hf : matchD ps d ⟨bareD d, bareD d, []⟩ with
        | error e => rw [hf] at hm; cases hm
        | ok o =>
          cases o with
          | none => rw [hf] at hm; cases hm
          | some g =>
            rw [hf] at hm
            injection hm with hm
            injection hm with hm
            subst hm
            have H := matchD_ok ps d _ g hf
            simp only [List.all_eq_true, decide_eq_true_eq, names_mem] at hc
            have hb : ∀ k, k ∈ PyDict.keys (bareD d) ↔ (k ≠ "@" ∧ k ∈ PyDict.keys d) := fun k => by
              rw [← PyDict.get?_isSome_iff, ← PyDict.get?_isSome_iff, get?_bareD]
              by_cases hk : k = "@" <;> simp [hk]
            have hk : ∀ k, k ∈ PyDict.keys g.original ↔ (k ≠ "@" ∧ k ∈ PyDict.keys d) := fun k => (H.keys k).trans
              ⟨fun h => h.elim (hb k).1 (fun h => ⟨h.1, hc k ⟨h.2, h.1⟩⟩), fun h => .inl ((hb k).2 h)⟩
            refine ⟨.dict (fun h => ((hk "@").1 h).1 rfl) (fun k hne => (hk k).trans ⟨fun h => h.2, fun h => ⟨hne, h⟩⟩)
              (fun k x y h1 h2 => ?_), fun hs => ?_, fun n w hg => ?_, fun n hn => ?_⟩
            · rcases H.like k x h1 with h | ⟨_, y', hy, h⟩
              · simp only [get?_bareD] at h
                by_cases hat : k = "@"
                · rw [if_pos hat] at h; cases h
                · rw [if_neg hat, h2] at h; injection h with h; exact h ▸ .refl _
              · rw [h2] at hy; injection hy with hy; exact hy ▸ h
            · exact congrArg Val.dict (H.still (by simpa only [Pat.still] using hs) rfl)
            · rcases H.groups n w hg with h | ⟨k, p, v, q, u, m', h1, h2, h3, h4, h5, h6⟩
              · cases h
              · exact ⟨q, u, m', .min h1 h2 h3 h4, h5, h6⟩
            · cases hn with
              | min hk hp h => exact H.names n (.inr ⟨_, _, hk, hp, h⟩)
      · rw [if_neg hc] at hm; cases hm
    | _ => cases hm
  | .arr ps, v, m, hm => by
    cases v with
    | arr xs =>
      rw [getmatch] at hm
      by_cases hl : ps.length = xs.length
      · rw [if_neg (not_not.2 hl)] at hm
        obtain ⟨ms, h1, rfl⟩ := listMatch_some hm
        have H := matchL_ok ps xs ms h1
        refine ⟨.arr (by simp [H.length, hl]) (fun i x y h1 h2 => H.like (i := i) (by simpa using h1) h2), fun hs => ?_, fun n w hg => ?_, fun n hn => ?_⟩
        · simp only [H.still (by simpa only [Pat.still] using hs)]
        · obtain ⟨i, p, v, q, u, m', h1, h2, h3, h4⟩ := H.groups hg
          exact ⟨q, u, m', .arr h1 h2 h3, h4⟩
        · cases hn with
          | arr hp h => exact H.names hp h
      · rw [if_pos hl] at hm; cases hm
    | _ => cases hm
  | .start ps, v, m, hm => by
    cases v with
    | arr xs =>
      rw [getmatch] at hm
      by_cases hl : ps.length > xs.length
      · rw [if_pos hl] at hm; cases hm
      · rw [if_neg hl] at hm
        obtain ⟨ms, h1, rfl⟩ := listMatch_some hm
        have H := matchL_ok ps xs ms h1
        refine ⟨.arr (by simp [H.length]; omega) (fun i x y h1 h2 => ?_), fun hs => ?_, fun n w hg => ?_, fun n hn => ?_⟩
        · rw [List.nil_append] at h1
          by_cases hi : i < ps.length
          · rw [List.getElem?_append_left (by simpa [H.length] using hi)] at h1
            exact H.like h1 h2
          · rw [List.getElem?_append_right (by simp [H.length]; omega), List.length_map, H.length, List.getElem?_drop,
              Nat.add_sub_cancel' (by omega), h2] at h1
            injection h1 with h1; exact h1 ▸ .refl _
        · simp only [H.still (by simpa only [Pat.still] using hs)]
        · obtain ⟨i, p, v, q, u, m', h1, h2, h3, h4⟩ := H.groups hg
          exact ⟨q, u, m', .start h1 h2 h3, h4⟩
        · cases hn with
          | start hp h => exact H.names hp h
    | _ => cases hm
  | .end_ ps, v, m, hm => by
    cases v with
    | arr xs =>
      rw [getmatch] at hm
      by_cases hl : ps.length > xs.length
      · rw [if_pos hl] at hm; cases hm
      · rw [if_neg hl] at hm
        obtain ⟨ms, h1, rfl⟩ := listMatch_some hm
        have H := matchL_ok ps _ ms h1
        refine ⟨.arr (by simp [H.length]; omega) (fun i x y h1 h2 => ?_), fun hs => ?_, fun n w hg => ?_, fun n hn => ?_⟩
        · rw [List.append_nil] at h1
          have ht : (xs.take (xs.length - ps.length)).length = xs.length - ps.length := by simp
          by_cases hi : i < xs.length - ps.length
          · rw [List.getElem?_append_left (by omega), List.getElem?_take_of_lt hi, h2] at h1
            injection h1 with h1; exact h1 ▸ .refl _
          · rw [List.getElem?_append_right (by omega), ht] at h1
            refine H.like h1 ?_
            rw [List.getElem?_drop, Nat.add_sub_cancel' (by omega)]; exact h2
        · simp only [H.still (by simpa only [Pat.still] using hs)]
        · obtain ⟨i, p, v, q, u, m', h1, h2, h3, h4⟩ := H.groups hg
          rw [List.getElem?_drop] at h2
          exact ⟨q, u, m', .end_ h1 h2 (by omega) h3, h4⟩
        · cases hn with
          | end_ hp h => exact H.names hp h
    | _ => cases hm
  | .lit l, v, m, hm => by rw [getmatch] at hm; exact same_good hm fun n h => by cases h
  | .null, v, m, hm => by
    cases v with
    | null => exact same_good (b := true) hm fun n h => by cases h
    | _ => cases hm
  | .group n p, v, m, hm => by
    rw [getmatch] at hm
    by_cases hp : p.isMatcher = true
    · rw [if_pos hp] at hm
      cases hg : getmatch p v with
      | error e => rw [hg] at hm; cases hm
      | ok o =>
        cases o with
        | none => rw [hg] at hm; cases hm
        | some m0 =>
          rw [hg] at hm
          injection hm with hm
          injection hm with hm
          subst hm
          have H := getmatch_good p v m0 hg
          refine ⟨H.original, fun hs => H.modified (by simpa only [Pat.still] using hs), fun n' w hw => ?_, fun n' hn => ?_⟩
          · rcases mem_set hw with h | h
            · injection h with h1 h2
              subst h1
              exact ⟨p, v, m0, .here, hg, h2⟩
            · obtain ⟨q, u, m', h1, h2⟩ := H.groups n' w h
              exact ⟨q, u, m', .group h1, h2⟩
          · rw [mem_keys_set]
            cases hn with
            | here => exact .inl rfl
            | group h => exact .inr (H.names n' h)
    · rw [if_neg hp] at hm; cases hm
  | .or ps, v, m, hm => by
    rw [getmatch] at hm
    obtain ⟨p, hp, H⟩ := matchOr_ok ps v m hm
    refine ⟨H.original, fun hs => H.modified (stillL_mem (by simpa only [Pat.still] using hs) p hp), fun n w hw => ?_, fun n hn => ?_⟩
    · obtain ⟨q, u, m', h1, h2⟩ := H.groups n w hw
      exact ⟨q, u, m', .or hp h1, h2⟩
    · cases hn with
      | or h => exact H.names n (h p hp)
  | .and ps, v, m, hm => by
    rw [getmatch] at hm
    rcases matchAnd_ok ps v none m hm with h | ⟨p, hp, H⟩
    · cases h.2
    · have hmem : p ∈ ps := List.mem_of_getLast? hp
      refine ⟨H.original, fun hs => H.modified (stillL_mem (by simpa only [Pat.still] using hs) p hmem), fun n w hw => ?_, fun n hn => ?_⟩
      · obtain ⟨q, u, m', h1, h2⟩ := H.groups n w hw
        exact ⟨q, u, m', .and hmem h1, h2⟩
      · cases hn with
        | and hp' h => rw [hp] at hp'; injection hp' with hp'; exact H.names n (hp' ▸ h)
  | .approx c e, v, m, hm => by rw [getmatch] at hm; exact num_good (f := fun x => !flt e (fdist x c)) hm fun n h => by cases h
  | .lt y, v, m, hm => by rw [getmatch] at hm; exact num_good (f := fun x => !fle y x) hm fun n h => by cases h
  | .le y, v, m, hm => by rw [getmatch] at hm; exact num_good (f := fun x => !flt y x) hm fun n h => by cases h
  | .gt y, v, m, hm => by rw [getmatch] at hm; exact num_good (f := fun x => !fle x y) hm fun n h => by cases h
  | .ge y, v, m, hm => by rw [getmatch] at hm; exact num_good (f := fun x => !flt x y) hm fun n h => by cases h
  | .regex ok sub, v, m, hm => by
    cases v with
    | str s =>
      simp only [getmatch] at hm
      by_cases h : ok s = true
      · rw [if_pos h] at hm
        injection hm with hm
        injection hm with hm
        subst hm
        refine ⟨.refl _, fun hs => ?_, fun n w h => (by cases h), fun n h => (by cases h)⟩
        simp only [Pat.still, Option.isNone_iff_eq_none] at hs
        rw [hs]
      · rw [if_neg h] at hm; cases hm
    | _ => cases hm
  | .any types, v, m, hm => by rw [getmatch] at hm; exact same_good hm fun n h => by cases h
theorem matchD_ok : ∀ (ps : List (String × Pat)) (d : List (String × Val)) (f g : Fill), matchD ps d f = .ok (some g) → FillOk ps d f g
  | [], d, f, g, h => by
    rw [matchD] at h
    injection h with h
    injection h with h
    subst h
    exact ⟨fun k => ⟨.inl, fun h => h.elim id (fun h => by cases h.2)⟩, fun k x h => .inl h, fun _ h => h, fun n w h => .inl h,
      fun n h => h.elim id (fun ⟨k, p, _, hp, _⟩ => by cases hp)⟩
  | (k, p) :: ps, d, f, g, h => by
    rw [matchD] at h
    by_cases hat : k = "@"
    · rw [if_pos hat] at h
      have H := matchD_ok ps d f g h
      refine ⟨fun k' => (H.keys k').trans ?_, H.like, fun hs => H.still ?_, fun n w hw => ?_, fun n hn => H.names n ?_⟩
      · rw [keys_cons, List.mem_cons]
        constructor
        · rintro (h | h)
          · exact .inl h
          · exact .inr ⟨h.1, .inr h.2⟩
        · rintro (h | ⟨h1, h2 | h2⟩)
          · exact .inl h
          · exact absurd (h2.trans hat) h1
          · exact .inr ⟨h1, h2⟩
      · simp only [stillD, Bool.and_eq_true] at hs; exact hs.2
      · rcases H.groups n w hw with h | ⟨k', p', v, q, u, m', h1, h2, h3⟩
        · exact .inl h
        · exact .inr ⟨k', p', v, q, u, m', h1, List.mem_cons_of_mem _ h2, h3⟩
      · rcases hn with h | ⟨k', p', h1, h2, h3⟩
        · exact .inl h
        · rcases List.mem_cons.1 h2 with h2 | h2
          · injection h2 with h2 _; exact absurd (h2.trans hat) h1
          · exact .inr ⟨k', p', h1, h2, h3⟩
    · rw [if_neg hat] at h
      cases hg : PyDict.get? d k with
      | none => rw [hg] at h; cases h
      | some v =>
        rw [hg] at h
        simp only at h
        cases hm : getmatch p v with
        | error e => rw [hm] at h; cases h
        | ok o =>
          cases o with
          | none => rw [hm] at h; cases h
          | some m =>
            rw [hm] at h
            simp only at h
            have G := getmatch_good p v m hm
            have H := matchD_ok ps d _ g h
            refine ⟨fun k' => (H.keys k').trans ?_, fun k' x hx => ?_, fun hs hf => H.still ?_ ?_, fun n w hw => ?_, fun n hn => H.names n ?_⟩
            · simp only
              rw [keys_cons, List.mem_cons, mem_keys_set]
              constructor
              · rintro ((rfl | h) | h)
                · exact .inr ⟨hat, .inl rfl⟩
                · exact .inl h
                · exact .inr ⟨h.1, .inr h.2⟩
              · rintro (h | ⟨h1, rfl | h2⟩)
                · exact .inl (.inr h)
                · exact .inl (.inl rfl)
                · exact .inr ⟨h1, h2⟩
            · rcases H.like k' x hx with h' | h'
              · simp only [PyDict.get?_set] at h'
                by_cases hk : k = k'
                · rw [if_pos hk] at h'
                  injection h' with h'
                  subst hk
                  exact .inr ⟨hat, v, hg, h' ▸ G.original⟩
                · rw [if_neg hk] at h'; exact .inl h'
              · exact .inr h'
            · simp only [stillD, Bool.and_eq_true] at hs; exact hs.2
            · simp only [stillD, Bool.and_eq_true] at hs
              simp only [hf, G.modified hs.1]
            · rcases H.groups n w hw with h' | ⟨k', p', v', q, u, m', h1, h2, h3⟩
              · rcases mem_update h' with h' | h'
                · exact .inl h'
                · obtain ⟨q, u, m', h1, h2⟩ := G.groups n w h'
                  exact .inr ⟨k, p, v, q, u, m', hat, List.mem_cons_self, hg, h1, h2⟩
              · exact .inr ⟨k', p', v', q, u, m', h1, List.mem_cons_of_mem _ h2, h3⟩
            · simp only [mem_keys_update]
              rcases hn with h' | ⟨k', p', h1, h2, h3⟩
              · exact .inl (.inl h')
              · rcases List.mem_cons.1 h2 with h2 | h2
                · injection h2 with _ h2; exact .inl (.inr (G.names n (h2 ▸ h3)))
                · exact .inr ⟨k', p', h1, h2, h3⟩
theorem matchL_ok : ∀ (ps : List Pat) (xs : List Val) (ms : List Match), matchL ps xs = .ok (some ms) → ListOk ps xs ms
  | [], xs, ms, h => by
    rw [matchL] at h
    injection h with h
    injection h with h
    subst h
    exact ⟨rfl, by simp, fun i p x m h => by cases h⟩
  | p :: ps, [], ms, h => by rw [matchL] at h; cases h
  | p :: ps, x :: xs, ms, h => by
    rw [matchL] at h
    cases hm : getmatch p x with
    | error e => rw [hm] at h; cases h
    | ok o =>
      cases o with
      | none => rw [hm] at h; cases h
      | some m =>
        rw [hm] at h
        simp only at h
        cases hl : matchL ps xs with
        | error e => rw [hl] at h; cases h
        | ok o =>
          cases o with
          | none => rw [hl] at h; cases h
          | some ms' =>
            rw [hl] at h
            injection h with h
            injection h with h
            subst h
            have G := getmatch_good p x m hm
            have H := matchL_ok ps xs ms' hl
            refine ⟨by simp [H.length], by simpa using H.short, fun i p' x' m' h1 h2 h3 => ?_⟩
            cases i with
            | zero => simp at h1 h2 h3; subst h1; subst h2; subst h3; exact G
            | succ i => exact H.good i p' x' m' (by simpa using h1) (by simpa using h2) (by simpa using h3)
theorem matchOr_ok : ∀ (ps : List Pat) (v : Val) (m : Match), matchOr ps v = .ok (some m) → ∃ p ∈ ps, Good p v m
  | [], v, m, h => by rw [matchOr] at h; cases h
  | p :: ps, v, m, h => by
    rw [matchOr] at h
    cases hm : getmatch p v with
    | error e => rw [hm] at h; cases h
    | ok o =>
      cases o with
      | none =>
        rw [hm] at h
        obtain ⟨q, hq, H⟩ := matchOr_ok ps v m h
        exact ⟨q, List.mem_cons_of_mem _ hq, H⟩
      | some m' =>
        rw [hm] at h
        injection h with h
        injection h with h
        subst h
        exact ⟨p, List.mem_cons_self, getmatch_good p v m' hm⟩
theorem matchAnd_ok : ∀ (ps : List Pat) (v : Val) (last : Option Match) (m : Match), matchAnd ps v last = .ok (some m) →
    (ps = [] ∧ last = some m) ∨ ∃ p, ps.getLast? = some p ∧ Good p v m
  | [], v, last, m, h => by rw [matchAnd] at h; injection h with h; exact .inl ⟨rfl, h⟩
  | p :: ps, v, last, m, h => by
    rw [matchAnd] at h
    cases hm : getmatch p v with
    | error e => rw [hm] at h; cases h
    | ok o =>
      cases o with
      | none => rw [hm] at h; cases h
      | some m' =>
        rw [hm] at h
        rcases matchAnd_ok ps v (some m') m h with ⟨rfl, h'⟩ | ⟨q, hq, H⟩
        · cases Option.some.inj h'
          exact .inr ⟨p, rfl, getmatch_good p v _ hm⟩
        · refine .inr ⟨q, ?_, H⟩
          cases ps with
          | nil => cases hq
          | cons a as => rw [List.getLast?_cons_cons]; exact hq
end


/-- **C82.** `original` is the matched expression, up to the order of the entries of objects and without position marks. -/
theorem original_like {p : Pat} {v : Val} {m : Match} (h : getmatch p v = .ok (some m)) : Like m.original v := (getmatch_good p v m h).original

/-- **C82.** Without substitutions, `modified` is `original`. -/
theorem modified_still {p : Pat} {v : Val} {m : Match} (hp : p.still = true) (h : getmatch p v = .ok (some m)) : m.modified = m.original :=
  (getmatch_good p v m h).modified hp

/-- **C82.** Every group is the changed form of a part that was compared with a group of this name, and every group that must be there is. -/
theorem groups_named {p : Pat} {v : Val} {m : Match} (h : getmatch p v = .ok (some m)) :
    (∀ n w, (n, w) ∈ m.groups → ∃ q u m', Named p v n q u ∧ getmatch q u = .ok (some m') ∧ w = m'.modified) ∧ ∀ n, Must p n → n ∈ PyDict.keys m.groups :=
  ⟨(getmatch_good p v m h).groups, (getmatch_good p v m h).names⟩

/-! ## What is against the descriptions -/

/-- The class `Match` says that `original` is identical to the matched expression.  The mark "@" is missing from it. -/
theorem original_violation : ∃ m, getmatch (.dict [("x", .any [])]) (.dict [("@", .str "line 3"), ("x", .null)]) = .ok (some m) ∧
    m.original = .dict [("x", .null)] :=
  ⟨⟨.dict [("x", .null)], .dict [("x", .null)], []⟩, by
    have h : ((names [("x", Pat.any [])]).all (· ∈ names [("@", Val.str "line 3"), ("x", Val.null)]) &&
      (names [("@", Val.str "line 3"), ("x", Val.null)]).all (· ∈ names [("x", Pat.any [])])) = true := by decide +kernel
    rw [getmatch, if_pos h]
    simp [matchD, PyDict.get?, getmatch, same, PyDict.set, PyDict.update], rfl⟩

end Verif.Producer
