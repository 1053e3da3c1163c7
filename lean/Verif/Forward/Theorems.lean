import Verif.Forward.Model
/-! # Type declarations in any order: theorems (C11) -/

namespace Verif.Forward

/-! ## Specification: what a declaration needs and defines -/

/-- What happens when a declaration is read from left to right. -/
inductive Ev where
  | bad
  | use (n : String)
  | defn (n : String) (x : String × Decl)

section
variable (wf : String → Decl → Bool)

mutual
/-- The names in a declaration, in order. -/
def events (ns : String) (d : Decl) : List Ev :=
  if okHere wf ns d then match d with
    | .prim _ => []
    | .ref n => [.use (full ns n)]
    | .coll _ x => events ns x
    | .union xs => eventsL ns xs
    | .named nm name _ fields => .defn (full (nm.getD ns) name) (ns, d) :: eventsL (nsOf (full (nm.getD ns) name)) fields
  else [.bad]
def eventsL (ns : String) : List Decl → List Ev
  | [] => []
  | d :: ds => events ns d ++ eventsL ns ds
end

end

/-- Does the declaration break rules that have nothing to do with names? -/
def malformed : List Ev → Prop
  | [] => False
  | .bad :: _ => True
  | _ :: es => malformed es

/-- The definitions in it. -/
def defs : List Ev → List (String × (String × Decl))
  | [] => []
  | .defn n x :: es => (n, x) :: defs es
  | _ :: es => defs es

/-- The names that it needs from elsewhere: used before they are defined in it. -/
def needs : List Ev → List String
  | [] => []
  | .use n :: es => n :: needs es
  | .defn n _ :: es => (needs es).filter (· ≠ n)
  | .bad :: es => needs es

/-- The names that it defines. -/
def defined (es : List Ev) : List String := (defs es).map Prod.fst

section
variable (ev : String → List Ev) (ss : List String) (K : String → Prop)

/-- Names known from the start, and those of declarations all of whose needs are known. -/
inductive Known : String → Prop
  | start {n} : K n → Known n
  | decl {s n} : s ∈ ss → ¬ malformed (ev s) → (defined (ev s)).Nodup → (∀ m ∈ needs (ev s), Known m) → n ∈ defined (ev s) → Known n

/-- A declaration that can be resolved. -/
def Good (s : String) : Prop := ¬ malformed (ev s) ∧ (defined (ev s)).Nodup ∧ ∀ m ∈ needs (ev s), Known ev ss K m

/-- No name is defined by two declarations, or known from the start and defined again. -/
def NoClash : Prop := (∀ s ∈ ss, ∀ n ∈ defined (ev s), ¬ K n) ∧ ∀ s ∈ ss, ∀ s' ∈ ss, s ≠ s' → ∀ n ∈ defined (ev s), n ∉ defined (ev s')

end

/-! ## Reading one declaration -/

/-- The same on the names alone. -/
def run : List Ev → Names → Option Names
  | [], T => some T
  | .bad :: _, _ => none
  | .use n :: es, T => if T.has n then run es T else none
  | .defn n x :: es, T => if T.has n then none else run es (T.set n x)

theorem run_append (es es' : List Ev) (T : Names) : run (es ++ es') T = match run es T with | some T => run es' T | none => none := by
  induction es generalizing T with
  | nil => rfl
  | cons e es ih =>
    cases e with
    | bad => rfl
    | use n => simp only [List.cons_append, run]; split <;> first | exact ih T | rfl
    | defn n x => simp only [List.cons_append, run]; split <;> first | exact ih _ | rfl

mutual
theorem parse_run (wf : String → Decl → Bool) : ∀ (d : Decl) (ns : String) (T : Names), parse wf ns d T = run (events wf ns d) T
  | .prim a, ns, T => by unfold parse events; split <;> rfl
  | .ref n, ns, T => by
    unfold parse events
    by_cases h : okHere wf ns (.ref n) = true
    · rw [if_pos h, if_pos h]; rfl
    · rw [if_neg h, if_neg h]; rfl
  | .coll k x, ns, T => by
    unfold parse events
    by_cases h : okHere wf ns (.coll k x) = true
    · rw [if_pos h, if_pos h]; exact parse_run wf x ns T
    · rw [if_neg h, if_neg h]; rfl
  | .union xs, ns, T => by
    unfold parse events
    by_cases h : okHere wf ns (.union xs) = true
    · rw [if_pos h, if_pos h]; exact parseL_run wf xs ns T
    · rw [if_neg h, if_neg h]; rfl
  | .named nm name a fields, ns, T => by
    unfold parse events
    by_cases h : okHere wf ns (.named nm name a fields) = true
    · rw [if_pos h, if_pos h]
      simp only [run]
      split
      · rfl
      · exact parseL_run wf fields _ _
    · rw [if_neg h, if_neg h]; rfl
theorem parseL_run (wf : String → Decl → Bool) : ∀ (ds : List Decl) (ns : String) (T : Names), parseL wf ns ds T = run (eventsL wf ns ds) T
  | [], ns, T => by rw [parseL, eventsL]; rfl
  | d :: ds, ns, T => by
    rw [parseL, eventsL, run_append, parse_run wf d ns T]
    cases run (events wf ns d) T with
    | none => rfl
    | some T => exact parseL_run wf ds ns T
end

theorem has_iff {T : Names} {n : String} : T.has n = true ↔ T.get? n ≠ none := by
  unfold PyDict.has; cases T.get? n <;> simp

/-- The names after definitions. -/
def addDefs (T : Names) (ds : List (String × (String × Decl))) : Names := ds.foldl (fun T d => T.set d.1 d.2) T

/-- **Reading a declaration** succeeds if it is well formed, defines no name twice or again, and all its needs are known. -/
theorem run_iff (es : List Ev) (T T' : Names) : run es T = some T' ↔
    ¬ malformed es ∧ (defined es).Nodup ∧ (∀ n ∈ defined es, T.get? n = none) ∧ (∀ n ∈ needs es, T.get? n ≠ none) ∧ T' = addDefs T (defs es) := by
  induction es generalizing T with
  | nil => simp [run, malformed, defined, defs, needs, addDefs, eq_comm]
  | cons e es ih =>
    cases e with
    | bad => simp [run, malformed]
    | use n =>
      simp only [run, malformed, defined, defs, needs, List.mem_cons, forall_eq_or_imp]
      by_cases h : T.has n = true
      · rw [if_pos h, ih]
        have := has_iff.1 h
        simp only [defined]
        tauto
      · rw [if_neg h]
        rw [has_iff] at h
        simp only [reduceCtorEq, false_iff]
        tauto
    | defn n x =>
      simp only [run, malformed, needs]
      have hd : defined (.defn n x :: es) = n :: defined es := rfl
      have hd' : defs (.defn n x :: es) = (n, x) :: defs es := rfl
      rw [hd, hd', List.nodup_cons]
      by_cases h : T.has n = true
      · rw [if_pos h]
        simp only [reduceCtorEq, false_iff]
        rintro ⟨-, -, h1, -⟩
        exact has_iff.1 h (h1 n (List.mem_cons_self ..))
      · rw [if_neg h, ih]
        have hn : T.get? n = none := by
          by_contra hc
          exact h (has_iff.2 hc)
        have e1 : (∀ m ∈ defined es, (T.set n x).get? m = none) ↔ n ∉ defined es ∧ ∀ m ∈ defined es, T.get? m = none := by
          constructor
          · intro h1
            refine ⟨fun hm => ?_, fun m hm => ?_⟩
            · have := h1 n hm; simp at this
            · have := h1 m hm
              rw [PyDict.get?_set] at this
              split at this
              · cases this
              · exact this
          · rintro ⟨h1, h2⟩ m hm
            rw [PyDict.get?_set, if_neg (by rintro rfl; exact h1 hm)]
            exact h2 m hm
        have e2 : (∀ m ∈ needs es, (T.set n x).get? m ≠ none) ↔ ∀ m ∈ (needs es).filter (fun m => decide (m ≠ n)), T.get? m ≠ none := by
          constructor
          · intro h1 m hm
            rw [List.mem_filter, decide_eq_true_eq] at hm
            have := h1 m hm.1
            rwa [PyDict.get?_set, if_neg (Ne.symm hm.2)] at this
          · intro h1 m hm
            rw [PyDict.get?_set]
            split
            · simp
            · next hne => exact h1 m (by rw [List.mem_filter, decide_eq_true_eq]; exact ⟨hm, Ne.symm hne⟩)
        rw [e1, e2]
        simp only [List.mem_cons, forall_eq_or_imp, hn, true_and, addDefs, List.foldl_cons]
        tauto

theorem get?_addDefs (ds : List (String × (String × Decl))) (T : Names) (hd : (ds.map Prod.fst).Nodup) (ht : ∀ n ∈ ds.map Prod.fst, T.get? n = none) (n x) :
    (addDefs T ds).get? n = some x ↔ T.get? n = some x ∨ (n, x) ∈ ds := by
  induction ds generalizing T with
  | nil => simp [addDefs]
  | cons d ds ih =>
    obtain ⟨k, y⟩ := d
    rw [List.map_cons, List.nodup_cons] at hd
    have h1 : ∀ m ∈ ds.map Prod.fst, (T.set k y).get? m = none := fun m hm => by
      rw [PyDict.get?_set, if_neg (by rintro rfl; exact hd.1 hm)]
      exact ht m (List.mem_cons_of_mem _ hm)
    have := ih (T.set k y) hd.2 h1
    simp only [addDefs, List.foldl_cons] at this ⊢
    rw [this, PyDict.get?_set]
    have hk := ht k (List.mem_cons_self ..)
    simp only [List.mem_cons, Prod.mk.injEq]
    by_cases hn : k = n
    · subst hn
      rw [if_pos rfl, hk]
      have : ∀ z, (k, z) ∈ ds → False := fun z hz => hd.1 (List.mem_map.2 ⟨_, hz, rfl⟩)
      constructor
      · rintro (h | h)
        · cases h; simp
        · exact (this _ h).elim
      · rintro (h | ⟨-, rfl⟩ | h)
        · cases h
        · simp
        · exact (this _ h).elim
    · rw [if_neg hn]
      have : ¬ n = k := fun h => hn h.symm
      tauto

/-! ## The loop -/

section
variable (wf : String → Decl → Bool) (load : String → Decl)

/-- What a declaration given by its text does with names. -/
abbrev evs (s : String) : List Ev := events wf "" (load s)

theorem full_empty (n : String) : full "" n = n := by simp [full]

theorem attempt_eq (σ : Prog) (s : String) : attempt wf load σ s =
    if s ∈ σ.done then σ else match run (evs wf load s) σ.names with
      | some T => ⟨σ.done ++ [s], T⟩
      | none => σ := by
  unfold attempt
  by_cases h : s ∈ σ.done
  · rw [if_pos h, if_pos h]
  · rw [if_neg h, if_neg h]
    unfold evs
    rw [← parse_run]
    split
    · next n hl =>
      rw [hl]
      by_cases hn : σ.names.has n = true
      · rw [if_pos hn]
        simp [parse, okHere, full_empty, hn]
      · rw [if_neg hn]
        rfl
    · rfl

variable (ss : List String) (T0 : Names)

/-- What holds during the loop. -/
structure Inv (σ : Prog) : Prop where
  sub : ∀ s ∈ σ.done, s ∈ ss
  good : ∀ s ∈ σ.done, Good (evs wf load) ss (fun n => T0.get? n ≠ none) s
  names : ∀ n x, σ.names.get? n = some x ↔ T0.get? n = some x ∨ ∃ s ∈ σ.done, (n, x) ∈ defs (evs wf load s)
  fresh : ∀ s ∈ σ.done, ∀ n ∈ defined (evs wf load s), T0.get? n = none
  apart : ∀ s ∈ σ.done, ∀ s' ∈ σ.done, s ≠ s' → ∀ n ∈ defined (evs wf load s), n ∉ defined (evs wf load s')

variable {wf load ss T0}

theorem mem_defined {es : List Ev} {n : String} : n ∈ defined es ↔ ∃ x, (n, x) ∈ defs es := by
  simp [defined]

theorem Inv.known {σ : Prog} (h : Inv wf load ss T0 σ) {n : String} (hn : σ.names.get? n ≠ none) :
    Known (evs wf load) ss (fun n => T0.get? n ≠ none) n := by
  obtain ⟨x, hx⟩ := Option.ne_none_iff_exists'.1 hn
  rcases (h.names n x).1 hx with hx | ⟨s, hs, hx⟩
  · exact .start (by rw [hx]; simp)
  · obtain ⟨h1, h2, h3⟩ := h.good s hs
    exact .decl (h.sub s hs) h1 h2 h3 (mem_defined.2 ⟨x, hx⟩)

theorem Inv.attempt {σ : Prog} (h : Inv wf load ss T0 σ) {s : String} (hs : s ∈ ss) : Inv wf load ss T0 (attempt wf load σ s) := by
  rw [attempt_eq]
  split
  · exact h
  · next hd =>
    split
    · next T hr =>
      obtain ⟨h1, h2, h3, h4, rfl⟩ := (run_iff _ _ _).1 hr
      have hfresh : ∀ n ∈ defined (evs wf load s), T0.get? n = none := fun n hn => by
        by_contra hc
        obtain ⟨x, hx⟩ := Option.ne_none_iff_exists'.1 hc
        have := h3 n hn
        rw [(h.names n x).2 (.inl hx)] at this
        cases this
      have hapart : ∀ t ∈ σ.done, ∀ n ∈ defined (evs wf load t), n ∉ defined (evs wf load s) := fun t ht n hn hn' => by
        obtain ⟨x, hx⟩ := mem_defined.1 hn
        have := h3 n hn'
        rw [(h.names n x).2 (.inr ⟨t, ht, hx⟩)] at this
        cases this
      refine ⟨?_, ?_, ?_, ?_, ?_⟩
      · intro t ht
        rcases List.mem_append.1 ht with ht | ht
        · exact h.sub t ht
        · rw [List.mem_singleton.1 ht]; exact hs
      · intro t ht
        rcases List.mem_append.1 ht with ht | ht
        · exact h.good t ht
        · rw [List.mem_singleton.1 ht]
          exact ⟨h1, h2, fun m hm => h.known (h4 m hm)⟩
      · intro n x
        dsimp only
        rw [get?_addDefs _ _ h2 h3, h.names]
        simp only [List.mem_append, List.mem_singleton]
        constructor
        · rintro ((h5 | ⟨t, ht, hx⟩) | hx)
          · exact .inl h5
          · exact .inr ⟨t, .inl ht, hx⟩
          · exact .inr ⟨s, .inr rfl, hx⟩
        · rintro (h5 | ⟨t, ht | rfl, hx⟩)
          · exact .inl (.inl h5)
          · exact .inl (.inr ⟨t, ht, hx⟩)
          · exact .inr hx
      · intro t ht
        rcases List.mem_append.1 ht with ht | ht
        · exact h.fresh t ht
        · rw [List.mem_singleton.1 ht]; exact hfresh
      · intro t ht t' ht' hne
        rcases List.mem_append.1 ht with ht | ht <;> rcases List.mem_append.1 ht' with ht' | ht'
        · exact h.apart t ht t' ht' hne
        · rw [List.mem_singleton.1 ht']; exact hapart t ht
        · rw [List.mem_singleton.1 ht]; exact fun n hn hn' => hapart t' ht' n hn' hn
        · exact absurd ((List.mem_singleton.1 ht).trans (List.mem_singleton.1 ht').symm) hne
    · exact h

theorem Inv.pass {σ : Prog} (h : Inv wf load ss T0 σ) (l : List String) (hl : ∀ s ∈ l, s ∈ ss) : Inv wf load ss T0 (pass wf load l σ) := by
  unfold Forward.pass
  induction l generalizing σ with
  | nil => exact h
  | cons s l ih =>
    rw [List.foldl_cons]
    exact ih (h.attempt (hl s (List.mem_cons_self ..))) (fun t ht => hl t (List.mem_cons_of_mem _ ht))

/-- A pass that leaves as many declarations unresolved as before has changed nothing. -/
theorem pass_stuck (σ : Prog) (l : List String) (hl : ∀ s ∈ l, s ∈ ss) :
    (unresolved ss (pass wf load l σ)).length ≤ (unresolved ss σ).length ∧
    ((unresolved ss (pass wf load l σ)).length = (unresolved ss σ).length →
      pass wf load l σ = σ ∧ ∀ s ∈ l, s ∉ σ.done → run (evs wf load s) σ.names = none) := by
  unfold pass
  induction l generalizing σ with
  | nil => exact ⟨Nat.le_refl _, fun _ => ⟨rfl, by simp⟩⟩
  | cons s l ih =>
    rw [List.foldl_cons]
    have ih := ih (attempt wf load σ s) (fun t ht => hl t (List.mem_cons_of_mem _ ht))
    rw [attempt_eq] at ih ⊢
    by_cases hd : s ∈ σ.done
    · rw [if_pos hd] at ih ⊢
      refine ⟨ih.1, fun he => ⟨(ih.2 he).1, fun t ht hn => ?_⟩⟩
      rcases List.mem_cons.1 ht with rfl | ht
      · exact absurd hd hn
      · exact (ih.2 he).2 t ht hn
    · rw [if_neg hd] at ih ⊢
      cases hr : run (evs wf load s) σ.names with
      | none =>
        rw [hr] at ih
        refine ⟨ih.1, fun he => ⟨(ih.2 he).1, fun t ht hn => ?_⟩⟩
        rcases List.mem_cons.1 ht with rfl | ht
        · exact hr
        · exact (ih.2 he).2 t ht hn
      | some T =>
        rw [hr] at ih
        dsimp only at ih ⊢
        have hlt : (unresolved ss ⟨σ.done ++ [s], T⟩).length < (unresolved ss σ).length := by
          have : unresolved ss ⟨σ.done ++ [s], T⟩ = (unresolved ss σ).filter (fun t => decide (t ≠ s)) := by
            unfold unresolved
            rw [List.filter_filter]
            refine List.filter_congr (fun t _ => ?_)
            simp only [List.mem_append, List.mem_singleton, not_or, ne_eq, ← Bool.decide_and]
            congr 1
            rw [and_comm]
          rw [this, List.length_filter_lt_length_iff_exists]
          exact ⟨s, by simp [unresolved, hl s (List.mem_cons_self ..), hd], by simp⟩
        exact ⟨Nat.le_trans ih.1 (Nat.le_of_lt hlt), fun he => by have := ih.1; omega⟩

/-- What the loop leads to. -/
structure Ended (o : Outcome) : Prop where
  going : o ≠ .going
  ok : ∀ T, o = .ok T → ∃ σ, Inv wf load ss T0 σ ∧ σ.names = T ∧ ∀ s ∈ ss, s ∈ σ.done
  failed : ∀ rep, o = .failed rep → ∃ σ, Inv wf load ss T0 σ ∧ rep = unresolved ss σ ∧ rep ≠ [] ∧ ∀ s ∈ ss, s ∉ σ.done → run (evs wf load s) σ.names = none

theorem loop_ended (n : Nat) (σ : Prog) (h : Inv wf load ss T0 σ) (hn : (unresolved ss σ).length + 1 ≤ n) :
    Ended (wf := wf) (load := load) (ss := ss) (T0 := T0) (loop wf load ss n (unresolved ss σ).length (unresolved ss σ).length σ) := by
  induction n generalizing σ with
  | zero => omega
  | succ n ih =>
    unfold loop
    by_cases h0 : ((unresolved ss σ).length : Int) = 0
    · rw [if_pos h0]
      refine ⟨by simp, fun T hT => ?_, fun rep hr => by cases hr⟩
      cases hT
      refine ⟨σ, h, rfl, fun s hs => ?_⟩
      by_contra hd
      have h1 : unresolved ss σ = [] := List.length_eq_zero_iff.1 (by omega)
      have : s ∈ unresolved ss σ := by simp [unresolved, hs, hd]
      rw [h1] at this
      cases this
    · rw [if_neg h0]
      dsimp only
      have hp := pass_stuck (wf := wf) (load := load) (ss := ss) σ ss (fun _ h => h)
      by_cases he : ((unresolved ss (pass wf load ss σ)).length : Int) = (unresolved ss σ).length
      · rw [if_pos he]
        have he' : (unresolved ss (pass wf load ss σ)).length = (unresolved ss σ).length := by omega
        obtain ⟨h1, h2⟩ := hp.2 he'
        refine ⟨by simp, fun T hT => (by cases hT), fun rep hr => ?_⟩
        cases hr
        refine ⟨σ, h, by rw [h1], ?_, h2⟩
        rw [h1]
        intro hc
        rw [hc] at h0
        exact h0 rfl
      · rw [if_neg he]
        have hlt : (unresolved ss (pass wf load ss σ)).length < (unresolved ss σ).length := by have := hp.1; omega
        exact ih _ (h.pass ss (fun _ h => h)) (by omega)

theorem inv_start : Inv wf load ss T0 ⟨[], T0⟩ :=
  ⟨by simp, by simp, by simp, by simp, by simp⟩

theorem resolve_ended : Ended (wf := wf) (load := load) (ss := ss) (T0 := T0) (resolve wf load ss T0) := by
  unfold resolve loop
  rw [if_neg (by decide)]
  dsimp only
  rw [if_neg (by omega)]
  refine loop_ended _ _ (inv_start.pass ss (fun _ h => h)) ?_
  have := List.length_filter_le (fun s => decide (s ∉ (pass wf load ss ⟨[], T0⟩).done)) ss
  unfold unresolved
  omega

/-! ## C11 -/

/-- Resolution always ends. -/
theorem resolve_terminates (wf : String → Decl → Bool) (load : String → Decl) (ss : List String) (T0 : Names) : resolve wf load ss T0 ≠ .going := resolve_ended.going

/-- Stuck: what can be resolved has been, unless a name is defined twice. -/
theorem stuck_known {σ : Prog} (h : Inv wf load ss T0 σ) (hs : ∀ s ∈ ss, s ∉ σ.done → run (evs wf load s) σ.names = none)
    (hc : NoClash (evs wf load) ss (fun n => T0.get? n ≠ none)) :
    (∀ n, Known (evs wf load) ss (fun n => T0.get? n ≠ none) n → σ.names.get? n ≠ none) ∧
    ∀ s ∈ ss, Good (evs wf load) ss (fun n => T0.get? n ≠ none) s → s ∈ σ.done := by
  have key : ∀ s ∈ ss, ¬ malformed (evs wf load s) → (defined (evs wf load s)).Nodup → (∀ m ∈ needs (evs wf load s), σ.names.get? m ≠ none) → s ∈ σ.done := by
    intro s h1 h2 h3 h4
    by_contra hd
    have h5 := hs s h1 hd
    have h6 : run (evs wf load s) σ.names = some (addDefs σ.names (defs (evs wf load s))) := by
      refine (run_iff _ _ _).2 ⟨h2, h3, fun n hn => ?_, h4, rfl⟩
      by_contra hc'
      obtain ⟨x, hx⟩ := Option.ne_none_iff_exists'.1 hc'
      rcases (h.names n x).1 hx with hx | ⟨t, ht, hx⟩
      · exact hc.1 s h1 n hn (by simp [hx])
      · exact hc.2 s h1 t (h.sub t ht) (by rintro rfl; exact hd ht) n hn (mem_defined.2 ⟨x, hx⟩)
    rw [h5] at h6
    cases h6
  have hk : ∀ n, Known (evs wf load) ss (fun n => T0.get? n ≠ none) n → σ.names.get? n ≠ none := by
    intro n hn
    induction hn with
    | start hn =>
      obtain ⟨x, hx⟩ := Option.ne_none_iff_exists'.1 hn
      rw [(h.names _ x).2 (.inl hx)]
      simp
    | decl h1 h2 h3 h4 h5 ih =>
      obtain ⟨x, hx⟩ := mem_defined.1 h5
      rw [(h.names _ x).2 (.inr ⟨_, key _ h1 h2 h3 ih, hx⟩)]
      simp
  exact ⟨hk, fun s h1 h2 => key s h1 h2.1 h2.2.1 (fun m hm => hk m (h2.2.2 m hm))⟩

/-- **Acceptance**: exactly when every declaration can be resolved and no name is defined twice. -/
theorem resolve_ok_iff (wf : String → Decl → Bool) (load : String → Decl) (ss : List String) (T0 : Names) : (∃ T, resolve wf load ss T0 = .ok T) ↔
    (∀ s ∈ ss, Good (evs wf load) ss (fun n => T0.get? n ≠ none) s) ∧ NoClash (evs wf load) ss (fun n => T0.get? n ≠ none) := by
  have he : Ended (wf := wf) (load := load) (ss := ss) (T0 := T0) (resolve wf load ss T0) := resolve_ended
  constructor
  · rintro ⟨T, hT⟩
    obtain ⟨σ, h1, -, h3⟩ := he.ok T hT
    exact ⟨fun s hs => h1.good s (h3 s hs), fun s hs n hn => by simp [h1.fresh s (h3 s hs) n hn], fun s hs s' hs' hne => h1.apart s (h3 s hs) s' (h3 s' hs') hne⟩
  · rintro ⟨h1, h2⟩
    cases hr : resolve wf load ss T0 with
    | ok T => exact ⟨T, rfl⟩
    | going => exact absurd hr he.going
    | failed rep =>
      obtain ⟨σ, h3, h4, h5, h6⟩ := he.failed rep hr
      exfalso
      apply h5
      rw [h4]
      unfold unresolved
      rw [List.filter_eq_nil_iff]
      intro s hs
      simpa using (stuck_known h3 h6 h2).2 s hs (h1 s hs)

/-- **Names**: those of the declarations, each with its definition. -/
theorem resolve_names {T : Names} (h : resolve wf load ss T0 = .ok T) (n x) :
    T.get? n = some x ↔ T0.get? n = some x ∨ ∃ s ∈ ss, (n, x) ∈ defs (evs wf load s) := by
  obtain ⟨σ, h1, rfl, h3⟩ := (resolve_ended (wf := wf) (load := load) (ss := ss) (T0 := T0)).ok T h
  rw [h1.names]
  exact or_congr_right ⟨fun ⟨s, hs, hx⟩ => ⟨s, h1.sub s hs, hx⟩, fun ⟨s, hs, hx⟩ => ⟨s, h3 s hs, hx⟩⟩

/-- **Failure**: the report lists all that cannot be resolved; and nothing else, if no name is defined twice. -/
theorem resolve_failed {rep : List String} (h : resolve wf load ss T0 = .failed rep) :
    (∀ s ∈ rep, s ∈ ss) ∧ (∀ s ∈ ss, ¬ Good (evs wf load) ss (fun n => T0.get? n ≠ none) s → s ∈ rep) ∧
    (NoClash (evs wf load) ss (fun n => T0.get? n ≠ none) → ∀ s ∈ rep, ¬ Good (evs wf load) ss (fun n => T0.get? n ≠ none) s) := by
  obtain ⟨σ, h1, rfl, -, h3⟩ := (resolve_ended (wf := wf) (load := load) (ss := ss) (T0 := T0)).failed rep h
  refine ⟨fun s hs => (List.mem_filter.1 hs).1, fun s hs hg => ?_, fun hc s hs hg => ?_⟩
  · unfold unresolved
    rw [List.mem_filter, decide_eq_true_eq]
    exact ⟨hs, fun hd => hg (h1.good s hd)⟩
  · obtain ⟨h4, h5⟩ := List.mem_filter.1 hs
    rw [decide_eq_true_eq] at h5
    exact h5 ((stuck_known h1 h3 hc).2 s h4 hg)

theorem known_congr {ev : String → List Ev} {K : String → Prop} {ss' : List String} (h : ∀ s, s ∈ ss ↔ s ∈ ss') {n : String} :
    Known ev ss K n → Known ev ss' K n := by
  intro hk
  induction hk with
  | start h => exact .start h
  | decl h1 h2 h3 _ h5 ih => exact .decl ((h _).1 h1) h2 h3 ih h5

theorem good_congr {ev : String → List Ev} {K : String → Prop} {ss' : List String} (h : ∀ s, s ∈ ss ↔ s ∈ ss') (s : String) :
    Good ev ss K s ↔ Good ev ss' K s :=
  ⟨fun ⟨h1, h2, h3⟩ => ⟨h1, h2, fun m hm => known_congr h (h3 m hm)⟩, fun ⟨h1, h2, h3⟩ => ⟨h1, h2, fun m hm => known_congr (fun s => (h s).symm) (h3 m hm)⟩⟩

/-- **C11.**  Acceptance does not depend on the order of the declarations, nor on repetitions. -/
theorem resolve_order_ok {ss' : List String} (h : ∀ s, s ∈ ss ↔ s ∈ ss') {T : Names} (hT : resolve wf load ss T0 = .ok T) :
    ∃ T', resolve wf load ss' T0 = .ok T' ∧ ∀ n, T'.get? n = T.get? n := by
  obtain ⟨h1, h2, h3⟩ := (resolve_ok_iff wf load ss T0).1 ⟨T, hT⟩
  obtain ⟨T', hT'⟩ := (resolve_ok_iff wf load ss' T0).2 ⟨fun s hs => (good_congr h s).1 (h1 s ((h s).2 hs)), fun s hs => h2 s ((h s).2 hs), fun s hs s' hs' => h3 s ((h s).2 hs) s' ((h s').2 hs')⟩
  refine ⟨T', hT', fun n => Option.ext (fun x => ?_)⟩
  rw [resolve_names hT, resolve_names hT']
  exact or_congr_right ⟨fun ⟨s, hs, hx⟩ => ⟨s, (h s).2 hs, hx⟩, fun ⟨s, hs, hx⟩ => ⟨s, (h s).1 hs, hx⟩⟩

/-- **C11.**  Nor does the report, if no name is defined twice. -/
theorem resolve_order_failed_partial {ss' : List String} (h : ∀ s, s ∈ ss ↔ s ∈ ss') (hc : NoClash (evs wf load) ss (fun n => T0.get? n ≠ none)) {rep : List String}
    (hr : resolve wf load ss T0 = .failed rep) : ∃ rep', resolve wf load ss' T0 = .failed rep' ∧ ∀ s, s ∈ rep' ↔ s ∈ rep := by
  cases hr' : resolve wf load ss' T0 with
  | ok T =>
    obtain ⟨T', h1, -⟩ := resolve_order_ok (fun s => (h s).symm) hr'
    rw [hr] at h1
    cases h1
  | going => exact absurd hr' (resolve_terminates wf load ss' T0)
  | failed rep' =>
    have hc' : NoClash (evs wf load) ss' (fun n => T0.get? n ≠ none) := ⟨fun s hs => hc.1 s ((h s).2 hs), fun s hs s' hs' => hc.2 s ((h s).2 hs) s' ((h s').2 hs')⟩
    obtain ⟨a1, a2, a3⟩ := resolve_failed hr
    obtain ⟨b1, b2, b3⟩ := resolve_failed hr'
    refine ⟨rep', rfl, fun s => ⟨fun hs => a2 s ((h s).2 (b1 s hs)) (fun hg => b3 hc' s hs ((good_congr h s).1 hg)), fun hs => b2 s ((h s).1 (a1 s hs)) (fun hg => a3 hc s hs ((good_congr h s).2 hg))⟩⟩

end

/-! ## Examples -/

/-- `{"type": "record", "name": name, "fields": [...]}` -/
abbrev rec_ (name : String) (fields : List Decl) : Decl := .named none name "record" fields

/-- Texts and their declarations: a list of trees, a tree with lists of leaves, a leaf. -/
def sample : String → Decl
  | "trees" => .coll "array" (.ref "Tree")
  | "Tree" => rec_ "Tree" [.union [.prim "null", .ref "Tree"], .ref "Leaf"]
  | "Leaf" => .named none "Leaf" "enum" []
  | "second" => rec_ "Leaf" [.prim "int"]
  | "lost" => .coll "map" (.ref "Nowhere")
  | _ => .prim "int"

/-- What was reported, or the names that were defined. -/
def Outcome.show : Outcome → Bool × List String
  | .ok T => (true, PyDict.keys T)
  | .failed rep => (false, rep)
  | .going => (false, [])

example : (resolve (fun _ _ => true) sample ["trees", "Tree", "Leaf", "int"] []).show = (true, ["Leaf", "Tree"]) := by decide +kernel

example : (resolve (fun _ _ => true) sample ["trees", "Tree", "lost", "Leaf"] []).show = (false, ["lost"]) := by decide +kernel

example : NoClash (evs (fun _ _ => true) sample) ["trees", "Tree", "lost", "Leaf"] (fun n => PyDict.get? ([] : Names) n ≠ none) := by
  refine ⟨fun s _ n _ => by simp, ?_⟩
  simp only [List.mem_cons, List.not_mem_nil, or_false]
  rintro s (rfl | rfl | rfl | rfl) s' (rfl | rfl | rfl | rfl) hne <;>
    simp [evs, sample, events, eventsL, okHere, defined, defs, full] at hne ⊢

/-- **Violation.**  With two definitions of a name the report depends on the order: the later one is blamed. -/
theorem report_order_violation : ∃ rep rep', resolve (fun _ _ => true) sample ["Leaf", "second"] [] = .failed rep ∧
    resolve (fun _ _ => true) sample ["second", "Leaf"] [] = .failed rep' ∧ rep = ["second"] ∧ rep' = ["Leaf"] := ⟨_, _, rfl, rfl, by decide +kernel, by decide +kernel⟩

/-! ## Removing duplicates -/

/-- `makePlaceholder` for one declaration after another with one memo (858-862), then `resolveTypes` (864-866). -/
def build (wf : String → Decl → Bool) (ds : List Decl) : Option Outcome :=
  (dedupL ds []).map (fun r => resolve wf (fun s => r.1.getD s.length default) ((List.range r.1.length).map (fun k => "".pushn 'x' k)) [])

/-- An enum, and a record that uses the enum in one field and defines it in another. -/
def enumE : Decl := .named none "E" "enum" []
def usesE : Decl := rec_ "A" [.ref "E", enumE]

/-- **Violation.**  When duplicates are removed (prettypfa.py), acceptance depends on the order: the definition that stays is the first,
and a field before it may refer to it only when it stands elsewhere. -/
theorem dedup_order_violation : (build (fun _ _ => true) [enumE, usesE]).map Outcome.show = some (true, ["E", "A"]) ∧
    (build (fun _ _ => true) [usesE, enumE]).map (fun o => o.show.1) = some false := by decide +kernel

mutual
/-- The keys under which definitions are remembered. -/
def keysOf : Decl → List String
  | .prim _ => []
  | .ref _ => []
  | .coll _ x => keysOf x
  | .union xs => keysOfL xs
  | .named ns name _ fields => memoKey ns name :: keysOfL fields
def keysOfL : List Decl → List String
  | [] => []
  | d :: ds => keysOf d ++ keysOfL ds
end

mutual
/-- Without duplicates nothing is removed. -/
theorem dedup_id : ∀ (d : Decl) (memo : PyDict String Decl), (keysOf d).Nodup → (∀ k ∈ keysOf d, memo.get? k = none) →
    ∃ memo', dedup d memo = some (d, memo') ∧ ∀ k, k ∉ keysOf d → memo'.get? k = memo.get? k
  | .prim a, memo, _, _ => ⟨memo, by rw [dedup], fun _ _ => rfl⟩
  | .ref a, memo, _, _ => ⟨memo, by rw [dedup], fun _ _ => rfl⟩
  | .coll k x, memo, h1, h2 => by
    rw [keysOf] at h1
    simp only [keysOf] at h2 ⊢
    obtain ⟨memo', h3, h4⟩ := dedup_id x memo h1 h2
    exact ⟨memo', by rw [dedup, h3], h4⟩
  | .union xs, memo, h1, h2 => by
    rw [keysOf] at h1
    simp only [keysOf] at h2 ⊢
    obtain ⟨memo', h3, h4⟩ := dedupL_id xs memo h1 h2
    exact ⟨memo', by rw [dedup, h3], h4⟩
  | .named ns name attrs fields, memo, h1, h2 => by
    rw [keysOf, List.nodup_cons] at h1
    simp only [keysOf, List.mem_cons, forall_eq_or_imp] at h2
    obtain ⟨memo', h3, h4⟩ := dedupL_id fields (memo.set _ (.named ns name attrs fields)) h1.2 (fun k hk => by
      rw [PyDict.get?_set, if_neg (by rintro rfl; exact h1.1 hk)]
      exact h2.2 k hk)
    refine ⟨memo', ?_, fun k hk => ?_⟩
    · rw [dedup]
      rw [h2.1]
      dsimp only
      rw [h3]
    · simp only [keysOf, List.mem_cons, not_or] at hk
      rw [h4 k hk.2, PyDict.get?_set, if_neg (Ne.symm hk.1)]
theorem dedupL_id : ∀ (ds : List Decl) (memo : PyDict String Decl), (keysOfL ds).Nodup → (∀ k ∈ keysOfL ds, memo.get? k = none) →
    ∃ memo', dedupL ds memo = some (ds, memo') ∧ ∀ k, k ∉ keysOfL ds → memo'.get? k = memo.get? k
  | [], memo, _, _ => ⟨memo, by rw [dedupL], fun _ _ => rfl⟩
  | d :: ds, memo, h1, h2 => by
    rw [keysOfL, List.nodup_append] at h1
    simp only [keysOfL, List.mem_append] at h2 ⊢
    obtain ⟨m1, h3, h4⟩ := dedup_id d memo h1.1 (fun k hk => h2 k (.inl hk))
    obtain ⟨m2, h5, h6⟩ := dedupL_id ds m1 h1.2.1 (fun k hk => by
      rw [h4 k (fun hk' => h1.2.2 k hk' k hk rfl)]
      exact h2 k (.inr hk))
    refine ⟨m2, by rw [dedupL, h3]; dsimp only; rw [h5], fun k hk => ?_⟩
    rw [not_or] at hk
    rw [h6 k hk.2, h4 k hk.1]
end

mutual
/-- All definitions, with those inside them. -/
def defsOf : Decl → List Decl
  | .prim _ => []
  | .ref _ => []
  | .coll _ x => defsOf x
  | .union xs => defsOfL xs
  | .named ns name attrs fields => .named ns name attrs fields :: defsOfL fields
def defsOfL : List Decl → List Decl
  | [] => []
  | d :: ds => defsOf d ++ defsOfL ds
end

/-- The key of a definition. -/
def keyOf : Decl → String
  | .named ns name _ _ => memoKey ns name
  | _ => ""

mutual
theorem defsOf_size : ∀ (d x : Decl), x ∈ defsOf d → sizeOf x ≤ sizeOf d
  | .prim _, x, h => by simp [defsOf] at h
  | .ref _, x, h => by simp [defsOf] at h
  | .coll _ y, x, h => by
    rw [defsOf] at h
    have := defsOf_size y x h
    simp only [Decl.coll.sizeOf_spec]; omega
  | .union ys, x, h => by
    rw [defsOf] at h
    have := defsOfL_size ys x h
    simp only [Decl.union.sizeOf_spec]; omega
  | .named ns name attrs fields, x, h => by
    rw [defsOf] at h
    rcases List.mem_cons.1 h with rfl | h
    · exact Nat.le_refl _
    · have := defsOfL_size fields x h
      simp only [Decl.named.sizeOf_spec]; omega
theorem defsOfL_size : ∀ (ds : List Decl) (x : Decl), x ∈ defsOfL ds → sizeOf x ≤ sizeOf ds
  | [], x, h => by simp [defsOfL] at h
  | d :: ds, x, h => by
    rw [defsOfL] at h
    simp only [List.cons.sizeOf_spec]
    rcases List.mem_append.1 h with h | h
    · have := defsOf_size d x h; omega
    · have := defsOfL_size ds x h; omega
end

mutual
theorem defsOf_trans : ∀ (d x y : Decl), x ∈ defsOf d → y ∈ defsOf x → y ∈ defsOf d
  | .prim _, x, _, h, _ => by simp [defsOf] at h
  | .ref _, x, _, h, _ => by simp [defsOf] at h
  | .coll _ z, x, y, h, h' => by
    rw [defsOf] at h ⊢
    exact defsOf_trans z x y h h'
  | .union zs, x, y, h, h' => by
    rw [defsOf] at h ⊢
    exact defsOfL_trans zs x y h h'
  | .named ns name attrs fields, x, y, h, h' => by
    rw [defsOf] at h
    rcases List.mem_cons.1 h with rfl | h
    · exact h'
    · rw [defsOf]
      exact List.mem_cons_of_mem _ (defsOfL_trans fields x y h h')
theorem defsOfL_trans : ∀ (ds : List Decl) (x y : Decl), x ∈ defsOfL ds → y ∈ defsOf x → y ∈ defsOfL ds
  | [], x, _, h, _ => by simp [defsOfL] at h
  | d :: ds, x, y, h, h' => by
    rw [defsOfL] at h ⊢
    rcases List.mem_append.1 h with h | h
    · exact List.mem_append_left _ (defsOf_trans d x y h h')
    · exact List.mem_append_right _ (defsOfL_trans ds x y h h')
end

/-- What is remembered, up to the size `n`, is remembered with the definitions inside. -/
def Closed (n : Nat) (memo : PyDict String Decl) : Prop :=
  ∀ k x, memo.get? k = some x → sizeOf x ≤ n → ∀ y ∈ defsOf x, memo.get? (keyOf y) = some y

/-- After the definitions `ds` have been seen: nothing is forgotten, what is remembered was there or is among them, and
they are all remembered. -/
structure Seen (ds : List Decl) (memo memo' : PyDict String Decl) : Prop where
  keep : ∀ k x, memo.get? k = some x → memo'.get? k = some x
  new : ∀ k x, memo'.get? k = some x → memo.get? k = some x ∨ x ∈ ds
  all : ∀ x ∈ ds, memo'.get? (keyOf x) = some x

theorem Seen.closed {ds : List Decl} {memo memo' : PyDict String Decl} {n : Nat} (h : Seen ds memo memo') (hc : Closed n memo)
    (ht : ∀ x ∈ ds, ∀ y ∈ defsOf x, y ∈ ds) : Closed n memo' := by
  intro k x hx hn y hy
  rcases h.new k x hx with h1 | h1
  · exact h.keep _ _ (hc k x h1 hn y hy)
  · exact h.all y (ht x h1 y hy)

mutual
theorem dedup_seen : ∀ (d : Decl) (memo memo' : PyDict String Decl) (d' : Decl), Closed (sizeOf d) memo →
    dedup d memo = some (d', memo') → Seen (defsOf d) memo memo'
  | .prim a, memo, memo', d', _, h => by
    rw [dedup] at h
    cases h
    exact ⟨fun _ _ h => h, fun _ _ h => .inl h, fun x hx => by simp [defsOf] at hx⟩
  | .ref a, memo, memo', d', _, h => by
    rw [dedup] at h
    cases h
    exact ⟨fun _ _ h => h, fun _ _ h => .inl h, fun x hx => by simp [defsOf] at hx⟩
  | .coll k x, memo, memo', d', hc, h => by
    rw [dedup] at h
    split at h
    · next y m h1 =>
      cases h
      rw [defsOf]
      exact dedup_seen x memo _ _ (fun k z h2 h3 => hc k z h2 (by simp only [Decl.coll.sizeOf_spec]; omega)) h1
    · cases h
  | .union xs, memo, memo', d', hc, h => by
    rw [dedup] at h
    split at h
    · next y m h1 =>
      cases h
      rw [defsOf]
      exact dedupL_seen xs memo _ _ (fun k z h2 h3 => hc k z h2 (by simp only [Decl.union.sizeOf_spec]; omega)) h1
    · cases h
  | .named ns name attrs fields, memo, memo', d', hc, h => by
    rw [dedup] at h
    split at h
    · next e he =>
      split at h
      · next heq =>
        cases h
        subst heq
        exact ⟨fun _ _ h => h, fun _ _ h => .inl h, fun x hx => hc _ _ he (Nat.le_refl _) x hx⟩
      · cases h
    · next he =>
      split at h
      · next fs m h1 =>
        cases h
        have hc' : Closed (sizeOf fields) (memo.set (memoKey ns name) (.named ns name attrs fields)) := by
          intro k x hx hn y hy
          rw [PyDict.get?_set] at hx
          split at hx
          · cases hx
            simp only [Decl.named.sizeOf_spec] at hn
            omega
          · rw [PyDict.get?_set]
            have h2 := hc k x hx (by simp only [Decl.named.sizeOf_spec]; omega) y hy
            rw [if_neg (by intro e; rw [← e, he] at h2; cases h2)]
            exact h2
        have ih := dedupL_seen fields _ _ _ hc' h1
        refine ⟨fun k x hx => ih.keep k x ?_, fun k x hx => ?_, fun x hx => ?_⟩
        · rw [PyDict.get?_set, if_neg (by rintro rfl; rw [he] at hx; cases hx)]
          exact hx
        · rw [defsOf]
          rcases ih.new k x hx with h2 | h2
          · rw [PyDict.get?_set] at h2
            split at h2
            · cases h2; exact .inr (List.mem_cons_self ..)
            · exact .inl h2
          · exact .inr (List.mem_cons_of_mem _ h2)
        · rw [defsOf] at hx
          rcases List.mem_cons.1 hx with rfl | hx
          · exact ih.keep _ _ (by rw [keyOf, PyDict.get?_set, if_pos rfl])
          · exact ih.all x hx
      · cases h
theorem dedupL_seen : ∀ (ds : List Decl) (memo memo' : PyDict String Decl) (ds' : List Decl), Closed (sizeOf ds) memo →
    dedupL ds memo = some (ds', memo') → Seen (defsOfL ds) memo memo'
  | [], memo, memo', ds', _, h => by
    rw [dedupL] at h
    cases h
    exact ⟨fun _ _ h => h, fun _ _ h => .inl h, fun x hx => by simp [defsOfL] at hx⟩
  | d :: ds, memo, memo', ds', hc, h => by
    rw [dedupL] at h
    split at h
    · next e m h1 =>
      split at h
      · next es m' h2 =>
        cases h
        have i1 := dedup_seen d memo m e (fun k z h2 h3 => hc k z h2 (by simp only [List.cons.sizeOf_spec]; omega)) h1
        have hc2 : Closed (sizeOf ds) m := i1.closed (fun k z h2 h3 => hc k z h2 (by simp only [List.cons.sizeOf_spec]; omega))
          (fun x hx y hy => defsOf_trans d x y hx hy)
        have i2 := dedupL_seen ds m _ es hc2 h2
        refine ⟨fun k x hx => i2.keep k x (i1.keep k x hx), fun k x hx => ?_, fun x hx => ?_⟩
        · rw [defsOfL]
          rcases i2.new k x hx with h3 | h3
          · rcases i1.new k x h3 with h4 | h4
            · exact .inl h4
            · exact .inr (List.mem_append_left _ h4)
          · exact .inr (List.mem_append_right _ h3)
        · rw [defsOfL] at hx
          rcases List.mem_append.1 hx with hx | hx
          · exact i2.keep _ _ (i1.all x hx)
          · exact i2.all x hx
      · cases h
    · cases h
end

/-- **C11.**  Two different definitions of one name, anywhere in the declarations, are refused. -/
theorem dedup_conflict {ds : List Decl} {x y : Decl} (hx : x ∈ defsOfL ds) (hy : y ∈ defsOfL ds) (hk : keyOf x = keyOf y)
    (hne : x ≠ y) : dedupL ds [] = none := by
  cases h : dedupL ds [] with
  | none => rfl
  | some r =>
    have := dedupL_seen ds [] r.2 r.1 (fun k z hz => by simp at hz) h
    have h1 := this.all x hx
    have h2 := this.all y hy
    rw [hk, h2] at h1
    exact absurd (Option.some.inj h1).symm hne

/-- Two enums with the same name and different symbols, one of them inside a record. -/
example : dedupL [usesE, .named none "E" "other" []] [] = none :=
  dedup_conflict (x := enumE) (y := .named none "E" "other" []) (by simp [defsOfL, defsOf, usesE, rec_, enumE])
    (by simp [defsOfL, defsOf]) rfl (by simp [enumE])

end Verif.Forward
