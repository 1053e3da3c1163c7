import Verif.Pretty.Doc

/-!
# The parts of PrettyPFA documents

What a section holds, which types are defined under which names, and what the arguments of a cell or pool mean.  The specification lists the headings and
the arguments by themselves; of arguments that are repeated the last counts.
-/

namespace Verif.Pretty
open Avro Ast Reader

variable {st : St}

/-! ## Types -/

/-- The name of a type and its namespace. -/
def fullName (ns : Option String) (n : String) : String := match ns with
  | none => n
  | some ns => ns ++ "." ++ n

/-- **A record, enum or fixed type is seen under its full name**, and other names keep what they mean. -/
theorem definition_seen {k : String} {as : List Mini} {d : List (String × Val)} {n : String} {ns : Option String} (hk : k ∈ ["record", "enum", "fixed"])
    (ht : asType st (.call k as) = .ok (.dict d)) (hn : PyDict.get? d "name" = some (.str n)) (hs : PyDict.get? d "namespace" = ns.map .str) :
    ∃ st', Obj.defType st (.mini (.call k as)) = .ok st' ∧ asType st' (.dotName (fullName ns n)) = .ok (.dict d) ∧
      ∀ b, b ≠ fullName ns n → asType st' (.dotName b) = asType st (.dotName b) := by
  have ha : aliasOf (.dict d) = .ok (fullName ns n) := by
    cases ns <;> simp only [Option.map_none, Option.map_some] at hs <;> simp [aliasOf, hn, hs, fullName]
  refine ⟨withAlias st (fullName ns n) (.dict d), ?_, ?_, ?_⟩
  · simp only [List.mem_cons, List.not_mem_nil, or_false] at hk
    simp [Obj.defType, hk, ht, ha, andThen]
  · simp [asType, withAlias, PyDict.get?_set_self]
  · intro b hb
    simp [asType, withAlias, PyDict.get?_set_ne _ _ (Ne.symm hb)]

/-- **Nothing else defines a type.** -/
theorem definition_only {o : Obj} {st' : St} (h : Obj.defType st o = .ok st') :
    (∃ k as, o = .mini (.call k as) ∧ k ∈ ["record", "enum", "fixed"]) ∨ ∃ a m, o = .mini (.assign [(a, m)] false) := by
  unfold Obj.defType at h
  split at h
  · next n as =>
    split at h
    · next hk => exact .inl ⟨n, as, rfl, by simpa using hk⟩
    · cases h
  · next a m => exact .inr ⟨a, m, rfl⟩
  · cases h

/-- There is such a type: `fixed(4, a.b)` is `a.b`. -/
example : ∃ st', Obj.defType st (.mini (.call "fixed" [.number (.int 4), .dotName "a.b"])) = .ok st' ∧
    asType st' (.dotName "a.b") = .ok (.dict [("type", .str "fixed"), ("size", .int 4), ("name", .str "b"), ("namespace", .str "a")]) := by
  have ht : asType st (.call "fixed" [.number (.int 4), .dotName "a.b"]) =
      .ok (.dict [("type", .str "fixed"), ("size", .int 4), ("name", .str "b"), ("namespace", .str "a")]) := by
    have hs : split "a.b" = (some "a", "b") := by decide +kernel
    simp [asType, callType, fixedType, hs, withName]
  obtain ⟨st', h1, h2, _⟩ := definition_seen (ns := some "a") (n := "b") (by simp) ht (by simp [PyDict.get?]) (by simp [PyDict.get?])
  exact ⟨st', h1, h2⟩

/-! ## Sections -/

/-- What a section with expressions or types holds: the expressions of a block, one expression, or those of a list. -/
inductive Holds : Content → List Obj → Prop where
  | block {ms} : Holds (.one (.call "do" ms)) (ms.map .mini)
  | one {m} (h : ∀ ms, m ≠ .call "do" ms) : Holds (.one m) [.mini m]
  | list {l} : Holds (.list l) l

/-- **The sections types, begin, action, end and merge are lists.** -/
theorem section_lists {n : String} {c : Content} {l : List Obj} (hn : n ∈ ["types", "begin", "action", "end", "merge"]) (h : Holds c l) :
    mkSection n c = .ok (n, .list l) := by
  have h1 : n ∈ headings := (show ∀ n ∈ ["types", "begin", "action", "end", "merge"], n ∈ headings by decide +kernel) n hn
  have h2 : n ∈ listed := (show ∀ n ∈ ["types", "begin", "action", "end", "merge"], n ∈ listed by decide +kernel) n hn
  have hu : unwrap c = .list l := by
    cases h with
    | block => simp [unwrap]
    | @one m h =>
      unfold unwrap
      split
      · next n' as he =>
        cases he
        split
        · next e => subst e; exact absurd rfl (h as)
        · rfl
      · next he => cases he; rfl
      · next he => cases he
    | list => rfl
  simp [mkSection, h1, h2, hu]

/-- **The other sections are as they are written.** -/
theorem section_plain {n : String} {c : Content}
    (hn : n ∈ ["name", "method", "input", "output", "fcns", "zero", "cells", "pools", "randseed", "doc", "version", "metadata", "options"]) : mkSection n c = .ok (n, c) := by
  have h1 := (show ∀ n ∈ ["name", "method", "input", "output", "fcns", "zero", "cells", "pools", "randseed", "doc", "version", "metadata", "options"], n ∈ headings ∧ n ∉ listed by
    decide +kernel) n hn
  simp [mkSection, h1]

/-- **There are no other sections.** -/
theorem section_unknown {n : String} {c : Content} (hn : n ∉ ["types", "begin", "action", "end", "merge"])
    (hn' : n ∉ ["name", "method", "input", "output", "fcns", "zero", "cells", "pools", "randseed", "doc", "version", "metadata", "options"]) : mkSection n c = .error pretty := by
  have h1 : n ∉ headings := fun h => by
    have := (show ∀ n ∈ headings, n ∈ ["types", "begin", "action", "end", "merge"] ∨
      n ∈ ["name", "method", "input", "output", "fcns", "zero", "cells", "pools", "randseed", "doc", "version", "metadata", "options"] by decide +kernel) n h
    exact this.elim hn hn'
  simp [mkSection, h1]

/-- **One object may be written alone or as a list of one.**  Longer lists are refused. -/
theorem single_list (m : Mini) (a b : Obj) (l : List Obj) : single (.one m) = .ok (.mini m) ∧ single (.list [.mini m]) = .ok (.mini m) ∧
    single (.list []) = .error pretty ∧ single (.list (a :: b :: l)) = .error pretty := ⟨rfl, rfl, rfl, rfl⟩

/-- **A pool needs an object.** -/
theorem pool_object {n : String} {t i : Mini} {sh ro : Bool} {so : String} {v : Val} (h : asJson i = .ok v) (hv : ∀ d, v ≠ .dict d) :
    Obj.asPool st (.cell n t i sh ro so) = .error pretty := by
  simp only [Obj.asPool, h, andThen]

/-! ## Cells and pools -/

/-- The last value that is given for a name. -/
def lastOf (k : String) : List Mini → Option Mini
  | [] => none
  | m :: ms => (lastOf k ms).or (match m with
    | .param n v => if n = k then some v else none
    | _ => none)

/-- The arguments without a name. -/
def plainArgs : List Mini → List Mini
  | [] => []
  | .param _ _ :: ms => plainArgs ms
  | m :: ms => m :: plainArgs ms

/-- A truth value. -/
def truth : Mini → Option Bool
  | .dotName n => if n = "true" then some true else if n = "false" then some false else none
  | _ => none

/-- The argument may be given. -/
def Allowed : Mini → Prop
  | .param n v => (n = "shared" ∧ (truth v).isSome) ∨ (n = "rollback" ∧ (truth v).isSome) ∨ (n = "source" ∧ ((∃ s, v = .dotName s) ∨ ∃ s, v = .string s)) ∨ n = "type"
  | _ => True

/-- A text is a name or a string. -/
def argName : Mini → String
  | .dotName n => n
  | .string s => s
  | _ => ""

theorem flag_truth (m : Mini) : flag m = match truth m with
    | some b => .ok b
    | none => .error pretty := by
  unfold flag truth
  split
  · rfl
  · rfl
  · next h1 h2 =>
    split
    · next hm =>
      split at hm
      · next n =>
        split at hm
        · next e => exact absurd (by rw [e]) (h1)
        · split at hm
          · next e => exact absurd (by rw [e]) (h2)
          · cases hm
      · cases hm
    · rfl

/-- What arguments change. -/
def changed (a : Args) (as : List Mini) : Args :=
  ⟨((lastOf "shared" as).bind truth).getD a.shared, ((lastOf "rollback" as).bind truth).getD a.rollback, ((lastOf "source" as).map argName).getD a.source,
    (lastOf "type" as).or a.type, a.others ++ plainArgs as⟩

theorem argStep_iff {a b : Args} {m : Mini} : argStep a m = .ok b ↔ Allowed m ∧ b = changed a [m] := by
  cases m with
  | param n v =>
    unfold argStep
    by_cases e1 : n = "shared"
    · subst e1
      cases ht : truth v <;> simp [flag_truth, ht, andThen, Allowed, changed, lastOf, plainArgs, eq_comm]
    by_cases e2 : n = "rollback"
    · subst e2
      cases ht : truth v <;> simp [flag_truth, ht, andThen, Allowed, changed, lastOf, plainArgs, eq_comm]
    by_cases e3 : n = "source"
    · subst e3
      cases v <;> simp [text, argName, Allowed, changed, lastOf, plainArgs] <;> exact eq_comm
    by_cases e4 : n = "type"
    · subst e4
      simpa [Allowed, changed, lastOf, plainArgs] using eq_comm
    simp [e1, e2, e3, e4, Allowed]
  | _ => simp [argStep, Allowed, changed, lastOf, plainArgs, eq_comm]

theorem argStep_error {a : Args} {m : Mini} {e : Err} (h : argStep a m = .error e) : e = pretty := by
  cases m with
  | param n v =>
    unfold argStep at h
    simp only [flag_truth] at h
    repeat' split at h
    all_goals first | (cases truth v <;> simp_all [andThen]; done) | simp_all
  | _ => simp [argStep] at h

theorem lastOf_truth {k : String} (hk : k = "shared" ∨ k = "rollback") : ∀ {ms : List Mini} (_ : ∀ m ∈ ms, Allowed m) (v : Mini), lastOf k ms = some v → (truth v).isSome
  | [], _, v, h => by simp [lastOf] at h
  | m :: ms, ha, v, h => by
    simp only [List.forall_mem_cons] at ha
    simp only [lastOf, Option.or_eq_some_iff] at h
    rcases h with h | ⟨_, h⟩
    · exact lastOf_truth hk ha.2 v h
    · cases m with
      | param n w =>
        simp only [Option.ite_none_right_eq_some, Option.some.injEq] at h
        obtain ⟨rfl, rfl⟩ := h
        have := ha.1
        rcases hk with rfl | rfl <;> simpa [Allowed] using this
      | _ => simp at h

theorem changed_cons (a : Args) {m : Mini} {ms : List Mini} (hs : ∀ m ∈ ms, Allowed m) : changed (changed a [m]) ms = changed a (m :: ms) := by
  have hp : plainArgs [m] ++ plainArgs ms = plainArgs (m :: ms) := by cases m <;> simp [plainArgs]
  have hk : ∀ k, lastOf k (m :: ms) = (lastOf k ms).or (lastOf k [m]) := fun k => by simp [lastOf]
  have hb : ∀ (k : String) (x : Bool), (∀ v, lastOf k ms = some v → (truth v).isSome) → ((lastOf k ms).bind truth).getD (((lastOf k [m]).bind truth).getD x) =
      ((lastOf k (m :: ms)).bind truth).getD x := fun k x h => by
    rw [hk]
    cases e : lastOf k ms with
    | none => simp
    | some v => obtain ⟨b, hb⟩ := Option.isSome_iff_exists.1 (h v e); simp [hb]
  simp only [changed, hb "shared" a.shared (lastOf_truth (.inl rfl) hs), hb "rollback" a.rollback (lastOf_truth (.inr rfl) hs), List.append_assoc, hp]
  simp only [hk]
  congr 1
  · cases lastOf "source" ms <;> cases lastOf "source" [m] <;> simp
  · cases lastOf "type" ms <;> simp

theorem argSteps_iff : ∀ {as : List Mini} {a b : Args}, argSteps a as = .ok b ↔ (∀ m ∈ as, Allowed m) ∧ b = changed a as
  | [], a, b => by simpa [argSteps, lastOf, plainArgs, changed] using eq_comm
  | m :: ms, a, b => by
    simp only [argSteps, List.forall_mem_cons]
    cases h : argStep a m with
    | ok a' =>
      obtain ⟨h1, rfl⟩ := argStep_iff.1 h
      simp only [andThen, argSteps_iff, h1, true_and]
      exact and_congr_right fun hs => by rw [changed_cons a hs]
    | error e =>
      have : ¬ Allowed m := fun h' => by rw [argStep_iff.2 ⟨h', rfl⟩] at h; cases h
      simp [andThen, this]

theorem argSteps_error : ∀ {as : List Mini} {a : Args} {e : Err}, argSteps a as = .error e → e = pretty
  | [], a, e, h => by simp [argSteps] at h
  | m :: ms, a, e, h => by
    simp only [argSteps] at h
    cases h' : argStep a m with
    | ok a' => rw [h'] at h; exact argSteps_error (by simpa [andThen] using h)
    | error e' => rw [h'] at h; simp only [andThen, Except.error.injEq] at h; rw [← h]; exact argStep_error h'

/-- **What the arguments of a cell or pool mean.** -/
theorem cell_args {n : String} {as : List Mini} {init : Mini} {o : Obj} : cellOf n as init = .ok o ↔ (∀ m ∈ as, Allowed m) ∧
    ∃ t, ((lastOf "type" as = none ∧ plainArgs as = [t]) ∨ (lastOf "type" as = some t ∧ plainArgs as = [])) ∧
      o = .cell n t init (((lastOf "shared" as).bind truth).getD false) (((lastOf "rollback" as).bind truth).getD false) (((lastOf "source" as).map argName).getD "embedded") := by
  unfold cellOf
  cases h : argSteps {} as with
  | error e =>
    have : ¬ ∀ m ∈ as, Allowed m := fun h' => by rw [argSteps_iff.2 ⟨h', rfl⟩] at h; cases h
    simp [andThen, this]
  | ok b =>
    obtain ⟨h1, rfl⟩ := argSteps_iff.1 h
    simp only [andThen, changed, List.nil_append, Option.or_none]
    cases lastOf "type" as <;> rcases plainArgs as with _ | ⟨t, _ | ⟨u, l⟩⟩ <;> simp [eq_comm] <;> exact fun _ => h1

/-- **Otherwise the cell is refused.** -/
theorem cell_errors {n : String} {as : List Mini} {init : Mini} {e : Err} (h : cellOf n as init = .error e) : e = pretty := by
  unfold cellOf at h
  cases h' : argSteps {} as with
  | error e' => rw [h'] at h; simp only [andThen, Except.error.injEq] at h; rw [← h]; exact argSteps_error h'
  | ok b =>
    simp only [h', andThen] at h
    split at h <;> simp_all

/-- `c(int, shared: true, source: json)` -/
example : cellOf "c" [.dotName "int", .param "shared" (.dotName "true"), .param "source" (.dotName "json")] (.number (.int 0)) =
    .ok (.cell "c" (.dotName "int") (.number (.int 0)) true false "json") :=
  cell_args.2 ⟨by simp [Allowed, truth], .dotName "int", by simp [lastOf, plainArgs], by simp [lastOf, truth, argName]⟩

end Verif.Pretty
