import Verif.Pretty.Back
import Verif.Reader.Back

/-!
# What PrettyPFA cannot say, and what it says wrongly

`asExpr_head` is the converse of `asExpr_mini_partial` for the conditions on names: whatever tree the parser gives, the expression satisfies
them, so an expression that does not satisfy them cannot be written (except through a substitution).
-/

namespace Verif.Pretty
open Avro Ast Reader

variable {st : St}

/-- Conditions that every expression that was written satisfies. -/
def heads (st : St) : X → Prop
  | .poolDel _ _ => False
  | .newArray is _ => is ≠ []
  | .newObject fs _ => fs ≠ []
  | .cond its _ => 2 ≤ its.length
  | .fcnRef n => n ∈ st.functionNames ∧ n ∉ valueNames
  | .ref n => n ∉ valueNames ∧ n ∉ st.functionNames ∧ NoDot n ∧ n ∉ st.cellNames ∧ n ∉ st.poolNames
  | .cellGet c _ => c ∈ st.cellNames
  | .cellTo c _ _ => c ∈ st.cellNames
  | .poolGet c _ => c ∈ st.poolNames ∧ c ∉ st.cellNames
  | .poolTo c _ _ _ => c ∈ st.poolNames ∧ c ∉ st.cellNames
  | .attrGet (.ref _) _ => True
  | .setVar vs => (∀ kv ∈ vs, NoDot kv.1) ∧ (vs.length = 1 → ∀ kv ∈ vs, kv.1 ∉ st.cellNames ∧ kv.1 ∉ st.poolNames)
  | .let_ vs => ∀ kv ∈ vs, NoDot kv.1
  | .call n _ => n ∉ formNames
  | .fcnRefFill n _ => n ∉ formNames
  | _ => True

theorem andThen_ok {α β : Type} {r : Res α} {f : α → Res β} {b : β} : andThen r f = .ok b ↔ ∃ a, r = .ok a ∧ f a = .ok b := by
  cases r <;> simp [andThen]

theorem seq_length {α : Type} : ∀ {l : List (Res α)} {as : List α}, seq l = .ok as → as.length = l.length
  | [], as, h => by simp [seq] at h; simp [← h]
  | .error e :: l, as, h => by simp [seq] at h
  | .ok a :: l, as, h => by
    simp only [seq] at h
    cases hl : seq l with
    | error e => simp [hl] at h
    | ok bs =>
      rw [hl] at h
      injection h with h
      simp [← h, seq_length hl]

theorem seqN_keys {α : Type} : ∀ {l : List (String × Res α)} {as : List (String × α)}, seqN l = .ok as → as.map Prod.fst = l.map Prod.fst
  | [], as, h => by simp [seqN] at h; simp [← h]
  | (k, .error e) :: l, as, h => by simp [seqN] at h
  | (k, .ok a) :: l, as, h => by
    simp only [seqN] at h
    cases hl : seqN l with
    | error e => simp [hl] at h
    | ok bs =>
      rw [hl] at h
      injection h with h
      simp [← h, seqN_keys hl]

theorem set_ne_nil {α : Type} (d : List (String × α)) (k : String) (v : α) : PyDict.set d k v ≠ [] := by
  cases d with
  | nil => simp [PyDict.set]
  | cons kv d => simp only [PyDict.set]; split <;> simp

theorem asDict_ne_nil {α : Type} {l : List (String × α)} (h : l ≠ []) : asDict l ≠ [] := by
  have key : ∀ (l d : List (String × α)), d ≠ [] → l.foldl (fun d kv => PyDict.set d kv.1 kv.2) d ≠ [] := by
    intro l
    induction l with
    | nil => intro d hd; exact hd
    | cons kv l ih => intro d _; exact ih _ (set_ne_nil _ _ _)
  cases l with
  | nil => exact absurd rfl h
  | cons kv l => exact key l _ (set_ne_nil _ _ _)

theorem getAt_head {b : String} {p : List X} {e : X} (h : getAt st b p = .ok e) : made e = true ∧ heads st e := by
  unfold getAt at h
  split at h
  · next hc => obtain ⟨hm, rfl⟩ := mk_ok h; exact ⟨hm, hc⟩
  · next hc => split at h
               · next hp => obtain ⟨hm, rfl⟩ := mk_ok h; exact ⟨hm, hp, hc⟩
               · obtain ⟨hm, rfl⟩ := mk_ok h; exact ⟨hm, trivial⟩

theorem putAt_head {b : String} {p : List X} {r e : X} {i : Res X} (h : putAt st b p r i = .ok e) : made e = true ∧ heads st e := by
  unfold putAt at h
  split at h
  · next hc => obtain ⟨hm, rfl⟩ := mk_ok h; exact ⟨hm, hc⟩
  · next hc => split at h
               · next hp =>
                 obtain ⟨i, _, h⟩ := andThen_ok.1 h
                 obtain ⟨hm, rfl⟩ := mk_ok h; exact ⟨hm, hp, hc⟩
               · obtain ⟨hm, rfl⟩ := mk_ok h; exact ⟨hm, trivial⟩

theorem nameExpr_head {n : String} {e : X} (h : nameExpr st n = .ok e) : made e = true ∧ heads st e := by
  by_cases hv : n ∈ valueNames
  · simp only [valueNames, List.mem_cons, List.not_mem_nil, or_false] at hv
    rcases hv with rfl | rfl | rfl <;> (simp [nameExpr] at h; subst h; exact ⟨rfl, trivial⟩)
  · rw [nameExpr_value hv] at h
    split at h
    · next hf => obtain ⟨hm, rfl⟩ := mk_ok h; exact ⟨hm, hf, hv⟩
    · next hf =>
      split at h
      · exact getAt_head h
      · next hd =>
        split at h
        · next hc => obtain ⟨hm, rfl⟩ := mk_ok h; exact ⟨hm, hc⟩
        · next hc =>
          split at h
          · next hp => obtain ⟨hm, rfl⟩ := mk_ok h; exact ⟨hm, hp, hc⟩
          · next hp => obtain ⟨hm, rfl⟩ := mk_ok h; exact ⟨hm, hv, hf, hd, hc, hp⟩

theorem toExpr_head {n : String} {as : Res (List X)} {d : Bool} {r : Res X} {i : Option (Res X)} {e : X} (h : toExpr st n as d r i = .ok e) :
    made e = true ∧ heads st e := by
  obtain ⟨as, _, h⟩ := andThen_ok.1 h
  obtain ⟨t, _, h⟩ := andThen_ok.1 h
  split at h
  · cases h
  · split at h
    · cases h
    · split at h
      · cases h
      · split at h
        · cases h
        · exact putAt_head h

theorem assignExpr_head {ps : List (String × Res X)} {var : Bool} {e : X} (h : assignExpr st ps var = .ok e) : made e = true ∧ heads st e := by
  by_cases h1 : ∃ n r, var = false ∧ ps = [(n, r)]
  · obtain ⟨n, r, rfl, rfl⟩ := h1
    simp only [assignExpr] at h
    obtain ⟨t, _, h⟩ := andThen_ok.1 h
    split at h
    · cases h
    · cases h
    · split at h
      · exact putAt_head h
      · next hd =>
        split at h
        · next hc => obtain ⟨hm, rfl⟩ := mk_ok h; exact ⟨hm, hc⟩
        · next hc =>
          split at h
          · next hp => obtain ⟨hm, rfl⟩ := mk_ok h; exact ⟨hm, hp, hc⟩
          · next hp =>
            obtain ⟨hm, rfl⟩ := mk_ok h
            refine ⟨hm, ?_⟩
            simp only [heads, List.mem_singleton, forall_eq]
            exact ⟨hd, fun _ => ⟨hc, hp⟩⟩
  · have h2 : assignExpr st ps var = if ps.any (fun kv => decide ('.' ∈ kv.1.toList)) then .error pretty
        else andThen (seqN ps) fun vs => if var then mk (.let_ vs) else mk (.setVar vs) := by
      match var, ps with
      | true, _ => rfl
      | false, [] => rfl
      | false, [(n, r)] => exact absurd ⟨n, r, rfl, rfl⟩ h1
      | false, _ :: _ :: _ => rfl
    rw [h2] at h
    split at h
    · cases h
    · next hd =>
      obtain ⟨vs, hvs, h⟩ := andThen_ok.1 h
      have hk := seqN_keys hvs
      have hd' : ∀ kv ∈ vs, NoDot kv.1 := by
        intro kv hkv hdot
        apply hd
        have : kv.1 ∈ ps.map Prod.fst := hk ▸ List.mem_map_of_mem (f := Prod.fst) hkv
        obtain ⟨kv', hm, he⟩ := List.mem_map.1 this
        exact List.any_eq_true.2 ⟨kv', hm, by simpa [he] using hdot⟩
      split at h
      · obtain ⟨hm, rfl⟩ := mk_ok h; exact ⟨hm, hd'⟩
      · next hv =>
        obtain ⟨hm, rfl⟩ := mk_ok h
        refine ⟨hm, hd', fun hl => absurd ?_ h1⟩
        have hl' : ps.length = 1 := by have := congrArg List.length hk; simpa [hl] using this.symm
        obtain ⟨⟨n, r⟩, hp⟩ := List.length_eq_one_iff.1 hl'
        exact ⟨n, r, by simpa using hv, hp⟩

theorem jsonExpr_head {td v : Val} {e : X} (h : jsonExpr td v = .ok e) : made e = true ∧ heads st e := by
  unfold jsonExpr at h
  split at h
  · injection h with h; subst h; exact ⟨rfl, trivial⟩
  · obtain ⟨hm, rfl⟩ := mk_ok h; exact ⟨hm, trivial⟩
  · obtain ⟨hm, rfl⟩ := mk_ok h; exact ⟨hm, trivial⟩
  · obtain ⟨hm, rfl⟩ := mk_ok h; exact ⟨hm, trivial⟩
  · obtain ⟨hm, rfl⟩ := mk_ok h; exact ⟨hm, trivial⟩
  · cases v <;> simp only [litStr, reduceCtorEq] at h
    obtain ⟨hm, rfl⟩ := mk_ok h; exact ⟨hm, trivial⟩
  · cases v <;> simp only [litBytes, reduceCtorEq] at h
    obtain ⟨bs, _, h⟩ := andThen_ok.1 h
    obtain ⟨hm, rfl⟩ := mk_ok h; exact ⟨hm, trivial⟩
  · obtain ⟨hm, rfl⟩ := mk_ok h; exact ⟨hm, trivial⟩

theorem fills_ne_nil {m : Mini} {ms : List Mini} (h : (m :: ms).all Mini.isParam = true) : fills (m :: ms) (views st (m :: ms)) ≠ [] := by
  cases m <;> simp [Mini.isParam, fills, views] at h ⊢

theorem newExpr_head {as : List Mini} {e : X} (h : newExpr st as (views st as) = .ok e) : made e = true ∧ heads st e := by
  match as with
  | [] => cases h
  | [_] => cases h
  | t :: a :: as =>
    simp only [views, newExpr] at h
    obtain ⟨td, _, h⟩ := andThen_ok.1 h
    split at h
    · split at h
      · cases h
      · obtain ⟨is, hi, h⟩ := andThen_ok.1 h
        obtain ⟨hm, rfl⟩ := mk_ok h
        refine ⟨hm, ?_⟩
        have := seq_length hi
        rintro rfl
        simp at this
    · split at h
      · cases h
      · next hp =>
        obtain ⟨fs, hf, h⟩ := andThen_ok.1 h
        obtain ⟨hm, rfl⟩ := mk_ok h
        refine ⟨hm, asDict_ne_nil ?_⟩
        rintro rfl
        have := seqN_keys hf
        have h2 := fills_ne_nil (st := st) (m := a) (ms := as) (by simpa using hp)
        simp only [views] at h2
        simp only [List.map_nil, List.nil_eq, List.map_eq_nil_iff] at this
        exact h2 this

theorem errorExpr_head {as : List Mini} {e : X} (h : errorExpr as = .ok e) : made e = true ∧ heads st e := by
  obtain ⟨code, _, h⟩ := andThen_ok.1 h
  split at h
  · split at h
    · split at h
      · obtain ⟨hm, rfl⟩ := mk_ok h; exact ⟨hm, trivial⟩
      · obtain ⟨hm, rfl⟩ := mk_ok h; exact ⟨hm, trivial⟩
      · cases h
    · cases h
  · cases h

/-- The node at the top of an expression that a call makes. -/
theorem callExpr_head {n : String} {as : List Mini} {e : X} (h : callExpr st n as (views st as) = .ok e) : made e = true ∧ heads st e := by
  by_cases hn : n ∈ formNames
  · simp only [formNames, List.mem_cons, List.not_mem_nil, or_false] at hn
    rcases hn with rfl | rfl | rfl | rfl | rfl | rfl | rfl | rfl | rfl | rfl | rfl | rfl | rfl | rfl | rfl | rfl <;>
      simp only [callExpr, String.reduceEq, if_true, if_false] at h
    · split at h
      · obtain ⟨_, _, h⟩ := andThen_ok.1 h
        obtain ⟨_, _, h⟩ := andThen_ok.1 h
        exact jsonExpr_head h
      · cases h
    iterate 4
      · split at h
        · obtain ⟨_, _, h⟩ := andThen_ok.1 h
          obtain ⟨_, _, h⟩ := andThen_ok.1 h
          obtain ⟨hm, rfl⟩ := mk_ok h; exact ⟨hm, trivial⟩
        · cases h
    · split at h
      · obtain ⟨v, _, h⟩ := andThen_ok.1 h
        exact jsonExpr_head (td := .str "string") (v := v) h
      · cases h
    · split at h
      · obtain ⟨v, _, h⟩ := andThen_ok.1 h
        exact jsonExpr_head (td := .str "bytes") (v := v) h
      · cases h
    · obtain ⟨_, _, h⟩ := andThen_ok.1 h
      obtain ⟨hm, rfl⟩ := mk_ok h; exact ⟨hm, trivial⟩
    · split at h
      · obtain ⟨_, _, h⟩ := andThen_ok.1 h
        obtain ⟨_, _, h⟩ := andThen_ok.1 h
        obtain ⟨hm, rfl⟩ := mk_ok h; exact ⟨hm, trivial⟩
      · cases h
    · split at h
      · obtain ⟨_, _, h⟩ := andThen_ok.1 h
        obtain ⟨_, _, h⟩ := andThen_ok.1 h
        obtain ⟨hm, rfl⟩ := mk_ok h; exact ⟨hm, trivial⟩
      · obtain ⟨_, _, h⟩ := andThen_ok.1 h
        cases h
      · cases h
    · exact newExpr_head h
    · split at h
      · obtain ⟨_, _, h⟩ := andThen_ok.1 h
        obtain ⟨_, _, h⟩ := andThen_ok.1 h
        obtain ⟨hm, rfl⟩ := mk_ok h; exact ⟨hm, trivial⟩
      · cases h
    · split at h
      · cases h
      · obtain ⟨_, _, h⟩ := andThen_ok.1 h
        obtain ⟨hm, rfl⟩ := mk_ok h; exact ⟨hm, trivial⟩
    · split at h
      · obtain ⟨hm, rfl⟩ := mk_ok h; exact ⟨hm, trivial⟩
      · cases h
    · exact errorExpr_head h
    · obtain ⟨_, _, h⟩ := andThen_ok.1 h
      obtain ⟨_, _, h⟩ := andThen_ok.1 h
      obtain ⟨hm, rfl⟩ := mk_ok h; exact ⟨hm, trivial⟩
  · rw [callExpr_other hn] at h
    split at h
    · obtain ⟨_, _, h⟩ := andThen_ok.1 h
      obtain ⟨hm, rfl⟩ := mk_ok h; exact ⟨hm, hn⟩
    · obtain ⟨_, _, h⟩ := andThen_ok.1 h
      obtain ⟨hm, rfl⟩ := mk_ok h; exact ⟨hm, hn⟩

/-- An `if` whose constructor was not asked about the else clause. -/
def looseIf : X → Bool
  | .if_ p t _ => made (.if_ p t [])
  | _ => false

theorem ifExpr_head {ps : List (View × View)} {el : Option View} {e : X} (h : ifExpr ps el = .ok e) :
    (made e = true ∨ looseIf e = true) ∧ heads st e := by
  obtain ⟨ifs, hi, h⟩ := andThen_ok.1 h
  obtain ⟨es, _, h⟩ := andThen_ok.1 h
  split at h
  · next p t x =>
    injection h with h; subst h
    refine ⟨.inr ?_, trivial⟩
    match ps, hi with
    | [], hi => simp [seq] at hi
    | pv :: ps, hi =>
      simp only [List.map_cons] at hi
      cases hr : (andThen pv.2.body fun t => andThen pv.1.expr fun p => mk (.if_ p t [])) with
      | error e => rw [hr] at hi; simp [seq] at hi
      | ok y =>
        rw [hr] at hi
        simp only [seq] at hi
        split at hi
        · injection hi with hi
          injection hi with h1 _
          subst h1
          obtain ⟨_, _, hr⟩ := andThen_ok.1 hr
          obtain ⟨_, _, hr⟩ := andThen_ok.1 hr
          obtain ⟨hm, h2⟩ := mk_ok hr
          injection h2 with h2 h3 h4
          subst h2 h3
          exact hm
        · cases hi
  · next hne =>
    split at h
    · cases h
    · obtain ⟨hm, rfl⟩ := mk_ok h
      refine ⟨.inl hm, ?_⟩
      simp only [made, Bool.and_eq_true] at hm
      match ifs, hm, hne with
      | [], hm, _ => simp at hm
      | [x], hm, hne =>
        have : isIf x = true := by simpa using hm.1.1
        cases x <;> simp [isIf] at this
        exact absurd rfl (hne _ _ _)
      | _ :: _ :: _, _, _ => simp [heads]

/-- **Whatever tree the parser gives: the constructors' conditions hold for the result, except for the else clause of an `if`, and so
do the conditions `heads`.** -/
theorem asExpr_head {m : Mini} (hs : ∀ s, m ≠ .subs s) {e : X} (h : asExpr st m = .ok e) : (made e = true ∨ looseIf e = true) ∧ heads st e := by
  have l : made e = true ∧ heads st e → (made e = true ∨ looseIf e = true) ∧ heads st e := fun h => ⟨.inl h.1, h.2⟩
  cases m with
  | subs s => exact absurd rfl (hs s)
  | genGet x as =>
    simp only [asExpr, view, View.of] at h
    obtain ⟨x, _, h⟩ := andThen_ok.1 h
    obtain ⟨p, _, h⟩ := andThen_ok.1 h
    obtain ⟨hm, rfl⟩ := mk_ok h
    refine l ⟨hm, ?_⟩
    cases x <;> trivial
  | get n as =>
    simp only [asExpr, view, View.of] at h
    obtain ⟨p, _, h⟩ := andThen_ok.1 h
    exact l (getAt_head h)
  | to_ n as d r i =>
    simp only [asExpr, view, View.of] at h
    exact l (toExpr_head h)
  | enumSymbol t v =>
    simp only [asExpr, view, View.of] at h
    obtain ⟨hm, rfl⟩ := mk_ok h; exact l ⟨hm, trivial⟩
  | dotName n =>
    simp only [asExpr, view, View.of] at h
    exact l (nameExpr_head h)
  | number v =>
    cases v <;> (simp only [asExpr, view, View.of] at h; obtain ⟨hm, rfl⟩ := mk_ok h; exact l ⟨hm, trivial⟩)
  | string v =>
    simp only [asExpr, view, View.of] at h
    obtain ⟨hm, rfl⟩ := mk_ok h; exact l ⟨hm, trivial⟩
  | call n as =>
    simp only [asExpr, view] at h
    exact l (callExpr_head h)
  | block _ => cases h
  | bracketed _ => cases h
  | param k m =>
    simp only [asExpr, view] at h
    obtain ⟨_, _, h⟩ := andThen_ok.1 h
    cases h
  | fcnDef ps r d =>
    simp only [asExpr, view, View.of] at h
    obtain ⟨_, _, h⟩ := andThen_ok.1 h
    obtain ⟨_, _, h⟩ := andThen_ok.1 h
    obtain ⟨_, _, h⟩ := andThen_ok.1 h
    obtain ⟨hm, rfl⟩ := mk_ok h; exact l ⟨hm, trivial⟩
  | if_ ps el =>
    simp only [asExpr, view, View.of] at h
    exact ifExpr_head h
  | asBlock t n b =>
    simp only [asExpr, view, View.of] at h
    obtain ⟨_, _, h⟩ := andThen_ok.1 h
    obtain ⟨_, _, h⟩ := andThen_ok.1 h
    obtain ⟨hm, rfl⟩ := mk_ok h; exact l ⟨hm, trivial⟩
  | cast x as p =>
    simp only [asExpr, view, View.of] at h
    obtain ⟨_, _, h⟩ := andThen_ok.1 h
    obtain ⟨_, _, h⟩ := andThen_ok.1 h
    obtain ⟨hm, rfl⟩ := mk_ok h; exact l ⟨hm, trivial⟩
  | ifNotNull ps t el =>
    simp only [asExpr, view, View.of] at h
    obtain ⟨_, _, h⟩ := andThen_ok.1 h
    obtain ⟨_, _, h⟩ := andThen_ok.1 h
    obtain ⟨_, _, h⟩ := andThen_ok.1 h
    split at h
    · cases h
    · obtain ⟨hm, rfl⟩ := mk_ok h; exact l ⟨hm, trivial⟩
  | unpack b ps t el =>
    simp only [asExpr, view, View.of] at h
    obtain ⟨_, _, h⟩ := andThen_ok.1 h
    obtain ⟨_, _, h⟩ := andThen_ok.1 h
    obtain ⟨_, _, h⟩ := andThen_ok.1 h
    obtain ⟨_, _, h⟩ := andThen_ok.1 h
    split at h
    · cases h
    · obtain ⟨hm, rfl⟩ := mk_ok h; exact l ⟨hm, trivial⟩
  | while_ p b pre =>
    simp only [asExpr, view, View.of] at h
    obtain ⟨_, _, h⟩ := andThen_ok.1 h
    obtain ⟨_, _, h⟩ := andThen_ok.1 h
    split at h <;> (obtain ⟨hm, rfl⟩ := mk_ok h; exact l ⟨hm, trivial⟩)
  | for_ i p s b =>
    simp only [asExpr, view, View.of] at h
    obtain ⟨_, _, h⟩ := andThen_ok.1 h
    obtain ⟨_, _, h⟩ := andThen_ok.1 h
    obtain ⟨_, _, h⟩ := andThen_ok.1 h
    obtain ⟨_, _, h⟩ := andThen_ok.1 h
    obtain ⟨hm, rfl⟩ := mk_ok h; exact l ⟨hm, trivial⟩
  | foreach n a b q =>
    simp only [asExpr, view, View.of] at h
    obtain ⟨_, _, h⟩ := andThen_ok.1 h
    obtain ⟨_, _, h⟩ := andThen_ok.1 h
    obtain ⟨hm, rfl⟩ := mk_ok h; exact l ⟨hm, trivial⟩
  | forkeyval k v m b =>
    simp only [asExpr, view, View.of] at h
    obtain ⟨_, _, h⟩ := andThen_ok.1 h
    obtain ⟨_, _, h⟩ := andThen_ok.1 h
    obtain ⟨hm, rfl⟩ := mk_ok h; exact l ⟨hm, trivial⟩
  | try_ b fs =>
    simp only [asExpr, view, View.of] at h
    cases fs with
    | none =>
      obtain ⟨_, _, h⟩ := andThen_ok.1 h
      obtain ⟨hm, rfl⟩ := mk_ok h; exact l ⟨hm, trivial⟩
    | some fs =>
      simp only [tryExpr] at h
      split at h
      · cases h
      · obtain ⟨_, _, h⟩ := andThen_ok.1 h
        obtain ⟨hm, rfl⟩ := mk_ok h; exact l ⟨hm, trivial⟩
  | genAssign x as r =>
    simp only [asExpr, view, View.of] at h
    obtain ⟨_, _, h⟩ := andThen_ok.1 h
    obtain ⟨_, _, h⟩ := andThen_ok.1 h
    obtain ⟨_, _, h⟩ := andThen_ok.1 h
    obtain ⟨hm, rfl⟩ := mk_ok h; exact l ⟨hm, trivial⟩
  | assign ps var =>
    simp only [asExpr, view, View.of] at h
    exact l (assignExpr_head h)

/-! ## Expressions that cannot be written -/

/-- Removing from a pool cannot be written. -/
theorem poolDel_unsayable_violation {m : Mini} (hs : ∀ s, m ≠ .subs s) (c : String) (d : X) : asExpr st m ≠ .ok (.poolDel c d) :=
  fun h => (asExpr_head hs h).2

/-- Nor can an empty array or object. -/
theorem empty_unsayable_violation {m : Mini} (hs : ∀ s, m ≠ .subs s) (t : Val) :
    asExpr st m ≠ .ok (.newArray [] t) ∧ asExpr st m ≠ .ok (.newObject [] t) :=
  ⟨fun h => (asExpr_head hs h).2 rfl, fun h => (asExpr_head hs h).2 rfl⟩

/-- Nor can a variable with the name of a cell or of a pool, however it was declared. -/
theorem shadow_unsayable_violation {m : Mini} (hs : ∀ s, m ≠ .subs s) {n : String} (hn : n ∈ st.cellNames ∨ n ∈ st.poolNames) :
    asExpr st m ≠ .ok (.ref n) := by
  intro h
  have := (asExpr_head hs h).2
  simp only [heads] at this
  rcases hn with hn | hn
  · exact this.2.2.2.1 hn
  · exact this.2.2.2.2 hn

/-- A `cond` of one branch cannot be written: it becomes an `if`. -/
theorem cond_one_violation {m : Mini} (hs : ∀ s, m ≠ .subs s) (x : X) (el : List X) : asExpr st m ≠ .ok (.cond [x] el) := by
  intro h
  have := (asExpr_head hs h).2
  simp [heads] at this

/-! ## Text that means something else -/

/-- In a call with a parameter `key: value`, every other argument is dropped, whatever it is. -/
theorem fill_drops_violation {n : String} (hn : n ∉ formNames) (x : Mini) (k : String) (v : Mini) (hx : x.isParam = false) :
    asExpr st (.call n [x, .param k v]) = asExpr st (.call n [.param k v]) := by
  simp only [asExpr, view, callExpr_other hn, views]
  cases x <;> simp [Mini.isParam, fills] at hx ⊢

/-- A single assignment to a cell changes the cell; together with another assignment it is taken for a variable. -/
theorem cell_assign_violation {c k : String} (hc : c ∈ st.cellNames) (hdc : NoDot c) (hdk : NoDot k) (i j : Int) :
    asExpr st (.assign [(c, .number (.int i))] false) = .ok (.cellTo c [] (.litInt (.int i))) ∧
    asExpr st (.assign [(c, .number (.int i)), (k, .number (.int j))] false) = .ok (.setVar [(c, .litInt (.int i)), (k, .litInt (.int j))]) := by
  have h1 : '.' ∉ c.toList := hdc
  have h2 : '.' ∉ k.toList := hdk
  constructor <;> simp [asExpr, view, View.of, viewN, assignExpr, Reader.mk, made, pyInt?, allN, isExpr, isArg, andThen, seqN, h1, h2, hc]

/-- The assignment with `=` refuses functions, but not one with filled arguments. -/
theorem assign_fill_violation {c n : String} (hc : c ∈ st.cellNames) (hd : NoDot c) (hn : n ∉ formNames) (k : String) (i : Int) :
    asExpr st (.assign [(c, .call n [.param k (.number (.int i))])] false) =
      .ok (.cellTo c [] (.fcnRefFill n [(k, .litInt (.int i))])) := by
  have h1 : '.' ∉ c.toList := hd
  simp [asExpr, view, View.of, viewN, assignExpr, callExpr_other hn, views, fills, seqN, Mini.isParam, Reader.mk, made, pyInt?, allN, isExpr, isArg, andThen,
    asDict, PyDict.update, PyDict.set, h1, hc]

/-- An else clause that is a function passes, although no `If` can have one. -/
theorem else_unchecked_violation {f p : String} (hf : f ∈ st.functionNames) (hv : f ∉ valueNames) (hp : say st (.ref p)) :
    asExpr st (.if_ [(.dotName p, .number (.int 1))] (some (.dotName f))) = .ok (.if_ (.ref p) [.litInt (.int 1)] [.fcnRef f]) ∧
      made (T := Val) (.if_ (.ref p) [.litInt (.int 1)] [.fcnRef f]) = false := by
  simp only [say] at hp
  have h1 : '.' ∉ p.toList := hp.2.2.1
  refine ⟨?_, rfl⟩
  simp [asExpr, view, View.of, viewP, viewO, ifExpr, seq, nameExpr_value hv, nameExpr_value hp.1, hf, hp.2.1, h1, hp.2.2.2.1, hp.2.2.2.2, Reader.mk, made,
    isExpr, pyInt?, andThen, elseBody]

/-- An error code that is a name is an AttributeError. -/
theorem error_code_violation (s n : String) : asExpr st (.call "error" [.string s, .param "code" (.dotName n)]) = .error noAttr := by
  simp [asExpr, view, callExpr, errorExpr, params, codeOf, andThen]

/-- Of two values for the same key, the first is dropped. -/
theorem duplicate_key_violation (k : String) (i j : Int) {t : Mini} {td : Val} (ht : asType st t = .ok td) (ha : isArrayType td = false) :
    asExpr st (.call "new" [t, .param k (.number (.int i)), .param k (.number (.int j))]) = .ok (.newObject [(k, .litInt (.int j))] td) := by
  simp [asExpr, view, View.of, views, callExpr, newExpr, ht, ha, fills, seqN, Mini.isParam, Reader.mk, made, pyInt?, allN, isExpr, andThen, asDict, PyDict.update, PyDict.set]

/-- The name of a record type is taken from anything that has an attribute `name`, such as a call. -/
theorem record_name_violation {f : String} (hd : NoDot f) (as : List Mini) :
    asType st (.call "record" [.call f as]) = .ok (.dict [("type", .str "record"), ("name", .str f), ("fields", .arr [])]) := by
  simp [asType, callType, recordType, fieldL, andThen, Mini.isParam, nameOf, split_nodot hd, withName]

/-- The name of an enumeration may be substituted, that of a `fixed` type may not. -/
theorem fixed_subs_violation (s : String) (hd : NoDot s) :
    asType st (.call "enum" [.bracketed [.dotName "a"], .subs (.data (.str s))]) =
      .ok (.dict [("type", .str "enum"), ("symbols", .arr [.str "a"]), ("name", .str s)]) ∧
    asType st (.call "fixed" [.number (.int 4), .subs (.data (.str s))]) = .error pretty := by
  simp [asType, callType, enumType, fixedType, dotNames, splitSub, split_nodot hd, andThen, withName]

/-! ## Names with dots -/

theorem dotted {a b : String} (ha : NoDot a) (hb : NoDot b) : base (a ++ "." ++ b) = a ∧ path (a ++ "." ++ b) = [.litString b] := by
  have e : (a ++ "." ++ b).toList = a.toList ++ '.' :: b.toList := by simp
  unfold base path pieces
  rw [e, words_append _ _ hb, words_nodot ha]
  simp

/-- `a.b[i…]` is read at `b`, then at the indexes. -/
theorem dotted_get {a b : String} (ha : say st (.ref a)) (hb : NoDot b) {as : List Mini} {es : List X} (hs : seq ((views st as).map View.expr) = .ok es) :
    asExpr st (.get (a ++ "." ++ b) as) = mk (.attrGet (.ref a) (.litString b :: es)) := by
  simp only [say] at ha
  obtain ⟨h1, h2⟩ := dotted (a := a) (b := b) ha.2.2.1 hb
  simp [asExpr, view, View.of, hs, andThen, h1, h2, getAt, ha.2.2.2.1, ha.2.2.2.2]

/-- `a.b[i…] = r` is written at `b`, then at the indexes. -/
theorem dotted_to {a b : String} (ha : say st (.ref a)) (hb : NoDot b) {as : List Mini} {es : List X} (hs : seq ((views st as).map View.expr) = .ok es)
    {r : Mini} {e : X} (hr : asExpr st r = .ok e) (hf : isFcn e = false) :
    asExpr st (.to_ (a ++ "." ++ b) as true r none) = mk (.attrTo (.ref a) (.litString b :: es) e) := by
  simp only [say] at ha
  obtain ⟨h1, h2⟩ := dotted (a := a) (b := b) ha.2.2.1 hb
  rw [asExpr] at hr
  simp [asExpr, view, View.of, viewO, toExpr, hs, hr, hf, andThen, h1, h2, putAt, ha.2.2.2.1, ha.2.2.2.2]

/-- A string is no name of a record type. -/
theorem record_string_violation (s : String) : asType st (.call "record" [.string s]) = .error noAttr := by
  simp [asType, callType, recordType, fieldL, andThen, Mini.isParam, nameOf]

/-- `int` of a fraction drops what is behind the point. -/
theorem int_fraction {q : ℚ} {i : Int} (h : if 0 ≤ q then (i : ℚ) ≤ q ∧ q < i + 1 else q ≤ i ∧ (i : ℚ) - 1 < q) :
    asExpr st (.call "int" [.number (.flt (.fin q))]) = .ok (.litInt (.int i)) := by
  have e : Arith.trunc q = i := by
    unfold Arith.trunc
    split at h
    · next h0 => rw [if_pos h0]; exact Int.floor_eq_iff.2 h
    · next h0 => rw [if_neg h0]; exact Int.ceil_eq_iff.2 ⟨h.2, h.1⟩
  simp [asExpr, view, View.of, views, callExpr, asJson, pyIntOf, andThen, e, Reader.mk, made, pyInt?]

/-- An array has no names for its items: `new(array(int), k: 1)` is refused. -/
theorem array_param_refused {t : Mini} {td : Val} (ht : asType st t = .ok td) (ha : isArrayType td = true) (k : String) (m : Mini) (as : List Mini) :
    asExpr st (.call "new" (t :: .param k m :: as)) = .error pretty := by
  simp [asExpr, view, View.of, views, callExpr, newExpr, ht, ha, Mini.isParam, andThen]

/-! ## An expression that meets the conditions of `asExpr_mini_partial` -/

/-- A program with a function `u.f`, a cell `c`, and a pool `p`. -/
def sampleSt : St := { functionNames := ["u.f"], cellNames := ["c"], poolNames := ["p"], aliases := [], ppfa := fun _ => .error pretty, pfa := fun _ => .error pretty, toFloat := fun _ => .error pretty }

/-- A loop, a conditional, a cell that is changed, a function as argument and a new record. -/
def sample : X := .do_ [.let_ [("x", .litInt (.int 3)), ("y", .litLong (.int 99999999999))],
  .foreach "z" (.ref "xs") [.cellTo "c" [] (.call "+" [.cellGet "c" [], .ref "z"])] false,
  .cond [.if_ (.call ">" [.ref "x", .litDouble (.flt (.fin (1/2)))]) [.litNull] [], .if_ (.litBool true) [.ref "x"] []] [.litString "a"],
  .call "a.map" [.attrGet (.ref "x") [.litString "k", .litInt (.int 0)], .fcnRef "u.f"],
  .newObject [("k", .ref "x"), ("l", .poolGet "p" [.litString "q"])] (.dict [("type", .str "map"), ("values", .str "int")]),
  .error "bad" (some (-3))]

theorem sample_ok : Say sampleSt sample := by
  have key : ∀ e : X, made e = true → say sampleSt e → (∀ c, Child c e → Say sampleSt c) → Say sampleSt e := by
    intro e h1 h2 hc x hx
    cases hx with
    | refl => exact ⟨h1, h2⟩
    | step hx hy => exact hc _ hy x hx
  have hm : GoodT sampleSt (.dict [("type", .str "map"), ("values", .str "int")]) := .map (.name (by simp [sampleSt, PyDict.keys]))
  unfold sample
  repeat' first
    | (rename_i h; cases h)
    | (refine key _ (by decide +kernel) (by simp [say, sampleSt, NoDot, valueNames, formNames, hm, isArrayType, PyDict.WF, PyDict.keys]; try exact ⟨hm, by decide +kernel⟩) ?_; intro c hc; cases hc)

/-- So it is understood. -/
example : asExpr sampleSt (mini sample) = .ok sample := asExpr_mini_partial sample_ok

/-- The texts of the violations, for this program. -/
example : asExpr sampleSt (.call "u.g" [.dotName "x", .param "k" (.number (.int 1))]) = asExpr sampleSt (.call "u.g" [.param "k" (.number (.int 1))]) ∧
    asExpr sampleSt (.dotName "c") ≠ .ok (.ref "c") ∧ say sampleSt (.ref "x") :=
  ⟨fill_drops_violation (by simp [formNames]) _ _ _ rfl, shadow_unsayable_violation (by simp) (.inl (by simp [sampleSt])),
   by simp [say, sampleSt, NoDot, valueNames]⟩

end Verif.Pretty
