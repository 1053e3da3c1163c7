import Verif.Lang.Control
import Verif.Avro.JsonWit
/-!
# cast and ifnotnull (C54)

`cast` (genpy.py 948-1000) reads the types in the generated code again, takes the tag off a union value,
tries the cases in order and runs the clause of the first one that decodes.
-/

namespace Verif.Lang
open Avro Scope Path Sig

/-! ## Types that survive being read again -/

mutual
/-- No map in the type, unions as the constructor wants them. -/
def mapFree : AType → Bool
  | .array t => mapFree t
  | .map _ => false
  | .union ts => mapFreeL ts && decide ((ts.map AType.name).Nodup) && !decide ("union" ∈ ts.map AType.name)
  | _ => true
@[inherit_doc mapFree] def mapFreeL : List AType → Bool
  | [] => true
  | t :: ts => mapFree t && mapFreeL ts
end

mutual
/-- `getAvroType` gives back types without maps. -/
theorem reparse_id (t : AType) (h : mapFree t = true) : reparse t = .ok t := by
  match t with
  | .array t =>
    rw [reparse, reparse_id t (by simpa [mapFree] using h)]
    rfl
  | .map t => simp [mapFree] at h
  | .union ts =>
    simp only [mapFree, Bool.and_eq_true, decide_eq_true_eq, Bool.not_eq_true', decide_eq_false_iff_not] at h
    rw [reparse, reparseL_id ts h.1.1]
    simp [mkUnion, h.1.2, h.2]
  | .null | .boolean | .int | .long | .float | .double | .bytes | .string => simp [reparse]
  | .fixed _ _ => simp [reparse]
  | .enum _ _ => simp [reparse]
  | .record _ => simp [reparse]
theorem reparseL_id (ts : List AType) (h : mapFreeL ts = true) : reparse.reparseL ts = .ok ts := by
  match ts with
  | [] => rfl
  | t :: ts =>
    simp only [mapFreeL, Bool.and_eq_true] at h
    rw [reparse.reparseL, reparse_id t h.1, reparseL_id ts h.2]
    rfl
end

/-! ## Which case -/

/-- A tag names the type of a case: the same name, or a numeric type that widens to it. -/
inductive TagFits : String → String → Prop
  | same (n : String) : TagFits n n
  | intLong : TagFits "int" "long"
  | intFloat : TagFits "int" "float"
  | intDouble : TagFits "int" "double"
  | longFloat : TagFits "long" "float"
  | longDouble : TagFits "long" "double"
  | floatDouble : TagFits "float" "double"

theorem tagFits_iff (tag name : String) : tagFits tag name = true ↔ TagFits tag name := by
  constructor
  · intro h
    simp only [tagFits, Bool.or_eq_true, Bool.and_eq_true, beq_iff_eq] at h
    rcases h with ((rfl | ⟨rfl, (rfl | rfl) | rfl⟩) | ⟨rfl, rfl | rfl⟩) | ⟨rfl, rfl⟩
    · exact .same _
    · exact .intLong
    · exact .intFloat
    · exact .intDouble
    · exact .longFloat
    · exact .longDouble
    · exact .floatDouble
  · intro h
    cases h <;> simp [tagFits]

/-- The type of a case takes the value: the tag fits, or the value is not tagged; decoding gives `y`. -/
inductive Takes (decode : AType → Val → Res Val) (fromUnion : Bool) : AType → Val → Val → Prop
  | tagged {t : AType} {tag : String} {x y : Val} (hu : fromUnion = true) (ht : TagFits tag t.name)
      (hd : decode t x = .ok y) : Takes decode fromUnion t (.dict [(tag, x)]) y
  | plain {t : AType} {v y : Val} (hu : fromUnion = false ∨ ∀ tag x, v ≠ .dict [(tag, x)])
      (hd : decode t v = .ok y) : Takes decode fromUnion t v y

/-- The type of a case does not take the value. -/
inductive Leaves (decode : AType → Val → Res Val) (fromUnion : Bool) : AType → Val → Prop
  | tag {t : AType} {tag : String} {x : Val} (hu : fromUnion = true) (ht : ¬ TagFits tag t.name) :
      Leaves decode fromUnion t (.dict [(tag, x)])
  | tagged {t : AType} {tag : String} {x : Val} {e : Err} (hu : fromUnion = true) (ht : TagFits tag t.name)
      (hd : decode t x = .error e) (he : e = .avro ∨ e = .py "TypeError") : Leaves decode fromUnion t (.dict [(tag, x)])
  | plain {t : AType} {v : Val} {e : Err} (hu : fromUnion = false ∨ ∀ tag x, v ≠ .dict [(tag, x)])
      (hd : decode t v = .error e) (he : e = .avro ∨ e = .py "TypeError") : Leaves decode fromUnion t v

theorem candidate_plain {fu : Bool} {v : Val} (hu : fu = false ∨ ∀ tag x, v ≠ .dict [(tag, x)]) (name : String) :
    candidate fu name v = some v := by
  unfold candidate
  split
  · next tag x =>
    rcases hu with hu | hu
    · cases hu
    · exact absurd rfl (hu tag x)
  · rfl

theorem castPick_takes {decode : AType → Val → Res Val} {fu : Bool} {t : AType} {v y : Val} (hm : mapFree t = true)
    (h : Takes decode fu t v y) (ts : List AType) : castPick decode fu v (t :: ts) = .ok (some (0, y)) := by
  rw [castPick, reparse_id t hm]
  cases h with
  | tagged hu ht hd =>
    subst hu
    simp only [candidate, (tagFits_iff _ _).mpr ht, if_true, hd]
  | plain hu hd => simp only [candidate_plain hu, hd]

theorem castPick_leaves {decode : AType → Val → Res Val} {fu : Bool} {t : AType} {v : Val} (hm : mapFree t = true)
    (h : Leaves decode fu t v) (ts : List AType) :
    castPick decode fu v (t :: ts) = Res.app (Option.map (fun p => (p.1 + 1, p.2))) (castPick decode fu v ts) := by
  rw [castPick, reparse_id t hm]
  cases h with
  | tag hu ht =>
    subst hu
    simp only [candidate]
    rw [if_neg (fun h => ht ((tagFits_iff _ _).mp h))]
  | tagged hu ht hd he =>
    subst hu
    simp only [candidate, (tagFits_iff _ _).mpr ht, if_true, hd]
    rw [if_pos he]
  | plain hu hd he =>
    simp only [candidate_plain hu, hd]
    rw [if_pos he]

theorem castPick_first {decode : AType → Val → Res Val} {fu : Bool} {v y : Val} {t : AType} {pre post : List AType}
    (hm : ∀ u ∈ pre, mapFree u = true) (hl : ∀ u ∈ pre, Leaves decode fu u v) (hmt : mapFree t = true)
    (ht : Takes decode fu t v y) : castPick decode fu v (pre ++ t :: post) = .ok (some (pre.length, y)) := by
  induction pre with
  | nil => exact castPick_takes hmt ht post
  | cons u pre ih =>
    rw [List.cons_append, castPick_leaves (hm u (by simp)) (hl u (by simp)),
      ih (fun w hw => hm w (by simp [hw])) (fun w hw => hl w (by simp [hw]))]
    rfl

theorem isUnion_reparse {t : AType} (h : mapFree t = true) : ∃ u, reparse t = .ok u ∧ isUnion u = isUnion t :=
  ⟨t, reparse_id t h, rfl⟩

/-- **C54, cast, for types without maps.**  The first case that takes the value runs, with the untagged
value bound to its name, and no other case runs; with `partial` the value is null. -/
theorem cast_first_partial {decode : AType → Val → Res Val} {v y : Val} {from_ t : AType} {x : String}
    {clause : M Val} {pre post : List (String × AType × M Val)} {part : Bool} {s s' : St} {r : Res Val}
    (hf : mapFree from_ = true) (hm : ∀ c ∈ pre, mapFree c.2.1 = true)
    (hl : ∀ c ∈ pre, Leaves decode (isUnion from_) c.2.1 v) (hmt : mapFree t = true)
    (ht : Takes decode (isUnion from_) t v y) (hc : Run (inFrame [(x, y)] clause) s r s') :
    Run (castM decode v from_ (pre ++ (x, t, clause) :: post) part) s
      (Res.app (fun out => if part then .null else out) r) s' := by
  have hp : castPick decode (isUnion from_) v ((pre ++ (x, t, clause) :: post).map (fun c => c.2.1)) =
      .ok (some (pre.length, y)) := by
    rw [List.map_append, List.map_cons]
    have := castPick_first (decode := decode) (fu := isUnion from_) (v := v) (y := y) (t := t)
      (pre := pre.map (fun c => c.2.1)) (post := post.map (fun c => c.2.1))
      (by intro u hu; obtain ⟨c, hc, rfl⟩ := List.mem_map.1 hu; exact hm c hc)
      (by intro u hu; obtain ⟨c, hc, rfl⟩ := List.mem_map.1 hu; exact hl c hc) hmt ht
    rw [this, List.length_map]
  unfold Run castM
  rw [reparse_id from_ hf]
  simp only [hp]
  rw [List.getElem?_append_right (Nat.le_refl _)]
  simp only [Nat.sub_self, List.getElem?_cons_zero]
  rw [run_bind, hc]
  cases r with
  | ok a => rfl
  | error e => rfl

/-- **C54, some case runs, for types without maps.**  If some case takes the value and the decoding
of the cases before it only fails in the ways that `cast` catches, a clause runs. -/
theorem castPick_some {decode : AType → Val → Res Val} {fu : Bool} {v : Val} (ts : List AType)
    (hm : ∀ t ∈ ts, mapFree t = true) (hd : ∀ t ∈ ts, (∃ y, Takes decode fu t v y) ∨ Leaves decode fu t v)
    (hs : ∃ t ∈ ts, ∃ y, Takes decode fu t v y) : ∃ i y, i < ts.length ∧ castPick decode fu v ts = .ok (some (i, y)) := by
  induction ts with
  | nil => obtain ⟨t, ht, _⟩ := hs; cases ht
  | cons t ts ih =>
    rcases hd t (by simp) with ⟨y, hy⟩ | hl
    · exact ⟨0, y, by simp, castPick_takes (hm t (by simp)) hy ts⟩
    · have : ∃ t ∈ ts, ∃ y, Takes decode fu t v y := by
        obtain ⟨u, hu, y, hy⟩ := hs
        rcases List.mem_cons.1 hu with rfl | hu
        · have h1 := castPick_takes (hm u (by simp)) hy ts
          rw [castPick_leaves (hm u (by simp)) hl] at h1
          exfalso
          cases hc : castPick decode fu v ts with
          | error e => rw [hc] at h1; cases h1
          | ok o =>
            rw [hc] at h1
            cases o with
            | none => cases h1
            | some p => simp [Res.app] at h1
        · exact ⟨u, hu, y, hy⟩
      obtain ⟨i, y, hi, h⟩ := ih (fun u hu => hm u (by simp [hu])) (fun u hu => hd u (by simp [hu])) this
      refine ⟨i + 1, y, by simp; omega, ?_⟩
      rw [castPick_leaves (hm t (by simp)) hl, h]
      rfl

/-! ## The check of CastBlock covers every datum -/

theorem same_name {a b : AType} (h : Same a b) : a.name = b.name := by cases h <;> rfl

theorem same_conf {env : Env} {a b : AType} (h : Same a b) : ∀ {v : Val}, Conf strict env b v → Conf strict env a v := by
  induction h with
  | refl t => exact fun h => h
  | enum n hs => intro v h; cases h with | enum h => exact .enum ((hs _).mpr h)
  | array _ ih => intro v h; cases h with | array h => exact .array (fun x hx => ih (h x hx))
  | map _ ih => intro v h; cases h with | map hw h => exact .map hw (fun k x hx => ih (h k x hx))

/-- **C54, the check is enough, for types without maps and inner unions.**  Under the condition that
`CastBlock.walk` checks without `partial` (pfaast.py 5178-5185: for every member of the union a case that accepts
it and is accepted by it), every conforming datum runs some clause, provided that decoding the datum with
the other cases fails, if it fails, with an exception that `cast` catches. -/
theorem cast_covers_partial {pf : List Char → Option Flt} {env : Env} {U : AType → Prop} (hU : Tags env U)
    {ts types : List AType} {v : Val} (hv : Conf strict env (.union ts) v)
    (hmem : ∀ m ∈ ts, m.unionFree = true ∧ mapFree m = true)
    (hcase : ∀ u ∈ types, u.unionFree = true ∧ mapFree u = true ∧ U u)
    (hcov : ∀ m ∈ ts, ∃ u ∈ types, accepts env env u m = true ∧ accepts env env m u = true)
    (hclean : ∀ n, ∀ u ∈ types, ∀ x e, dec pf env n u x = .error e → (v = x ∨ ∃ tag, v = .dict [(tag, x)]) →
      e = recErr ∨ e = .avro ∨ e = .py "TypeError") :
    ∃ N, ∀ n ≥ N, (∀ u ∈ types, ∀ x, (v = x ∨ ∃ tag, v = .dict [(tag, x)]) → dec pf env n u x ≠ .error recErr) →
      ∃ i y, i < types.length ∧ castPick (dec pf env n) true v types = .ok (some (i, y)) := by
  have total : ∀ n, (∀ u ∈ types, ∀ x, (v = x ∨ ∃ tag, v = .dict [(tag, x)]) → dec pf env n u x ≠ .error recErr) →
      ∀ u ∈ types, (∃ y, Takes (dec pf env n) true u v y) ∨ Leaves (dec pf env n) true u v := by
    intro n hrec u hu
    by_cases hp : ∀ tag x, v ≠ .dict [(tag, x)]
    · cases hd : dec pf env n u v with
      | ok y => exact .inl ⟨y, .plain (.inr hp) hd⟩
      | error e =>
        rcases hclean n u hu v e hd (.inl rfl) with rfl | he
        · exact absurd hd (hrec u hu v (.inl rfl))
        · exact .inr (.plain (.inr hp) hd he)
    · push Not at hp
      obtain ⟨tag, x, rfl⟩ := hp
      by_cases ht : TagFits tag u.name
      · cases hd : dec pf env n u x with
        | ok y => exact .inl ⟨y, .tagged rfl ht hd⟩
        | error e =>
          rcases hclean n u hu x e hd (.inr ⟨tag, rfl⟩) with rfl | he
          · exact absurd hd (hrec u hu x (.inr ⟨tag, rfl⟩))
          · exact .inr (.tagged rfl ht hd he)
      · exact .inr (.tag rfl ht)
  have takes : ∃ u ∈ types, ∃ N, ∀ n ≥ N, ∃ y, Takes (dec pf env n) true u v y := by
    cases hv with
    | unionNull hm =>
      obtain ⟨u, hu, h1, h2⟩ := hcov _ hm
      have hs := mutual_partial env env u .null (hcase u hu).1 rfl h1 h2
      obtain ⟨y, ⟨N, hN⟩, _⟩ := dec_fix (pf := pf) strict_plain hU (hcase u hu).2.2 (same_conf hs .null)
      exact ⟨u, hu, N, fun n hn => ⟨y, .plain (.inr (fun _ _ h => by cases h)) (hN n hn)⟩⟩
    | unionNullTag h => exact absurd h strict_plain.nullTag
    | @union _ m x hm hne hx =>
      obtain ⟨u, hu, h1, h2⟩ := hcov m hm
      have hs := mutual_partial env env u m (hcase u hu).1 (hmem m hm).1 h1 h2
      obtain ⟨y, ⟨N, hN⟩, _⟩ := dec_fix (pf := pf) strict_plain hU (hcase u hu).2.2 (same_conf hs hx)
      exact ⟨u, hu, N, fun n hn => ⟨y, .tagged rfl (by rw [same_name hs]; exact .same _) (hN n hn)⟩⟩
  obtain ⟨u, hu, N, hN⟩ := takes
  exact ⟨N, fun n hn hrec => castPick_some types (fun t ht => (hcase t ht).2.1) (total n hrec) ⟨u, hu, hN n hn⟩⟩

/-! ## Where cast goes wrong -/

/-- **C54 fails for maps.**  The generated code reads `{"type": "map", ...}` back as an array
(datatype.py 804-805), so the case of a map never runs and the cast block, not declared `partial`, is null. -/
theorem cast_map_violation (pf : List Char → Option Flt) (n : Nat) (clause1 clause2 : M Val) (s : St) :
    Conf strict [] (.union [.null, .map .int]) (.dict [("map", .dict [("a", .int 1)])]) ∧
    castM (dec pf [] (n + 1)) (.dict [("map", .dict [("a", .int 1)])]) (.union [.null, .map .int])
      [("x", .null, clause1), ("y", .map .int, clause2)] false s = (.ok .null, s) := by
  refine ⟨.union (t := .map .int) (by simp) (by simp) (.map (by simp [PyDict.WF, PyDict.keys]) ?_), ?_⟩
  · intro k x h
    simp only [List.mem_singleton, Prod.mk.injEq] at h
    obtain ⟨_, rfl⟩ := h
    exact .int (by simp [strict])
  · rfl

/-- **C54 fails for a union of an array and a map**: read back, it has two arrays, which is an error. -/
theorem cast_array_map_violation (decode : AType → Val → Res Val) (v : Val)
    (cases : List (String × AType × M Val)) (part : Bool) (s : St) :
    castM decode v (.union [.array .int, .map .int]) cases part s = (.error .avro, s) := rfl

/-- **A number that is not in a union has no tag**: the cases are tried by decoding, and `int` takes every
finite double, cutting off the fraction. -/
theorem cast_truncates_violation (pf : List Char → Option Flt) (n : Nat) (clause1 clause2 : M Val) (s : St) :
    castM (dec pf [] (n + 1)) (.flt (.fin (7 / 2))) .double [("x", .int, clause1), ("y", .double, clause2)] false s =
      inFrame [("x", .int 3)] clause1 s := by
  have h : Arith.trunc (7 / 2 : Rat) = 3 := by decide +kernel
  simp only [castM, reparse, castPick, isUnion, List.map, candidate, dec, decStep, toInt, Res.app, h]
  show (inFrame [("x", Val.int 3)] clause1 >>= fun out => pure out) s = _
  rw [run_bind]
  rcases inFrame [("x", Val.int 3)] clause1 s with ⟨_ | _, _⟩ <;> rfl

/-- **A case of a wider type before the right one takes the value**, and it arrives as a double. -/
theorem cast_widens (pf : List Char → Option Flt) (n : Nat) :
    castPick (dec pf [] (n + 1)) true (.dict [("int", .int 1)]) [.double, .int] = .ok (some (0, .flt (.fin (Arith.rnd 1)))) := by
  rw [castPick_takes (t := .double) (y := .flt (.fin (Arith.rnd 1))) rfl]
  refine .tagged rfl .intDouble ?_
  have : (1 : Int).natAbs < dblLimit := by unfold dblLimit; decide +kernel
  simp only [dec, decStep, toFlt, intToFlt, if_pos this, Res.app]
  rfl

/-! ## ifnotnull -/

/-- **C54, ifnotnull.**  No listed value is null: the then clause runs with the untagged values. -/
theorem ifNotNull_then {vs : List (String × AType × Val)} {c d : M Val} (h : ∀ x ∈ vs, x.2.2 ≠ .null) :
    ifNotNullElse vs c d = inFrame (PyDict.update [] (vs.map (fun x => (x.1, untag x.2.1 x.2.2)))) c := by
  unfold ifNotNullElse
  rw [if_pos]
  rw [List.all_eq_true]
  intro x hx
  have := h x hx
  revert this
  cases x.2.2 <;> simp [notNull]

/-- **C54, ifnotnull.**  Some listed value is null: the else clause runs. -/
theorem ifNotNull_else {vs : List (String × AType × Val)} {c d : M Val} (h : ∃ x ∈ vs, x.2.2 = .null) :
    ifNotNullElse vs c d = d := by
  unfold ifNotNullElse
  rw [if_neg]
  intro hall
  obtain ⟨x, hx, hn⟩ := h
  have := List.all_eq_true.1 hall x hx
  rw [hn] at this
  cases this

/-- **C54, ifnotnull, untagging, for types without namespace.**  The value of a member `t` comes without tag. -/
theorem untag_partial (t : AType) (x : Val) (hn : expectedTag t = some t.name) : untag t (.dict [(t.name, x)]) = x := by
  unfold untag
  simp [hn]

/-- When the expected tag is the tag. -/
theorem expectedTag_iff (t : AType) : expectedTag t = some t.name ↔
    isUnion t = false ∧ ∀ n, (∃ k, t = .fixed n k) ∨ (∃ s, t = .enum n s) ∨ t = .record n → n.ns = "" := by
  have key : ∀ n : Name, ((if n.ns = "" then n.short else n.ns ++ "." ++ n.short) = n.short) ↔ n.ns = "" := by
    intro n
    by_cases h : n.ns = ""
    · simp [h]
    · simp only [h, if_false, iff_false]
      intro he
      have h2 := congrArg String.length he
      simp only [String.length_append] at h2
      have h1 : 0 < String.length n.ns := by
        rcases Nat.eq_zero_or_pos (String.length n.ns) with h0 | h0
        · exact absurd (String.length_eq_zero_iff.mp h0) h
        · exact h0
      omega
  cases t <;> simp [expectedTag, isUnion, AType.name, key]

/-- **C54 fails for namespaced types**: `untagUnions` compares the tag, which is the short name, with
the full name (genpy.py 1035-1043), so the variable of the then clause is bound to the tagged value. -/
theorem untag_namespace_violation (x : Val) :
    untag (.record ⟨"com.example", "R"⟩) (.dict [("R", x)]) = .dict [("R", x)] := by
  have : expectedTag (.record ⟨"com.example", "R"⟩) = some "com.example.R" := by decide
  simp [untag, this]

/-! ## Cases that meet the hypotheses -/

example : Takes (dec (fun _ => none) [] 1) true .string (.dict [("string", .str "a")]) (.str "a") := .tagged rfl (.same _) rfl
example : Leaves (dec (fun _ => none) [] 1) true .int (.dict [("string", .str "a")]) := .tag rfl (by rw [← tagFits_iff]; decide)
example : mapFree (.union [.null, .array .int, .record ⟨"", "R"⟩]) = true := by decide
example : ∀ m ∈ [AType.null, .string], ∃ u ∈ [AType.string, .null], accepts [] [] u m = true ∧ accepts [] [] m u = true := by decide
example : ∀ x ∈ [("x", AType.int, Val.int 1)], x.2.2 ≠ .null := by simp

end Verif.Lang
