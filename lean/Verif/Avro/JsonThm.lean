import Verif.Avro.Json
import Mathlib.Data.List.Forall2
/-!
# Decoder soundness (C08) and the encode-decode round trip (C07)
-/

namespace Verif.Avro

/-! ## Results -/

theorem app_ok {α β : Type} {c : α → β} {r : Res α} {y : β} : Res.app c r = .ok y ↔ ∃ a, r = .ok a ∧ c a = y := by
  cases r <;> simp [Res.app]

theorem app_err {α β : Type} {c : α → β} {r : Res α} {e : Err} : Res.app c r = .error e ↔ r = .error e := by
  cases r <;> simp [Res.app]

theorem mapR_ok {α β : Type} {f : α → Res β} {xs : List α} {ys : List β} :
    mapR f xs = .ok ys ↔ List.Forall₂ (fun x y => f x = .ok y) xs ys := by
  induction xs generalizing ys with
  | nil => simp only [mapR, List.forall₂_nil_left_iff]; constructor <;> (intro h; cases h; rfl)
  | cons x xs ih =>
    simp only [mapR]
    cases h1 : f x with
    | error e =>
      constructor
      · intro h; cases h
      · intro h
        cases h with
        | cons h' _ => rw [h1] at h'; cases h'
    | ok y =>
      cases h2 : mapR f xs with
      | error e =>
        constructor
        · intro h; cases h
        · intro h
          cases h with
          | cons _ h' => rw [← ih] at h'; rw [h2] at h'; cases h'
      | ok zs =>
        constructor
        · intro h; cases h
          exact .cons h1 (ih.1 h2)
        · intro h
          cases h with
          | cons h' h'' =>
            rw [h1] at h'; cases h'
            rw [← ih, h2] at h''; cases h''; rfl

theorem mapR_err {α β : Type} {f : α → Res β} {xs : List α} {e : Err} (h : mapR f xs = .error e) :
    ∃ x ∈ xs, f x = .error e := by
  induction xs with
  | nil => cases h
  | cons x xs ih =>
    simp only [mapR] at h
    cases h1 : f x with
    | error e' => rw [h1] at h; cases h; exact ⟨x, by simp, h1⟩
    | ok y =>
      rw [h1] at h
      cases h2 : mapR f xs with
      | error e' =>
        rw [h2] at h; cases h
        obtain ⟨z, hz, he⟩ := ih h2
        exact ⟨z, by simp [hz], he⟩
      | ok zs => rw [h2] at h; cases h

theorem mapR_map {α β : Type} {f : α → Res β} {g : α → β} {xs : List α} (h : ∀ x ∈ xs, f x = .ok (g x)) :
    mapR f xs = .ok (xs.map g) := by
  induction xs with
  | nil => rfl
  | cons x xs ih =>
    simp only [mapR, h x (by simp), ih (fun y hy => h y (by simp [hy])), List.map_cons]

theorem mapD_ok {f : Val → Res Val} {d e : List (String × Val)} (h : mapD f d = .ok e) :
    PyDict.keys e = PyDict.keys d ∧ ∀ k y, (k, y) ∈ e → ∃ x, (k, x) ∈ d ∧ f x = .ok y := by
  unfold mapD at h
  rw [mapR_ok] at h
  induction h with
  | nil => simp [PyDict.keys]
  | @cons kv ky d e h1 h2 ih =>
    cases hf : f kv.2 with
    | error _ => rw [hf] at h1; cases h1
    | ok y =>
      rw [hf] at h1; cases h1
      refine ⟨by simp [PyDict.keys] at ih ⊢; exact ih.1, ?_⟩
      intro k z hz
      rcases List.mem_cons.1 hz with hz | hz
      · cases hz; exact ⟨kv.2, by simp, hf⟩
      · obtain ⟨x, hx, hfx⟩ := ih.2 k z hz
        exact ⟨x, by simp [hx], hfx⟩

theorem mapD_err {f : Val → Res Val} {d : List (String × Val)} {e : Err} (h : mapD f d = .error e) :
    ∃ k x, (k, x) ∈ d ∧ f x = .error e := by
  obtain ⟨kv, hkv, he⟩ := mapR_err h
  cases hf : f kv.2 with
  | error e' => rw [hf] at he; cases he; exact ⟨kv.1, kv.2, hkv, hf⟩
  | ok y => rw [hf] at he; cases he

theorem mapD_map {f : Val → Res Val} {g : String × Val → Val} {d : List (String × Val)}
    (h : ∀ kv ∈ d, f kv.2 = .ok (g kv)) : mapD f d = .ok (d.map (fun kv => (kv.1, g kv))) := by
  unfold mapD
  refine mapR_map (g := fun kv => (kv.1, g kv)) ?_
  intro kv hkv
  simp only [h kv hkv]

/-! ## Union tags -/

theorem tagTypes_mem {ts : List AType} {d : List (String × AType)} {tag : String} {t : AType}
    (h : PyDict.get? (ts.foldl (fun d t => PyDict.set d t.name t) d) tag = some t) :
    (t ∈ ts ∧ t.name = tag) ∨ PyDict.get? d tag = some t := by
  induction ts generalizing d with
  | nil => exact .inr h
  | cons s ts ih =>
    rcases ih h with ⟨h1, h2⟩ | h'
    · exact .inl ⟨by simp [h1], h2⟩
    · rw [PyDict.get?_set] at h'
      by_cases hs : s.name = tag
      · rw [if_pos hs] at h'; cases h'; exact .inl ⟨by simp, hs⟩
      · rw [if_neg hs] at h'; exact .inr h'

theorem tagTypes_get {ts : List AType} {tag : String} {t : AType} (h : PyDict.get? (tagTypes ts) tag = some t) :
    t ∈ ts ∧ t.name = tag := by
  rcases tagTypes_mem h with h | h
  · exact h
  · cases h

theorem tagTypes_isSome {ts : List AType} {d : List (String × AType)} {tag : String}
    (h : (∃ t ∈ ts, t.name = tag) ∨ (PyDict.get? d tag).isSome) :
    (PyDict.get? (ts.foldl (fun d t => PyDict.set d t.name t) d) tag).isSome := by
  induction ts generalizing d with
  | nil => rcases h with ⟨t, ht, _⟩ | h
           · cases ht
           · exact h
  | cons s ts ih =>
    apply ih
    rcases h with ⟨t, ht, hn⟩ | h
    · rcases List.mem_cons.1 ht with rfl | ht
      · right; simp [hn]
      · exact .inl ⟨t, ht, hn⟩
    · right; rw [PyDict.get?_set]; split <;> simp_all

theorem tagTypes_of {ts : List AType} {t : AType} (ht : t ∈ ts) (hu : ∀ t' ∈ ts, t'.name = t.name → t' = t) :
    PyDict.get? (tagTypes ts) t.name = some t := by
  have := tagTypes_isSome (d := []) (.inl ⟨t, ht, rfl⟩)
  obtain ⟨t', ht'⟩ := Option.isSome_iff_exists.1 this
  obtain ⟨h1, h2⟩ := tagTypes_get (ts := ts) ht'
  rw [hu t' h1 h2] at ht'
  exact ht'

/-! ## The record loops -/

/-- Where the value of a field comes from (lines 930-935). -/
def Source (f : AType → Val → Res Val) (d : List (String × Val)) (fd : Field) (y : Val) : Prop :=
  (∃ x, PyDict.get? d fd.name = some x ∧ f fd.type x = .ok y) ∨
  (∃ x, PyDict.get? d fd.name = none ∧ fd.default = some x ∧ f fd.type x = .ok y) ∨
  (PyDict.get? d fd.name = none ∧ fd.default = none ∧ fd.type = .null ∧ y = .null)

theorem decFields_step {f : AType → Val → Res Val} {d : List (String × Val)} {e : Err} {fd : Field} {fs : List Field}
    {out d' : List (String × Val)} (h : decFields f d e (fd :: fs) out = .ok d') :
    ∃ y, Source f d fd y ∧ decFields f d e fs (PyDict.set out fd.name y) = .ok d' := by
  simp only [decFields] at h
  cases h1 : PyDict.get? d fd.name with
  | some x =>
    rw [h1] at h
    cases h2 : f fd.type x with
    | error _ => simp only [h2] at h; cases h
    | ok y => simp only [h2] at h; exact ⟨y, .inl ⟨x, h1, h2⟩, h⟩
  | none =>
    rw [h1] at h
    cases h3 : fd.default with
    | some x =>
      rw [h3] at h
      cases h2 : f fd.type x with
      | error _ => simp only [h2] at h; cases h
      | ok y => simp only [h2] at h; exact ⟨y, .inr (.inl ⟨x, h1, h3, h2⟩), h⟩
    | none =>
      simp only [h3] at h
      by_cases h4 : fd.type = .null
      · rw [if_pos h4] at h; exact ⟨_, .inr (.inr ⟨h1, h3, h4, rfl⟩), h⟩
      · rw [if_neg h4] at h; cases h

theorem decFields_ok {f : AType → Val → Res Val} {d : List (String × Val)} {e : Err} {fs : List Field}
    {out d' : List (String × Val)} (hn : (fs.map Field.name).Nodup) (hw : PyDict.WF out)
    (h : decFields f d e fs out = .ok d') :
    PyDict.WF d' ∧ (∀ k, k ∉ fs.map Field.name → PyDict.get? d' k = PyDict.get? out k) ∧
    (∀ k ∈ PyDict.keys d', k ∈ PyDict.keys out ∨ k ∈ fs.map Field.name) ∧
    ∀ fd ∈ fs, ∃ y, PyDict.get? d' fd.name = some y ∧ Source f d fd y := by
  induction fs generalizing out with
  | nil => cases h; exact ⟨hw, fun _ _ => rfl, fun _ hk => .inl hk, by simp⟩
  | cons fd fs ih =>
    obtain ⟨y, hy, h⟩ := decFields_step h
    simp only [List.map_cons, List.nodup_cons] at hn
    obtain ⟨h1, h2, h3, h4⟩ := ih hn.2 (PyDict.set_nodup hw _ _) h
    refine ⟨h1, ?_, ?_, ?_⟩
    · intro k hk
      simp only [List.map_cons, List.mem_cons, not_or] at hk
      rw [h2 k hk.2, PyDict.get?_set_ne _ _ (Ne.symm hk.1)]
    · intro k hk
      rcases h3 k hk with h | h
      · have : (PyDict.get? (PyDict.set out fd.name y) k).isSome := (PyDict.get?_isSome_iff _ _).2 h
        rw [PyDict.get?_set] at this
        by_cases he : fd.name = k
        · right; simp [he]
        · rw [if_neg he] at this
          exact .inl ((PyDict.get?_isSome_iff _ _).1 this)
      · right; simp at h ⊢; exact .inr h
    · intro fd' hfd'
      rcases List.mem_cons.1 hfd' with rfl | hfd'
      · exact ⟨y, by rw [h2 _ hn.1]; simp, hy⟩
      · exact h4 fd' hfd'

theorem decFields_err {f : AType → Val → Res Val} {d : List (String × Val)} {e e' : Err} {fs : List Field}
    {out : List (String × Val)} (h : decFields f d e fs out = .error e') :
    e' = e ∨ ∃ fd ∈ fs, ∃ x, (PyDict.get? d fd.name = some x ∨ fd.default = some x) ∧ f fd.type x = .error e' := by
  induction fs generalizing out with
  | nil => cases h
  | cons fd fs ih =>
    have lift : ∀ {o}, decFields f d e fs o = .error e' → e' = e ∨ ∃ fd' ∈ fd :: fs, ∃ x,
        (PyDict.get? d fd'.name = some x ∨ fd'.default = some x) ∧ f fd'.type x = .error e' := by
      intro o ho
      rcases ih ho with h | ⟨a, b, c⟩
      · exact .inl h
      · exact .inr ⟨a, by simp [b], c⟩
    simp only [decFields] at h
    cases h1 : PyDict.get? d fd.name with
    | some x =>
      rw [h1] at h
      cases h2 : f fd.type x with
      | error _ => simp only [h2] at h; cases h; exact .inr ⟨fd, by simp, x, .inl h1, h2⟩
      | ok y => simp only [h2] at h; exact lift h
    | none =>
      rw [h1] at h
      cases h3 : fd.default with
      | some x =>
        rw [h3] at h
        cases h2 : f fd.type x with
        | error _ => simp only [h2] at h; cases h; exact .inr ⟨fd, by simp, x, .inr h3, h2⟩
        | ok y => simp only [h2] at h; exact lift h
      | none =>
        simp only [h3] at h
        by_cases h4 : fd.type = .null
        · rw [if_pos h4] at h; exact lift h
        · rw [if_neg h4] at h; cases h; exact .inl rfl

/-! ## C08: what the decoder returns conforms -/

/-- A set of inputs closed under taking parts, with the limits the decoder does not check. -/
structure Inputs (L : Lim) (env : Env) (S : Val → Prop) : Prop where
  int : ∀ v i, S v → toInt v = .ok i → L.int i ∧ L.long i
  bytes : ∀ s, S (.str s) → L.bytes (.str s)
  fixed : ∀ s, S (.str s) → L.fixed s.length (.str s)
  enum : ∀ s syms, s ∈ syms → L.enum syms s
  arr : ∀ xs, S (.arr xs) → ∀ x ∈ xs, S x
  dict : ∀ d, S (.dict d) → PyDict.WF d ∧ ∀ k x, (k, x) ∈ d → S x
  nullTag : S (.dict [("null", .null)]) → L.nullTag
  default : ∀ n fs f x, env.fields? n = some fs → f ∈ fs → f.default = some x → S x

/-- Types closed under taking parts; no named type has the short name `null`. -/
structure Types (env : Env) (U : AType → Prop) : Prop where
  array : ∀ t, U (.array t) → U t
  map : ∀ t, U (.map t) → U t
  union : ∀ ts, U (.union ts) → ∀ t ∈ ts, U t
  record : ∀ n fs f, U (.record n) → env.fields? n = some fs → f ∈ fs → U f.type
  names : ∀ n fs, env.fields? n = some fs → (fs.map Field.name).Nodup
  null : ∀ ts t, U (.union ts) → t ∈ ts → t.name = "null" → t = .null

/-- C08: a returned value conforms to the type. -/
theorem dec_sound {pf : List Char → Option Flt} {L : Lim} {env : Env} {S : Val → Prop} {U : AType → Prop}
    (hS : Inputs L env S) (hU : Types env U) (n : Nat) (t : AType) (v u : Val) (ht : U t) (hv : S v)
    (h : dec pf env n t v = .ok u) : Conf L env t u := by
  induction n generalizing t v u with
  | zero => cases h
  | succ n ih =>
    simp only [dec] at h
    cases t with
    | null => cases v <;> simp only [decStep] at h <;> cases h; exact .null
    | boolean => cases v <;> simp only [decStep] at h <;> cases h; exact .boolean _
    | int => simp only [decStep, app_ok] at h; obtain ⟨i, hi, rfl⟩ := h; exact .int (hS.int v i hv hi).1
    | long => simp only [decStep, app_ok] at h; obtain ⟨i, hi, rfl⟩ := h; exact .long (hS.int v i hv hi).2
    | float => simp only [decStep, app_ok] at h; obtain ⟨i, hi, rfl⟩ := h; exact .float _
    | double => simp only [decStep, app_ok] at h; obtain ⟨i, hi, rfl⟩ := h; exact .double _
    | bytes => cases v <;> simp only [decStep] at h <;> cases h; exact .bytes (hS.bytes _ hv)
    | string => cases v <;> simp only [decStep] at h <;> cases h; exact .string _
    | fixed m k =>
      cases v <;> simp only [decStep] at h <;> first | (cases h; done) | skip
      split at h <;> cases h
      next hk => exact .fixed (hk ▸ hS.fixed _ hv)
    | enum m syms =>
      cases v <;> simp only [decStep] at h <;> first | (cases h; done) | skip
      split at h <;> cases h
      next hk => exact .enum (hS.enum _ _ hk)
    | array t =>
      cases v <;> simp only [decStep, app_ok] at h <;> first | (cases h; done) | skip
      next xs =>
      obtain ⟨ys, hy, rfl⟩ := h
      rw [mapR_ok] at hy
      refine .array (fun y hy' => ?_)
      obtain ⟨x, hx, hxy⟩ : ∃ x ∈ xs, dec pf env n t x = .ok y := by
        have := hS.arr xs hv
        clear hv this
        induction hy with
        | nil => cases hy'
        | cons h1 _ ih2 =>
          rcases List.mem_cons.1 hy' with rfl | hy'
          · exact ⟨_, by simp, h1⟩
          · obtain ⟨x, hx, hh⟩ := ih2 hy'
            exact ⟨x, by simp [hx], hh⟩
      exact ih t x y (hU.array _ ht) (hS.arr xs hv x hx) hxy
    | map t =>
      cases v <;> simp only [decStep, app_ok] at h <;> first | (cases h; done) | skip
      next d =>
      obtain ⟨e, he, rfl⟩ := h
      obtain ⟨h1, h2⟩ := mapD_ok he
      obtain ⟨h3, h4⟩ := hS.dict d hv
      refine .map (by unfold PyDict.WF; rw [h1]; exact h3) (fun k y hy => ?_)
      obtain ⟨x, hx, hxy⟩ := h2 k y hy
      exact ih t x y (hU.map _ ht) (h4 k x hx) hxy
    | record m =>
      cases v <;> simp only [decStep] at h <;> first | (cases h; done) | skip
      next d =>
      cases hf : env.fields? m with
      | none => simp only [hf] at h; cases h
      | some fs =>
        simp only [hf, app_ok] at h
        obtain ⟨d', hd, rfl⟩ := h
        obtain ⟨h1, h2, h3, h4⟩ := decFields_ok (hU.names m fs hf) (by simp [PyDict.WF, PyDict.keys]) hd
        refine .record (fun k => (PyDict.get? d' k).getD .null) hf h1 ?_ ?_ ?_
        · intro k hk
          rcases h3 k hk with h | h
          · simp [PyDict.keys] at h
          · obtain ⟨f, hf1, hf2⟩ := List.mem_map.1 h; exact ⟨f, hf1, hf2⟩
        · intro f hfm
          obtain ⟨y, hy, _⟩ := h4 f hfm
          simp [hy]
        · intro f hfm
          obtain ⟨y, hy, hs⟩ := h4 f hfm
          simp only [hy, Option.getD_some]
          rcases hs with ⟨x, hx, hxy⟩ | ⟨x, _, hx, hxy⟩ | ⟨_, _, h5, rfl⟩
          · exact ih _ x y (hU.record m fs f ht hf hfm) ((hS.dict d hv).2 _ x (PyDict.mem_of_get? hx)) hxy
          · exact ih _ x y (hU.record m fs f ht hf hfm) (hS.default m fs f x hf hfm hx) hxy
          · rw [h5]; exact .null
    | union ts =>
      simp only [decStep] at h
      split at h
      · next tag x =>
        split at h
        · next t htag =>
          obtain ⟨h1, h2⟩ := tagTypes_get htag
          rw [app_ok] at h
          obtain ⟨y, hy, rfl⟩ := h
          have hc := ih t x y (hU.union ts ht t h1) ((hS.dict _ hv).2 tag x (by simp)) hy
          subst h2
          by_cases h0 : t = .null
          · subst h0
            have := conf_null hc; subst this
            have hx : x = .null := by
              cases n with
              | zero => cases hy
              | succ n => cases x <;> simp [dec, decStep] at hy ⊢
            subst hx
            exact .unionNullTag (hS.nullTag hv) h1
          · exact .union h1 h0 hc
        · cases h
      · split at h
        · next hm =>
          cases h
          obtain ⟨t, ht1, ht2⟩ := List.mem_map.1 hm
          have := hU.null ts t ht ht1 ht2
          subst this
          exact .unionNull ht1
        · cases h
      · cases h

/-! ## C08: how the decoder fails -/

/-- Inputs on which the decoder fails only with AvroException: no `bytes` objects, no infinities,
no integers too large for a double. -/
structure Mild (env : Env) (S : Val → Prop) : Prop where
  bytes : ∀ v, S v → hasBytes v = false
  pinf : ¬ S (.flt .pinf)
  ninf : ¬ S (.flt .ninf)
  int : ∀ i, S (.int i) → i.natAbs < dblLimit
  arr : ∀ xs, S (.arr xs) → ∀ x ∈ xs, S x
  dict : ∀ d, S (.dict d) → ∀ k x, (k, x) ∈ d → S x
  default : ∀ n fs f x, env.fields? n = some fs → f ∈ fs → f.default = some x → S x

theorem mismatch_mild {env : Env} {S : Val → Prop} (hS : Mild env S) {v : Val} (h : S v) : mismatch v = .avro := by
  simp [mismatch, hS.bytes v h]

theorem toInt_err {env : Env} {S : Val → Prop} (hS : Mild env S) {v : Val} (hv : S v) {e : Err}
    (h : toInt v = .error e) : e = .avro := by
  have hm := mismatch_mild hS hv
  unfold toInt at h
  split at h <;> first | (cases h; done) | (cases h; exact hm) | skip
  · next f h1 h2 =>
    exfalso
    match f, h1, h2, hv with
    | .pinf, _, _, hv => exact hS.pinf hv
    | .ninf, _, _, hv => exact hS.ninf hv
    | .nan, _, h2, _ => exact h2 rfl
    | .fin q, h1, _, _ => exact h1 q rfl
  · split at h <;> cases h; exact hm
  · split at h <;> cases h; exact hm

theorem toFlt_err {pf : List Char → Option Flt} {env : Env} {S : Val → Prop} (hS : Mild env S) {v : Val} (hv : S v)
    {e : Err} (h : toFlt pf v = .error e) : e = .avro := by
  have hm := mismatch_mild hS hv
  unfold toFlt at h
  split at h <;> first | (cases h; done) | (cases h; exact hm) | skip
  · next i => simp only [intToFlt, if_pos (hS.int i hv)] at h; cases h
  · split at h <;> cases h; exact hm
  · split at h <;> cases h; exact hm

/-- C08: on mild inputs the only failures are AvroException and, when defaults nest for ever,
RecursionError. -/
theorem dec_fails {pf : List Char → Option Flt} {env : Env} {S : Val → Prop} {U : AType → Prop}
    (hS : Mild env S) (hU : Types env U) (hk : ∀ n, U (.record n) → (env.fields? n).isSome)
    (n : Nat) (t : AType) (v : Val) (e : Err) (ht : U t) (hv : S v)
    (h : dec pf env n t v = .error e) : e = .avro ∨ e = recErr := by
  induction n generalizing t v e with
  | zero => cases h; exact .inr rfl
  | succ n ih =>
    have hm := mismatch_mild hS hv
    simp only [dec] at h
    cases t with
    | null => left; cases v <;> simp only [decStep] at h <;> cases h <;> exact hm
    | boolean => left; cases v <;> simp only [decStep] at h <;> cases h <;> exact hm
    | int => simp only [decStep, app_err] at h; exact .inl (toInt_err hS hv h)
    | long => simp only [decStep, app_err] at h; exact .inl (toInt_err hS hv h)
    | float => simp only [decStep, app_err] at h; exact .inl (toFlt_err hS hv h)
    | double => simp only [decStep, app_err] at h; exact .inl (toFlt_err hS hv h)
    | bytes => left; cases v <;> simp only [decStep] at h <;> cases h <;> exact hm
    | string => left; cases v <;> simp only [decStep] at h <;> cases h <;> exact hm
    | fixed m k =>
      left
      cases v <;> simp only [decStep] at h <;> first | (cases h; exact hm) | skip
      split at h <;> cases h; exact hm
    | enum m syms =>
      left
      cases v <;> simp only [decStep] at h <;> first | (cases h; exact hm) | skip
      split at h <;> cases h; exact hm
    | array t =>
      cases v <;> simp only [decStep, app_err] at h <;> first | (cases h; exact .inl hm) | skip
      next xs =>
      obtain ⟨x, hx, hxe⟩ := mapR_err h
      exact ih t x e (hU.array _ ht) (hS.arr xs hv x hx) hxe
    | map t =>
      cases v <;> simp only [decStep, app_err] at h <;> first | (cases h; exact .inl hm) | skip
      next d =>
      obtain ⟨k, x, hx, hxe⟩ := mapD_err h
      exact ih t x e (hU.map _ ht) (hS.dict d hv k x hx) hxe
    | record m =>
      cases v <;> simp only [decStep] at h <;> first | (cases h; exact .inl hm) | skip
      next d =>
      cases hf : env.fields? m with
      | none => have := hk m ht; rw [hf] at this; cases this
      | some fs =>
        simp only [hf, app_err] at h
        rcases decFields_err h with h | ⟨fd, hfd, x, hx, hxe⟩
        · exact .inl (h.trans hm)
        · refine ih _ x e (hU.record m fs fd ht hf hfd) ?_ hxe
          rcases hx with hx | hx
          · exact hS.dict d hv _ x (PyDict.mem_of_get? hx)
          · exact hS.default m fs fd x hf hfd hx
    | union ts =>
      simp only [decStep] at h
      split at h
      · next tag x =>
        split at h
        · next t htag =>
          rw [app_err] at h
          exact ih t x e (hU.union ts ht t (tagTypes_get htag).1) (hS.dict _ hv tag x (by simp)) h
        · cases h; exact .inl hm
      · split at h
        · cases h
        · cases h; exact .inl hm
      · cases h; exact .inl hm

theorem sizeOf_mem_dict {d : List (String × Val)} {k : String} {x : Val} (h : (k, x) ∈ d) : sizeOf x < sizeOf d := by
  have := List.sizeOf_lt_of_mem h
  simp at this
  omega

theorem ev_list {α : Type} {P : Nat → α → Prop} {xs : List α} (h : ∀ x ∈ xs, ∃ N, ∀ n ≥ N, P n x) :
    ∃ N, ∀ n ≥ N, ∀ x ∈ xs, P n x := by
  induction xs with
  | nil => exact ⟨0, by simp⟩
  | cons x xs ih =>
    obtain ⟨N, hN⟩ := h x (by simp)
    obtain ⟨M, hM⟩ := ih (fun y hy => h y (by simp [hy]))
    refine ⟨max N M, fun n hn y hy => ?_⟩
    rcases List.mem_cons.1 hy with rfl | hy
    · exact hN n (by omega)
    · exact hM n (by omega) y hy

/-- C08: the decoder terminates on every input, provided it terminates on the defaults. -/
theorem dec_terminates {pf : List Char → Option Flt} {env : Env}
    (hd : ∀ n fs f x, env.fields? n = some fs → f ∈ fs → f.default = some x →
      ∃ N, ∀ n ≥ N, dec pf env n f.type x ≠ .error recErr)
    (t : AType) (v : Val) : ∃ N, ∀ n ≥ N, dec pf env n t v ≠ .error recErr := by
  have key : ∀ (k : Nat) (t : AType) (v : Val), sizeOf v ≤ k → ∃ N, ∀ n ≥ N, dec pf env n t v ≠ .error recErr := by
    intro k
    induction k with
    | zero =>
      intro t v hk
      have : 0 < sizeOf v := by cases v <;> simp <;> omega
      omega
    | succ k ih =>
      intro t v hk
      have one : (∀ f, decStep pf env f t v ≠ .error recErr) → ∃ N, ∀ n ≥ N, dec pf env n t v ≠ .error recErr := by
        intro h
        refine ⟨1, fun n hn => ?_⟩
        obtain ⟨m, rfl⟩ : ∃ m, n = m + 1 := ⟨n - 1, by omega⟩
        exact h _
      have hmis : ∀ w, mismatch w ≠ recErr := by
        intro w; unfold mismatch recErr; split <;> decide
      have hO : ∀ {α : Type}, (Except.error (.py "OverflowError") : Res α) = .error recErr → False := by
        intro α h
        have := Except.error.inj h
        revert this; unfold recErr; decide
      have hI : ∀ w, toInt w ≠ .error recErr := by
        intro w h
        unfold toInt at h
        split at h <;> first
          | (cases h; done) | (exact hmis _ (Except.error.inj h)) | exact hO h | skip
        · split at h
          · cases h
          · exact hmis _ (Except.error.inj h)
        · split at h
          · cases h
          · exact hmis _ (Except.error.inj h)
      have hF : ∀ w, toFlt pf w ≠ .error recErr := by
        intro w h
        unfold toFlt at h
        split at h <;> first
          | (cases h; done) | (exact hmis _ (Except.error.inj h)) | skip
        · unfold intToFlt at h; split at h
          · cases h
          · exact hO h
        · split at h
          · cases h
          · exact hmis _ (Except.error.inj h)
        · split at h
          · cases h
          · exact hmis _ (Except.error.inj h)
      cases t with
      | null => refine one (fun f h => ?_); cases v <;> simp only [decStep] at h <;>
                  first | (cases h; done) | exact hmis _ (Except.error.inj h)
      | boolean => refine one (fun f h => ?_); cases v <;> simp only [decStep] at h <;>
                     first | (cases h; done) | exact hmis _ (Except.error.inj h)
      | int => refine one (fun f h => ?_); simp only [decStep, app_err] at h; exact hI _ h
      | long => refine one (fun f h => ?_); simp only [decStep, app_err] at h; exact hI _ h
      | float => refine one (fun f h => ?_); simp only [decStep, app_err] at h; exact hF _ h
      | double => refine one (fun f h => ?_); simp only [decStep, app_err] at h; exact hF _ h
      | bytes => refine one (fun f h => ?_); cases v <;> simp only [decStep] at h <;>
                   first | (cases h; done) | exact hmis _ (Except.error.inj h)
      | string => refine one (fun f h => ?_); cases v <;> simp only [decStep] at h <;>
                    first | (cases h; done) | exact hmis _ (Except.error.inj h)
      | fixed m k =>
        refine one (fun f h => ?_)
        cases v <;> simp only [decStep] at h <;> first | (cases h; done) | exact hmis _ (Except.error.inj h) | skip
        split at h
        · cases h
        · exact hmis _ (Except.error.inj h)
      | enum m syms =>
        refine one (fun f h => ?_)
        cases v <;> simp only [decStep] at h <;> first | (cases h; done) | exact hmis _ (Except.error.inj h) | skip
        split at h
        · cases h
        · exact hmis _ (Except.error.inj h)
      | array t =>
        cases v with
        | arr xs =>
          obtain ⟨N, hN⟩ := ev_list (P := fun n x => dec pf env n t x ≠ .error recErr) (xs := xs)
            (fun x hx => ih t x (by have := List.sizeOf_lt_of_mem hx; simp at hk; omega))
          refine ⟨N + 1, fun n hn => ?_⟩
          obtain ⟨m, rfl⟩ : ∃ m, n = m + 1 := ⟨n - 1, by omega⟩
          intro h
          simp only [dec, decStep, app_err] at h
          obtain ⟨x, hx, hxe⟩ := mapR_err h
          exact hN m (by omega) x hx hxe
        | _ => refine one (fun f h => ?_); simp only [decStep] at h; exact hmis _ (Except.error.inj h)
      | map t =>
        cases v with
        | dict d =>
          obtain ⟨N, hN⟩ := ev_list (P := fun n kv => dec pf env n t kv.2 ≠ .error recErr) (xs := d)
            (fun kv hx => ih t kv.2 (by have := sizeOf_mem_dict (k := kv.1) (x := kv.2) hx; simp at hk; omega))
          refine ⟨N + 1, fun n hn => ?_⟩
          obtain ⟨m, rfl⟩ : ∃ m, n = m + 1 := ⟨n - 1, by omega⟩
          intro h
          simp only [dec, decStep, app_err] at h
          obtain ⟨k', x, hx, hxe⟩ := mapD_err h
          exact hN m (by omega) _ hx hxe
        | _ => refine one (fun f h => ?_); simp only [decStep] at h; exact hmis _ (Except.error.inj h)
      | record m =>
        cases v with
        | dict d =>
          cases hf : env.fields? m with
          | none =>
            refine one (fun f h => ?_)
            simp only [decStep, hf] at h
            have := Except.error.inj h
            revert this; unfold recErr; decide
          | some fs =>
            obtain ⟨N, hN⟩ := ev_list (P := fun n fd => ∀ x, (PyDict.get? d fd.name = some x ∨ fd.default = some x) →
                dec pf env n fd.type x ≠ .error recErr) (xs := fs) (fun fd hfd => by
              have h1 : ∃ N, ∀ n ≥ N, ∀ x, PyDict.get? d fd.name = some x → dec pf env n fd.type x ≠ .error recErr := by
                cases hg : PyDict.get? d fd.name with
                | none => exact ⟨0, fun _ _ x hx => by cases hx⟩
                | some x =>
                  obtain ⟨N, hN⟩ := ih fd.type x (by
                    have := sizeOf_mem_dict (PyDict.mem_of_get? hg); simp at hk; omega)
                  exact ⟨N, fun n hn y hy => by cases hy; exact hN n hn⟩
              have h2 : ∃ N, ∀ n ≥ N, ∀ x, fd.default = some x → dec pf env n fd.type x ≠ .error recErr := by
                cases hg : fd.default with
                | none => exact ⟨0, fun _ _ x hx => by cases hx⟩
                | some x =>
                  obtain ⟨N, hN⟩ := hd m fs fd x hf hfd hg
                  exact ⟨N, fun n hn y hy => by cases hy; exact hN n hn⟩
              obtain ⟨N1, h1⟩ := h1
              obtain ⟨N2, h2⟩ := h2
              refine ⟨max N1 N2, fun n hn x hx => ?_⟩
              rcases hx with hx | hx
              · exact h1 n (by omega) x hx
              · exact h2 n (by omega) x hx)
            refine ⟨N + 1, fun n hn => ?_⟩
            obtain ⟨m', rfl⟩ : ∃ m, n = m + 1 := ⟨n - 1, by omega⟩
            intro h
            simp only [dec, decStep, hf, app_err] at h
            rcases decFields_err h with h | ⟨fd, hfd, x, hx, hxe⟩
            · exact hmis _ h.symm
            · exact hN m' (by omega) fd hfd x hx hxe
        | _ => refine one (fun f h => ?_); simp only [decStep] at h; exact hmis _ (Except.error.inj h)
      | union ts =>
        by_cases hs : ∃ tag x, v = .dict [(tag, x)]
        · obtain ⟨tag, x, rfl⟩ := hs
          cases hg : PyDict.get? (tagTypes ts) tag with
          | none =>
            refine one (fun f h => ?_)
            simp only [decStep, hg] at h
            exact hmis _ (Except.error.inj h)
          | some t =>
            obtain ⟨N, hN⟩ := ih t x (by simp at hk; omega)
            refine ⟨N + 1, fun n hn => ?_⟩
            obtain ⟨m, rfl⟩ : ∃ m, n = m + 1 := ⟨n - 1, by omega⟩
            intro h
            simp only [dec, decStep, hg, app_err] at h
            exact hN m (by omega) h
        · refine one (fun f h => ?_)
          simp only [decStep] at h
          split at h
          · next tag x => exact hs ⟨tag, x, rfl⟩
          · split at h
            · cases h
            · exact hmis _ (Except.error.inj h)
          · exact hmis _ (Except.error.inj h)
  exact key _ t v (Nat.le_refl _)

end Verif.Avro
