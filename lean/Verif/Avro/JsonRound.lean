import Verif.Avro.JsonThm
/-!
# The encode-decode round trip (C07)

Conforming data decode to themselves (`dec_fix`).  Encoding ignores the tag of a union datum and
takes the first member type that encodes its content (datatype.py 1001-1011): the round trip keeps the
tag exactly when no earlier member encodes it.
-/

namespace Verif.Avro

theorem PyEq.symm {a b : Val} (h : PyEq a b) : PyEq b a := by
  induction h with
  | refl v => exact .refl v
  | arr hl _ ih => exact .arr hl.symm (fun i h h' => ih i h' h)
  | dict h1 _ ih => exact .dict (fun k => (h1 k).symm) (fun k x y hx hy => ih k y x hy hx)

theorem PyEq.trans {a b c : Val} (h : PyEq a b) (h' : PyEq b c) : PyEq a c := by
  induction h generalizing c with
  | refl v => exact h'
  | @arr xs ys hl hp ih =>
    cases h' with
    | refl => exact .arr hl hp
    | @arr _ zs hl' hp' => exact .arr (hl.trans hl') (fun i h h'' => ih i h (by omega) (hp' i (by omega) h''))
  | @dict d e h1 hp ih =>
    cases h' with
    | refl => exact .dict h1 hp
    | @dict _ f h1' hp' =>
      refine .dict (fun k => (h1 k).trans (h1' k)) (fun k x z hx hz => ?_)
      have : (PyDict.get? e k).isSome := (h1 k).1 (by rw [hx]; rfl)
      obtain ⟨y, hy⟩ := Option.isSome_iff_exists.1 this
      exact ih k x y hx hy (hp' k y z hy hz)

theorem choose_mem {α β : Type} [Inhabited β] {P : α → β → Prop} {xs : List α} (h : ∀ x ∈ xs, ∃ y, P x y) :
    ∃ g : α → β, ∀ x ∈ xs, P x (g x) := by
  classical
  refine ⟨fun x => if hx : ∃ y, P x y then hx.choose else default, fun x hx => ?_⟩
  simp only [dif_pos (h x hx)]
  exact (h x hx).choose_spec

instance : Inhabited Val := ⟨.null⟩

/-! ## Rebuilding containers -/

/-- The dict built by assigning each field in turn. -/
def setAll (g : String → Val) (fs : List Field) (out : List (String × Val)) : List (String × Val) :=
  fs.foldl (fun d f => PyDict.set d f.name (g f.name)) out

theorem get?_setAll (g : String → Val) (fs : List Field) (out : List (String × Val)) (k : String) :
    PyDict.get? (setAll g fs out) k = if k ∈ fs.map Field.name then some (g k) else PyDict.get? out k := by
  induction fs generalizing out with
  | nil => simp [setAll]
  | cons f fs ih =>
    have : setAll g (f :: fs) out = setAll g fs (PyDict.set out f.name (g f.name)) := rfl
    rw [this, ih, PyDict.get?_set]
    by_cases h1 : k ∈ fs.map Field.name
    · rw [if_pos h1, if_pos (by simp at h1 ⊢; exact .inr h1)]
    · rw [if_neg h1]
      by_cases h2 : f.name = k
      · rw [if_pos h2, if_pos (by simp [h2]), h2]
      · rw [if_neg h2, if_neg]
        simp only [List.map_cons, List.mem_cons, not_or]
        exact ⟨Ne.symm h2, h1⟩

theorem setAll_wf (g : String → Val) (fs : List Field) (out : List (String × Val)) (h : PyDict.WF out) :
    PyDict.WF (setAll g fs out) := by
  induction fs generalizing out with
  | nil => exact h
  | cons f fs ih => exact ih _ (PyDict.set_nodup h _ _)

theorem decFields_all {f : AType → Val → Res Val} {d : List (String × Val)} {e : Err} {g : String → Val}
    {fs : List Field} (h : ∀ fd ∈ fs, ∃ x, PyDict.get? d fd.name = some x ∧ f fd.type x = .ok (g fd.name))
    (out : List (String × Val)) : decFields f d e fs out = .ok (setAll g fs out) := by
  induction fs generalizing out with
  | nil => rfl
  | cons fd fs ih =>
    obtain ⟨x, h1, h2⟩ := h fd (by simp)
    simp only [decFields, h1, h2]
    exact ih (fun fd' h' => h fd' (by simp [h'])) _

theorem encFields_all {f : AType → Val → Res Val} {d : List (String × Val)} {e : Err} {g : String → Val}
    {fs : List Field} (h : ∀ fd ∈ fs, ∃ x, PyDict.get? d fd.name = some x ∧ f fd.type x = .ok (g fd.name))
    (out : List (String × Val)) : encFields f d e fs out = .ok (setAll g fs out) := by
  induction fs generalizing out with
  | nil => rfl
  | cons fd fs ih =>
    obtain ⟨x, h1, h2⟩ := h fd (by simp)
    simp only [encFields, h1, h2]
    exact ih (fun fd' h' => h fd' (by simp [h'])) _

/-- A rebuilt record equals and conforms like the original. -/
theorem record_rebuild {L : Lim} {env : Env} {n : Name} {fs : List Field} {d : List (String × Val)}
    {x g : String → Val} (hf : env.fields? n = some fs)
    (hk : ∀ k ∈ PyDict.keys d, ∃ f ∈ fs, f.name = k)
    (hx : ∀ f ∈ fs, PyDict.get? d f.name = some (x f.name))
    (hg : ∀ f ∈ fs, PyEq (g f.name) (x f.name)) (hc : ∀ f ∈ fs, Conf L env f.type (g f.name)) :
    PyEq (.dict (setAll g fs [])) (.dict d) ∧ Conf L env (.record n) (.dict (setAll g fs [])) := by
  have hget : ∀ k, PyDict.get? (setAll g fs []) k = if k ∈ fs.map Field.name then some (g k) else none := by
    intro k; rw [get?_setAll]; rfl
  constructor
  · refine .dict (fun k => ?_) (fun k y z hy hz => ?_)
    · rw [hget]
      constructor
      · intro h
        by_cases hm : k ∈ fs.map Field.name
        · obtain ⟨f, hf1, rfl⟩ := List.mem_map.1 hm
          rw [hx f hf1]; rfl
        · rw [if_neg hm] at h; cases h
      · intro h
        obtain ⟨f, hf1, rfl⟩ := hk k ((PyDict.get?_isSome_iff _ _).1 h)
        rw [if_pos (List.mem_map.2 ⟨f, hf1, rfl⟩)]; rfl
    · rw [hget] at hy
      by_cases hm : k ∈ fs.map Field.name
      · rw [if_pos hm] at hy; cases hy
        obtain ⟨f, hf1, rfl⟩ := List.mem_map.1 hm
        rw [hx f hf1] at hz; cases hz
        exact hg f hf1
      · rw [if_neg hm] at hy; cases hy
  · refine .record g hf (setAll_wf _ _ _ (by simp [PyDict.WF, PyDict.keys])) ?_ ?_ hc
    · intro k hk'
      have := (PyDict.get?_isSome_iff _ _).2 hk'
      rw [hget] at this
      by_cases hm : k ∈ fs.map Field.name
      · obtain ⟨f, hf1, hf2⟩ := List.mem_map.1 hm; exact ⟨f, hf1, hf2⟩
      · rw [if_neg hm] at this; cases this
    · intro f hf1
      rw [hget, if_pos (List.mem_map.2 ⟨f, hf1, rfl⟩)]

theorem get?_mapVals (g : String × Val → Val) (d : List (String × Val)) (k : String) :
    PyDict.get? (d.map (fun kv => (kv.1, g kv))) k = (PyDict.get? d k).map (fun x => g (k, x)) := by
  induction d with
  | nil => rfl
  | cons kv d ih =>
    obtain ⟨k', x⟩ := kv
    simp only [List.map_cons, PyDict.get?]
    by_cases h : k' = k
    · subst h; simp
    · rw [if_neg h, if_neg h, ih]

theorem map_rebuild {L : Lim} {env : Env} {t : AType} {d : List (String × Val)} {g : String × Val → Val}
    (hw : PyDict.WF d) (hg : ∀ kv ∈ d, PyEq (g kv) kv.2 ∧ Conf L env t (g kv)) :
    PyEq (.dict (d.map (fun kv => (kv.1, g kv)))) (.dict d) ∧
    Conf L env (.map t) (.dict (d.map (fun kv => (kv.1, g kv)))) := by
  constructor
  · refine .dict (fun k => ?_) (fun k y z hy hz => ?_)
    · rw [get?_mapVals]; simp
    · rw [get?_mapVals, hz] at hy
      cases hy
      exact (hg (k, z) (PyDict.mem_of_get? hz)).1
  · refine .map ?_ ?_
    · have : PyDict.keys (d.map (fun kv => (kv.1, g kv))) = PyDict.keys d := by
        simp [PyDict.keys, Function.comp_def]
      unfold PyDict.WF; rw [this]; exact hw
    · intro k y hy
      obtain ⟨kv, hx, he⟩ := List.mem_map.1 hy
      cases he
      exact (hg kv hx).2

theorem arr_rebuild {L : Lim} {env : Env} {t : AType} {xs : List Val} {g : Val → Val}
    (hg : ∀ x ∈ xs, PyEq (g x) x ∧ Conf L env t (g x)) :
    PyEq (.arr (xs.map g)) (.arr xs) ∧ Conf L env (.array t) (.arr (xs.map g)) := by
  constructor
  · refine .arr (by simp) (fun i h h' => ?_)
    simp only [List.getElem_map]
    exact (hg _ (List.getElem_mem h')).1
  · refine .array (fun y hy => ?_)
    obtain ⟨x, hx, rfl⟩ := List.mem_map.1 hy
    exact (hg x hx).2

theorem tag_rebuild {L : Lim} {env : Env} {ts : List AType} {t : AType} {v u : Val} (ht : t ∈ ts) (hn : t ≠ .null)
    (he : PyEq u v) (hc : Conf L env t u) :
    PyEq (.dict [(t.name, u)]) (.dict [(t.name, v)]) ∧ Conf L env (.union ts) (.dict [(t.name, u)]) := by
  refine ⟨.dict (fun k => ?_) (fun k y z hy hz => ?_), .union ht hn hc⟩
  · simp only [PyDict.get?]; split <;> simp
  · simp only [PyDict.get?] at hy hz
    split at hy
    · next h => rw [if_pos h] at hz; cases hy; cases hz; exact he
    · cases hy

/-! ## Conforming data decode to themselves -/

/-- Limits of data in the form the JSON functions use: text for bytes, no tagged null. -/
structure Plain (L : Lim) : Prop where
  bytes : ∀ v, L.bytes v → ∃ s, v = .str s
  fixed : ∀ k v, L.fixed k v → ∃ s, v = .str s ∧ s.length = k
  enum : ∀ syms s, L.enum syms s → s ∈ syms
  nullTag : ¬ L.nullTag
  boolInt : ¬ L.boolInt

theorem strict_plain : Plain strict where
  bytes _ h := by obtain ⟨s, h, _⟩ := h; exact ⟨s, h⟩
  fixed _ _ h := by obtain ⟨s, h, _, h'⟩ := h; exact ⟨s, h, h'⟩
  enum _ _ h := h
  nullTag := id
  boolInt := id

/-- The function returns `u` for all large fuel. -/
def Ends (F : Nat → AType → Val → Res Val) (t : AType) (v u : Val) : Prop := ∃ N, ∀ n ≥ N, F n t v = .ok u

/-- Types whose unions have distinct names. -/
structure Tags (env : Env) (U : AType → Prop) : Prop extends Types env U where
  tags : ∀ ts t t', U (.union ts) → t ∈ ts → t' ∈ ts → t'.name = t.name → t' = t

/-- Decoding a conforming datum gives an equal, conforming datum. -/
theorem dec_fix {pf : List Char → Option Flt} {L : Lim} {env : Env} {U : AType → Prop} (hL : Plain L)
    (hU : Tags env U) {t : AType} {v : Val} (ht : U t) (h : Conf L env t v) :
    ∃ u, Ends (dec pf env) t v u ∧ PyEq u v ∧ Conf L env t u := by
  induction h with
  | null => exact ⟨_, ⟨1, fun n hn => by obtain ⟨m, rfl⟩ : ∃ m, n = m + 1 := ⟨n - 1, by omega⟩
                                         rfl⟩, .refl _, .null⟩
  | boolean b => exact ⟨_, ⟨1, fun n hn => by obtain ⟨m, rfl⟩ : ∃ m, n = m + 1 := ⟨n - 1, by omega⟩
                                              rfl⟩, .refl _, .boolean b⟩
  | int hi => exact ⟨_, ⟨1, fun n hn => by obtain ⟨m, rfl⟩ : ∃ m, n = m + 1 := ⟨n - 1, by omega⟩
                                           rfl⟩, .refl _, .int hi⟩
  | long hi => exact ⟨_, ⟨1, fun n hn => by obtain ⟨m, rfl⟩ : ∃ m, n = m + 1 := ⟨n - 1, by omega⟩
                                            rfl⟩, .refl _, .long hi⟩
  | float f => exact ⟨_, ⟨1, fun n hn => by obtain ⟨m, rfl⟩ : ∃ m, n = m + 1 := ⟨n - 1, by omega⟩
                                            rfl⟩, .refl _, .float f⟩
  | double f => exact ⟨_, ⟨1, fun n hn => by obtain ⟨m, rfl⟩ : ∃ m, n = m + 1 := ⟨n - 1, by omega⟩
                                             rfl⟩, .refl _, .double f⟩
  | intBool b h => exact absurd h hL.boolInt
  | longBool b h => exact absurd h hL.boolInt
  | @bytes v hb =>
    obtain ⟨s, rfl⟩ := hL.bytes _ hb
    exact ⟨_, ⟨1, fun n hn => by obtain ⟨m, rfl⟩ : ∃ m, n = m + 1 := ⟨n - 1, by omega⟩
                                 rfl⟩, .refl _, .bytes hb⟩
  | string s => exact ⟨_, ⟨1, fun n hn => by obtain ⟨m, rfl⟩ : ∃ m, n = m + 1 := ⟨n - 1, by omega⟩
                                             rfl⟩, .refl _, .string s⟩
  | @fixed n k v hb =>
    obtain ⟨s, rfl, hk⟩ := hL.fixed _ _ hb
    exact ⟨_, ⟨1, fun n hn => by obtain ⟨m, rfl⟩ : ∃ m, n = m + 1 := ⟨n - 1, by omega⟩
                                 simp [dec, decStep, hk]⟩, .refl _, .fixed hb⟩
  | @enum n syms s he =>
    exact ⟨_, ⟨1, fun n hn => by obtain ⟨m, rfl⟩ : ∃ m, n = m + 1 := ⟨n - 1, by omega⟩
                                 simp [dec, decStep, hL.enum _ _ he]⟩, .refl _, .enum he⟩
  | @array t xs h ih =>
    obtain ⟨g, hg⟩ := choose_mem (fun x hx => ih x hx (hU.array _ ht))
    obtain ⟨N, hN⟩ := ev_list (P := fun n x => dec pf env n t x = .ok (g x)) (fun x hx => (hg x hx).1)
    refine ⟨_, ⟨N + 1, fun n hn => ?_⟩, arr_rebuild (fun x hx => (hg x hx).2)⟩
    obtain ⟨m, rfl⟩ : ∃ m, n = m + 1 := ⟨n - 1, by omega⟩
    simp only [dec, decStep, mapR_map (hN m (by omega)), Res.app]
  | @map t d hw h ih =>
    obtain ⟨g, hg⟩ := choose_mem (xs := d) (P := fun kv u => Ends (dec pf env) t kv.2 u ∧ PyEq u kv.2 ∧ Conf L env t u)
      (fun kv hx => ih kv.1 kv.2 hx (hU.map _ ht))
    obtain ⟨N, hN⟩ := ev_list (P := fun n kv => dec pf env n t kv.2 = .ok (g kv)) (fun x hx => (hg x hx).1)
    refine ⟨_, ⟨N + 1, fun n hn => ?_⟩, map_rebuild hw (fun x hx => (hg x hx).2)⟩
    obtain ⟨m, rfl⟩ : ∃ m, n = m + 1 := ⟨n - 1, by omega⟩
    simp only [dec, decStep, mapD_map (hN m (by omega)), Res.app]
  | @record n fs d x hf hw hk hx hc ih =>
    obtain ⟨g, hg⟩ := choose_fields (hU.names n fs hf)
      (P := fun fd u => Ends (dec pf env) fd.type (x fd.name) u ∧ PyEq u (x fd.name) ∧ Conf L env fd.type u)
      (fun fd hfd => ih fd hfd (hU.record n fs fd ht hf hfd))
    obtain ⟨N, hN⟩ := ev_list (P := fun n (fd : Field) => dec pf env n fd.type (x fd.name) = .ok (g fd.name)) (xs := fs)
      (fun fd hfd => (hg fd hfd).1)
    refine ⟨_, ⟨N + 1, fun n hn => ?_⟩,
      record_rebuild hf hk hx (fun fd hfd => (hg fd hfd).2.1) (fun fd hfd => (hg fd hfd).2.2)⟩
    obtain ⟨m, rfl⟩ : ∃ m, n = m + 1 := ⟨n - 1, by omega⟩
    simp only [dec, decStep, hf, decFields_all (fun fd hfd => ⟨_, hx fd hfd, hN m (by omega) fd hfd⟩), Res.app]
  | @unionNull ts hm =>
    exact ⟨_, ⟨1, fun n hn => by
      obtain ⟨m, rfl⟩ : ∃ m, n = m + 1 := ⟨n - 1, by omega⟩
      simp only [dec, decStep]
      rw [if_pos (List.mem_map.2 ⟨.null, hm, rfl⟩ : "null" ∈ ts.map AType.name)]⟩, .refl _, .unionNull hm⟩
  | unionNullTag h => exact absurd h hL.nullTag
  | @union ts t v hm hne hc ih =>
    obtain ⟨u, ⟨N, hN⟩, h1, h2⟩ := ih (hU.union ts ht t hm)
    refine ⟨_, ⟨N + 1, fun n hn => ?_⟩, tag_rebuild hm hne h1 h2⟩
    obtain ⟨m, rfl⟩ : ∃ m, n = m + 1 := ⟨n - 1, by omega⟩
    simp only [dec, decStep, tagTypes_of hm (fun t' ht' he => hU.tags ts t t' ht hm ht' he), hN m (by omega), Res.app]

/-! ## Encoding -/

/-- No member of a union encodes the data of another member: the exact condition under which the
encoder, which ignores tags, keeps them. -/
def Apart (tagged : Bool) (L : Lim) (env : Env) (U : AType → Prop) : Prop :=
  ∀ ts t t' v, U (.union ts) → t ∈ ts → t' ∈ ts → t' ≠ t → Conf L env t v →
    ∃ N, ∀ n ≥ N, enc tagged env n t' v = .error .avro

theorem encFirst_hit {tagged : Bool} {f : AType → Val → Res Val} {x out : Val} {ts : List AType} {t : AType}
    (ht : t ∈ ts) (hf : f t x = .ok out) (ho : ∀ t' ∈ ts, t' ≠ t → f t' x = .error .avro) :
    encFirst tagged f x ts = .ok (some (if tagged then .dict [(t.name, out)] else out)) := by
  induction ts with
  | nil => cases ht
  | cons s ts ih =>
    simp only [encFirst]
    by_cases hs : s = t
    · subst hs; rw [hf]
    · rw [ho s (by simp) hs]
      exact ih (by rcases List.mem_cons.1 ht with h | h
                   · exact absurd h.symm hs
                   · exact h) (fun t' h' => ho t' (by simp [h']))

/-- Encoding a conforming datum gives an equal, conforming datum with the same tags. -/
theorem enc_fix {L : Lim} {env : Env} {U : AType → Prop} (hL : Plain L) (hU : Tags env U)
    (hA : Apart true L env U) {t : AType} {v : Val} (ht : U t) (h : Conf L env t v) :
    ∃ u, Ends (enc true env) t v u ∧ PyEq u v ∧ Conf L env t u := by
  induction h with
  | null => exact ⟨_, ⟨1, fun n hn => by obtain ⟨m, rfl⟩ : ∃ m, n = m + 1 := ⟨n - 1, by omega⟩
                                         rfl⟩, .refl _, .null⟩
  | boolean b => exact ⟨_, ⟨1, fun n hn => by obtain ⟨m, rfl⟩ : ∃ m, n = m + 1 := ⟨n - 1, by omega⟩
                                              rfl⟩, .refl _, .boolean b⟩
  | int hi => exact ⟨_, ⟨1, fun n hn => by obtain ⟨m, rfl⟩ : ∃ m, n = m + 1 := ⟨n - 1, by omega⟩
                                           rfl⟩, .refl _, .int hi⟩
  | long hi => exact ⟨_, ⟨1, fun n hn => by obtain ⟨m, rfl⟩ : ∃ m, n = m + 1 := ⟨n - 1, by omega⟩
                                            rfl⟩, .refl _, .long hi⟩
  | float f => exact ⟨_, ⟨1, fun n hn => by obtain ⟨m, rfl⟩ : ∃ m, n = m + 1 := ⟨n - 1, by omega⟩
                                            rfl⟩, .refl _, .float f⟩
  | double f => exact ⟨_, ⟨1, fun n hn => by obtain ⟨m, rfl⟩ : ∃ m, n = m + 1 := ⟨n - 1, by omega⟩
                                             rfl⟩, .refl _, .double f⟩
  | intBool b h => exact absurd h hL.boolInt
  | longBool b h => exact absurd h hL.boolInt
  | @bytes v hb =>
    obtain ⟨s, rfl⟩ := hL.bytes _ hb
    exact ⟨_, ⟨1, fun n hn => by obtain ⟨m, rfl⟩ : ∃ m, n = m + 1 := ⟨n - 1, by omega⟩
                                 rfl⟩, .refl _, .bytes hb⟩
  | string s => exact ⟨_, ⟨1, fun n hn => by obtain ⟨m, rfl⟩ : ∃ m, n = m + 1 := ⟨n - 1, by omega⟩
                                             rfl⟩, .refl _, .string s⟩
  | @fixed n k v hb =>
    obtain ⟨s, rfl, hk⟩ := hL.fixed _ _ hb
    exact ⟨_, ⟨1, fun n hn => by obtain ⟨m, rfl⟩ : ∃ m, n = m + 1 := ⟨n - 1, by omega⟩
                                 simp [enc, encStep, hk]⟩, .refl _, .fixed hb⟩
  | @enum n syms s he =>
    exact ⟨_, ⟨1, fun n hn => by obtain ⟨m, rfl⟩ : ∃ m, n = m + 1 := ⟨n - 1, by omega⟩
                                 simp [enc, encStep, hL.enum _ _ he]⟩, .refl _, .enum he⟩
  | @array t xs h ih =>
    obtain ⟨g, hg⟩ := choose_mem (fun x hx => ih x hx (hU.array _ ht))
    obtain ⟨N, hN⟩ := ev_list (P := fun n x => enc true env n t x = .ok (g x)) (fun x hx => (hg x hx).1)
    refine ⟨_, ⟨N + 1, fun n hn => ?_⟩, arr_rebuild (fun x hx => (hg x hx).2)⟩
    obtain ⟨m, rfl⟩ : ∃ m, n = m + 1 := ⟨n - 1, by omega⟩
    simp only [enc, encStep, mapR_map (hN m (by omega)), Res.app]
  | @map t d hw h ih =>
    obtain ⟨g, hg⟩ := choose_mem (xs := d) (P := fun kv u => Ends (enc true env) t kv.2 u ∧ PyEq u kv.2 ∧ Conf L env t u)
      (fun kv hx => ih kv.1 kv.2 hx (hU.map _ ht))
    obtain ⟨N, hN⟩ := ev_list (P := fun n kv => enc true env n t kv.2 = .ok (g kv)) (fun x hx => (hg x hx).1)
    refine ⟨_, ⟨N + 1, fun n hn => ?_⟩, map_rebuild hw (fun x hx => (hg x hx).2)⟩
    obtain ⟨m, rfl⟩ : ∃ m, n = m + 1 := ⟨n - 1, by omega⟩
    simp only [enc, encStep, mapD_map (hN m (by omega)), Res.app]
  | @record n fs d x hf hw hk hx hc ih =>
    obtain ⟨g, hg⟩ := choose_fields (hU.names n fs hf)
      (P := fun fd u => Ends (enc true env) fd.type (x fd.name) u ∧ PyEq u (x fd.name) ∧ Conf L env fd.type u)
      (fun fd hfd => ih fd hfd (hU.record n fs fd ht hf hfd))
    obtain ⟨N, hN⟩ := ev_list (P := fun n (fd : Field) => enc true env n fd.type (x fd.name) = .ok (g fd.name)) (xs := fs)
      (fun fd hfd => (hg fd hfd).1)
    refine ⟨_, ⟨N + 1, fun n hn => ?_⟩,
      record_rebuild hf hk hx (fun fd hfd => (hg fd hfd).2.1) (fun fd hfd => (hg fd hfd).2.2)⟩
    obtain ⟨m, rfl⟩ : ∃ m, n = m + 1 := ⟨n - 1, by omega⟩
    simp only [enc, encStep, hf, encFields_all (fun fd hfd => ⟨_, hx fd hfd, hN m (by omega) fd hfd⟩), Res.app]
  | @unionNull ts hm =>
    exact ⟨_, ⟨1, fun n hn => by
      obtain ⟨m, rfl⟩ : ∃ m, n = m + 1 := ⟨n - 1, by omega⟩
      simp only [enc, encStep]
      rw [if_pos ⟨hm, trivial⟩]⟩, .refl _, .unionNull hm⟩
  | unionNullTag h => exact absurd h hL.nullTag
  | @union ts t v hm hne hc ih =>
    obtain ⟨u, ⟨N, hN⟩, h1, h2⟩ := ih (hU.union ts ht t hm)
    obtain ⟨M, hM⟩ := ev_list (P := fun n t' => t' ≠ t → enc true env n t' v = .error .avro) (xs := ts)
      (fun t' ht' => by
        by_cases he : t' = t
        · exact ⟨0, fun _ _ h => absurd he h⟩
        · obtain ⟨K, hK⟩ := hA ts t t' v ht hm ht' he hc
          exact ⟨K, fun n hn _ => hK n hn⟩)
    refine ⟨_, ⟨max N M + 1, fun n hn => ?_⟩, tag_rebuild hm hne h1 h2⟩
    obtain ⟨m, rfl⟩ : ∃ m, n = m + 1 := ⟨n - 1, by omega⟩
    have hno : ¬ (.null ∈ ts ∧ Val.dict [(t.name, v)] = .null) := by rintro ⟨_, h⟩; cases h
    simp only [enc, encStep, if_neg hno, encTagged,
      encFirst_hit hm (hN m (by omega)) (hM m (by omega)), if_true]

/-- C07: encoding and decoding again gives an equal datum, with the same union tags.
Partial: members of a union must not encode each other's data. -/
theorem roundtrip_partial {pf : List Char → Option Flt} {L : Lim} {env : Env} {U : AType → Prop} (hL : Plain L)
    (hU : Tags env U) (hA : Apart true L env U) {t : AType} {v : Val} (ht : U t) (h : Conf L env t v) :
    ∃ j u, Ends (enc true env) t v j ∧ Ends (dec pf env) t j u ∧ PyEq u v := by
  obtain ⟨j, h1, h2, h3⟩ := enc_fix hL hU hA ht h
  obtain ⟨u, h4, h5, _⟩ := dec_fix (pf := pf) hL hU ht h3
  exact ⟨j, u, h1, h4, h5.trans h2⟩

/-! ## A syntactic condition: members of different JSON kinds -/

/-- JSON kinds. -/
inductive Kind where
  | null | bool | num | str | arr | obj | other
deriving DecidableEq

/-- The kind of the data of a type. -/
def AType.kind : AType → Kind
  | .null => .null | .boolean => .bool
  | .int => .num | .long => .num | .float => .num | .double => .num
  | .bytes => .str | .string => .str | .fixed _ _ => .str | .enum _ _ => .str
  | .array _ => .arr | .map _ => .obj | .record _ => .obj | .union _ => .other

mutual
/-- Conforming data contain no `bytes` objects, stated as a function of the value. -/
theorem hasBytesL_false (xs : List Val) (h : ∀ x ∈ xs, hasBytes x = false) : hasBytesL xs = false := by
  match xs with
  | [] => rfl
  | x :: xs => simp [hasBytesL, h x (by simp), hasBytesL_false xs (fun y hy => h y (by simp [hy]))]
end

theorem hasBytesD_false (d : List (String × Val)) (h : ∀ k x, (k, x) ∈ d → hasBytes x = false) : hasBytesD d = false := by
  induction d with
  | nil => rfl
  | cons kv d ih =>
    obtain ⟨k, x⟩ := kv
    simp only [hasBytesD, h k x (by simp), Bool.false_or]
    exact ih (fun k' y hy => h k' y (by simp [hy]))

theorem conf_noBytes {L : Lim} {env : Env} (hL : Plain L) {t : AType} {v : Val} (h : Conf L env t v) :
    hasBytes v = false := by
  induction h with
  | bytes hb => obtain ⟨s, rfl⟩ := hL.bytes _ hb; rfl
  | fixed hb => obtain ⟨s, rfl, _⟩ := hL.fixed _ _ hb; rfl
  | array _ ih => exact hasBytesL_false _ ih
  | map _ _ ih => exact hasBytesD_false _ ih
  | @record n fs d x hf hw hk hx hc ih =>
    refine hasBytesD_false _ (fun k y hy => ?_)
    obtain ⟨f, hf1, rfl⟩ := hk k (List.mem_map.2 ⟨_, hy, rfl⟩)
    have := PyDict.get?_of_mem hw hy
    rw [hx f hf1] at this; cases this
    exact ih f hf1
  | @union ts t v _ _ _ ih => simp [hasBytes, hasBytesD, ih]
  | unionNullTag => rfl
  | _ => rfl

/-- Members of pairwise different kinds do not encode each other's data. -/
theorem apart_of_kinds {L : Lim} {env : Env} {U : AType → Prop} (tagged : Bool) (hL : Plain L)
    (hk : ∀ ts t t', U (.union ts) → t ∈ ts → t' ∈ ts → t' ≠ t → t'.kind ≠ t.kind ∧ t.kind ≠ .other ∧ t'.kind ≠ .other) :
    Apart tagged L env U := by
  intro ts t t' v hU ht ht' hne hc
  obtain ⟨h1, h2, h3⟩ := hk ts t t' hU ht ht' hne
  have hb := conf_noBytes hL hc
  have hm : mismatch v = .avro := by simp [mismatch, hb]
  refine ⟨1, fun n hn => ?_⟩
  obtain ⟨m, rfl⟩ : ∃ m, n = m + 1 := ⟨n - 1, by omega⟩
  simp only [enc]
  cases hc with
  | bytes hb' =>
    obtain ⟨s, rfl⟩ := hL.bytes _ hb'
    cases t' <;> first | exact absurd rfl h1 | exact absurd rfl h3 | exact congrArg Except.error hm
  | fixed hb' =>
    obtain ⟨s, rfl, _⟩ := hL.fixed _ _ hb'
    cases t' <;> first | exact absurd rfl h1 | exact absurd rfl h3 | exact congrArg Except.error hm
  | intBool b h => exact absurd h hL.boolInt
  | longBool b h => exact absurd h hL.boolInt
  | unionNull | unionNullTag | union => exact absurd rfl h2
  | _ => cases t' <;> first | exact absurd rfl h1 | exact absurd rfl h3 | exact congrArg Except.error hm

end Verif.Avro
