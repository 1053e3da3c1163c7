import Verif.Avro.Check
/-!
# C09: `checkData` returns conforming data, leaves conforming data alone, and terminates
-/

namespace Verif.Avro

/-- What `checkData` guarantees: `bytes` objects for bytes and fixed, without the size; text for
enumerations, without the symbols; integers without range, True and False included. -/
def engine : Lim where
  int _ := True
  long _ := True
  bytes v := ∃ b, v = .bytes b
  fixed _ v := ∃ b, v = .bytes b
  enum _ _ := True
  nullTag := False
  boolInt := True

theorem chkInt_ok {v u : Val} (h : chkInt v = .ok u) : (∃ i, u = .int i) ∨ ∃ b, u = .bool b := by
  unfold chkInt at h
  split at h <;> first | (cases h; done) | (cases h; exact .inl ⟨_, rfl⟩) | (cases h; exact .inr ⟨_, rfl⟩) | skip
  split at h <;> cases h
  exact .inl ⟨_, rfl⟩

theorem chkFlt_ok {pf : List Char → Option Flt} {v u : Val} (h : chkFlt pf v = .ok u) : ∃ f, u = .flt f := by
  unfold chkFlt at h
  split at h <;> first | (cases h; done) | (cases h; exact ⟨_, rfl⟩) | skip
  · split at h <;> cases h
    exact ⟨_, rfl⟩
  · obtain ⟨a, _, rfl⟩ := app_ok.1 h; exact ⟨a, rfl⟩

theorem chkBytes_ok {v u : Val} (h : chkBytes v = .ok u) : ∃ b, u = .bytes b := by
  unfold chkBytes at h
  split at h <;> first | (cases h; done) | (cases h; exact ⟨_, rfl⟩) | skip
  obtain ⟨a, _, rfl⟩ := app_ok.1 h; exact ⟨a, rfl⟩

theorem chkMap_ok {f : Val → Res Val} {d out e : List (String × Val)} {P : Val → Prop} (hw : PyDict.WF out)
    (ho : ∀ k x, (k, x) ∈ out → P x) (hf : ∀ k x y, (k, x) ∈ d → f x = .ok y → P y) (h : chkMap f d out = .ok e) :
    PyDict.WF e ∧ ∀ k x, (k, x) ∈ e → P x := by
  induction d generalizing out with
  | nil => cases h; exact ⟨hw, ho⟩
  | cons kv d ih =>
    obtain ⟨k, x⟩ := kv
    simp only [chkMap] at h
    cases hx : f x with
    | error _ => rw [hx] at h; cases h
    | ok y =>
      rw [hx] at h
      refine ih (PyDict.set_nodup hw _ _) ?_ (fun k' x' y' hm => hf k' x' y' (by simp [hm])) h
      intro k' z hz
      have := PyDict.get?_of_mem (PyDict.set_nodup hw k y) hz
      rw [PyDict.get?_set] at this
      by_cases he : k = k'
      · rw [if_pos he] at this; cases this; exact hf k x y (by simp) hx
      · rw [if_neg he] at this; exact ho k' z (PyDict.mem_of_get? this)

theorem chkAt_ok {f : Val → Res Val} {xs : List Val} {i : Int} {u : Val} : chkAt f xs i ≠ .ok u := by
  unfold chkAt
  intro h
  split at h
  · split at h
    · split at h <;> cases h
    · cases h
  · cases h

theorem chkListAsMap_ok {f : Val → Res Val} {xs : List Val} {key u : Val} : chkListAsMap f xs key ≠ .ok u := by
  unfold chkListAsMap
  intro h
  split at h
  · exact chkAt_ok h
  · exact chkAt_ok h
  · cases h

theorem chkFields_ok {f : AType → Val → Res Val} {get : String → Option Val} {fs : List Field}
    {out d' : List (String × Val)} (hn : (fs.map Field.name).Nodup) (hw : PyDict.WF out)
    (h : chkFields f get fs out = .ok d') :
    PyDict.WF d' ∧ (∀ k, k ∉ fs.map Field.name → PyDict.get? d' k = PyDict.get? out k) ∧
    (∀ k ∈ PyDict.keys d', k ∈ PyDict.keys out ∨ k ∈ fs.map Field.name) ∧
    ∀ fd ∈ fs, ∃ x y, get fd.name = some x ∧ PyDict.get? d' fd.name = some y ∧ f fd.type x = .ok y := by
  induction fs generalizing out with
  | nil => cases h; exact ⟨hw, fun _ _ => rfl, fun _ hk => .inl hk, by simp⟩
  | cons fd fs ih =>
    simp only [chkFields] at h
    cases h1 : get fd.name with
    | none => rw [h1] at h; cases h
    | some x =>
      rw [h1] at h
      cases h2 : f fd.type x with
      | error _ => simp only [h2] at h; cases h
      | ok y =>
        simp only [h2] at h
        simp only [List.map_cons, List.nodup_cons] at hn
        obtain ⟨g1, g2, g3, g4⟩ := ih hn.2 (PyDict.set_nodup hw _ _) h
        refine ⟨g1, ?_, ?_, ?_⟩
        · intro k hk
          simp only [List.map_cons, List.mem_cons, not_or] at hk
          rw [g2 k hk.2, PyDict.get?_set_ne _ _ (Ne.symm hk.1)]
        · intro k hk
          rcases g3 k hk with h | h
          · have : (PyDict.get? (PyDict.set out fd.name y) k).isSome := (PyDict.get?_isSome_iff _ _).2 h
            rw [PyDict.get?_set] at this
            by_cases he : fd.name = k
            · right; simp [he]
            · rw [if_neg he] at this
              exact .inl ((PyDict.get?_isSome_iff _ _).1 this)
          · right; simp at h ⊢; exact .inr h
        · intro fd' hfd'
          rcases List.mem_cons.1 hfd' with rfl | hfd'
          · exact ⟨x, y, h1, by rw [g2 _ hn.1]; simp, h2⟩
          · exact g4 fd' hfd'

theorem chkTag_ok {f : AType → Val → Res Val} {tag : String} {x u : Val} {ts : List AType}
    (h : chkTag f tag x ts = .ok u) : ∃ t ∈ ts, t.name = tag ∧
      ((tag = "null" ∧ f t x = .ok u) ∨ (tag ≠ "null" ∧ ∃ y, f t x = .ok y ∧ u = .dict [(tag, y)])) := by
  induction ts with
  | nil => cases h
  | cons t ts ih =>
    simp only [chkTag] at h
    by_cases h1 : t.name = tag
    · rw [if_pos h1] at h
      by_cases h2 : tag = "null"
      · rw [if_pos h2] at h; exact ⟨t, by simp, h1, .inl ⟨h2, h⟩⟩
      · rw [if_neg h2] at h
        obtain ⟨y, hy, rfl⟩ := app_ok.1 h
        exact ⟨t, by simp, h1, .inr ⟨h2, y, hy, rfl⟩⟩
    · rw [if_neg h1] at h
      obtain ⟨t', h2, h3⟩ := ih h
      exact ⟨t', by simp [h2], h3⟩

theorem chkFirst_ok {f : AType → Val → Res Val} {v u : Val} {ts : List AType}
    (h : chkFirst f v ts = .ok u) : ∃ t ∈ ts,
      ((t.name = "null" ∧ f t v = .ok u) ∨ (t.name ≠ "null" ∧ ∃ y, f t v = .ok y ∧ u = .dict [(t.name, y)])) := by
  induction ts with
  | nil => cases h
  | cons t ts ih =>
    simp only [chkFirst] at h
    cases h1 : f t v with
    | ok y =>
      rw [h1] at h
      by_cases h2 : t.name = "null"
      · simp only [if_pos h2] at h; cases h; exact ⟨t, by simp, .inl ⟨h2, h1⟩⟩
      · simp only [if_neg h2] at h; cases h; exact ⟨t, by simp, .inr ⟨h2, y, h1, rfl⟩⟩
    | error e =>
      rw [h1] at h
      by_cases h2 : e = tyErr
      · simp only [if_pos h2] at h
        obtain ⟨t', h2, h3⟩ := ih h
        exact ⟨t', by simp [h2], h3⟩
      · simp only [if_neg h2] at h; cases h

/-- C09: what `checkData` returns conforms to the type, up to sizes, symbols and ranges. -/
theorem chk_sound {pf : List Char → Option Flt} {env : Env} {U : AType → Prop} (hU : Types env U)
    (n : Nat) (t : AType) (v u : Val) (ht : U t) (h : chk pf env n t v = .ok u) : Conf engine env t u := by
  induction n generalizing t v u with
  | zero => cases h
  | succ n ih =>
    simp only [chk] at h
    have wf0 : PyDict.WF ([] : List (String × Val)) := by simp [PyDict.WF, PyDict.keys]
    have empty_map : ∀ t, Conf engine env (.map t) (.dict []) := fun t => .map wf0 (by simp)
    cases t with
    | null =>
      cases v <;> simp only [chkStep] at h <;> first | (cases h; done) | (cases h; exact .null) | skip
      split at h <;> cases h
      exact .null
    | boolean =>
      cases v <;> simp only [chkStep] at h <;> first | (cases h; done) | (cases h; exact .boolean _) | skip
      split at h
      · cases h; exact .boolean _
      · split at h <;> cases h
        exact .boolean _
    | int =>
      rcases chkInt_ok h with ⟨i, rfl⟩ | ⟨b, rfl⟩
      · exact .int trivial
      · exact .intBool b trivial
    | long =>
      rcases chkInt_ok h with ⟨i, rfl⟩ | ⟨b, rfl⟩
      · exact .long trivial
      · exact .longBool b trivial
    | float => obtain ⟨f, rfl⟩ := chkFlt_ok h; exact .float f
    | double => obtain ⟨f, rfl⟩ := chkFlt_ok h; exact .double f
    | bytes => obtain ⟨b, rfl⟩ := chkBytes_ok h; exact .bytes ⟨b, rfl⟩
    | fixed m k => obtain ⟨b, rfl⟩ := chkBytes_ok h; exact .fixed ⟨b, rfl⟩
    | string => cases v <;> simp only [chkStep] at h <;> cases h; exact .string _
    | enum m syms => cases v <;> simp only [chkStep] at h <;> cases h; exact .enum trivial
    | array t =>
      simp only [chkStep] at h
      cases hi : iterVals v with
      | none => rw [hi] at h; cases h
      | some xs =>
        simp only [hi, app_ok] at h
        obtain ⟨ys, hy, rfl⟩ := h
        rw [mapR_ok] at hy
        refine .array (fun y hy' => ?_)
        obtain ⟨x, hx, hxy⟩ : ∃ x ∈ xs, chk pf env n t x = .ok y := by
          clear hi
          induction hy with
          | nil => cases hy'
          | cons h1 _ ih2 =>
            rcases List.mem_cons.1 hy' with rfl | hy'
            · exact ⟨_, by simp, h1⟩
            · obtain ⟨x, hx, hh⟩ := ih2 hy'
              exact ⟨x, by simp [hx], hh⟩
        exact ih t x y (hU.array _ ht) hxy
    | map t =>
      simp only [chkStep] at h
      split at h <;> first | (cases h; done) | (cases h; exact empty_map t) | exact absurd h chkListAsMap_ok | skip
      · obtain ⟨e, he, rfl⟩ := app_ok.1 h
        obtain ⟨h1, h2⟩ := chkMap_ok (P := Conf engine env t) wf0 (by simp)
          (fun k x y _ hxy => ih t x y (hU.map _ ht) hxy) he
        exact .map h1 h2
      · split at h <;> cases h
        exact empty_map t
    | record m =>
      simp only [chkStep] at h
      cases hf : env.fields? m with
      | none => rw [hf] at h; cases h
      | some fs =>
        simp only [hf] at h
        have none_case : fs = [] → Conf engine env (.record m) (.dict []) := by
          rintro rfl
          exact .record (fun _ => .null) hf wf0 (by simp [PyDict.keys]) (by simp) (by simp)
        split at h
        · next d =>
          obtain ⟨d', hd, rfl⟩ := app_ok.1 h
          obtain ⟨h1, h2, h3, h4⟩ := chkFields_ok (hU.names m fs hf) wf0 hd
          refine .record (fun k => (PyDict.get? d' k).getD .null) hf h1 ?_ ?_ ?_
          · intro k hk
            rcases h3 k hk with h | h
            · simp [PyDict.keys] at h
            · obtain ⟨f, hf1, hf2⟩ := List.mem_map.1 h; exact ⟨f, hf1, hf2⟩
          · intro f hfm
            obtain ⟨x, y, _, hy, _⟩ := h4 f hfm
            simp [hy]
          · intro f hfm
            obtain ⟨x, y, _, hy, hs⟩ := h4 f hfm
            simp only [hy, Option.getD_some]
            exact ih _ x y (hU.record m fs f ht hf hfm) hs
        · split at h
          · next h0 => cases h; exact none_case h0
          · cases h
        · split at h
          · next h0 => cases h; exact none_case h0
          · cases h
        · split at h
          · next h0 => cases h; exact none_case h0
          · cases h
        · cases h
    | union ts =>
      simp only [chkStep] at h
      have null_case : ∀ t x, t ∈ ts → t.name = "null" → chk pf env n t x = .ok u → Conf engine env (.union ts) u := by
        intro t x h1 h2 h3
        have := hU.null ts t ht h1 h2
        subst this
        have hc := ih _ x u (hU.union ts ht _ h1) h3
        rw [conf_null hc]
        exact .unionNull h1
      have tag_case : ∀ t x y, t ∈ ts → t.name ≠ "null" → chk pf env n t x = .ok y →
          Conf engine env (.union ts) (.dict [(t.name, y)]) := by
        intro t x y h1 h2 h3
        refine .union h1 ?_ (ih _ x y (hU.union ts ht _ h1) h3)
        rintro rfl; exact h2 rfl
      split at h
      · next tag x =>
        obtain ⟨t, h1, h2, h3⟩ := chkTag_ok h
        subst h2
        rcases h3 with ⟨h4, h5⟩ | ⟨h4, y, h5, rfl⟩
        · exact null_case t x h1 h4 h5
        · exact tag_case t x y h1 h4 h5
      · obtain ⟨t, h1, h3⟩ := chkFirst_ok h
        rcases h3 with ⟨h4, h5⟩ | ⟨h4, y, h5, rfl⟩
        · exact null_case t v h1 h4 h5
        · exact tag_case t v y h1 h4 h5

/-! ## Conforming data are left alone -/

/-- Limits of data in the form `checkData` produces. -/
structure ByteForm (L : Lim) : Prop where
  bytes : ∀ v, L.bytes v → ∃ b, v = .bytes b
  fixed : ∀ k v, L.fixed k v → ∃ b, v = .bytes b
  nullTag : ¬ L.nullTag

theorem engine_form : ByteForm engine := ⟨fun _ h => h, fun _ _ h => h, id⟩

theorem chkMap_map {f : Val → Res Val} {g : String × Val → Val} {d out : List (String × Val)}
    (h : ∀ kv ∈ d, f kv.2 = .ok (g kv)) (hn : (PyDict.keys out ++ PyDict.keys d).Nodup) :
    chkMap f d out = .ok (out ++ d.map (fun kv => (kv.1, g kv))) := by
  induction d generalizing out with
  | nil => simp [chkMap]
  | cons kv d ih =>
    obtain ⟨k, x⟩ := kv
    have hset : ∀ (o : List (String × Val)) y, k ∉ PyDict.keys o → PyDict.set o k y = o ++ [(k, y)] := by
      intro o y ho
      induction o with
      | nil => rfl
      | cons a o ih2 =>
        obtain ⟨a1, a2⟩ := a
        simp only [PyDict.keys, List.map_cons, List.mem_cons, not_or] at ho
        simp only [PyDict.set, if_neg (Ne.symm ho.1), List.cons_append]
        rw [ih2 ho.2]
    have hk : k ∉ PyDict.keys out := by
      intro hk
      rw [List.nodup_append] at hn
      exact hn.2.2 k hk k (by simp [PyDict.keys]) rfl
    have h0 := h (k, x) (by simp)
    simp only at h0
    simp only [chkMap, h0, hset out _ hk]
    rw [ih (fun kv hkv => h kv (by simp [hkv]))]
    · simp
    · simp only [PyDict.keys, List.map_append, List.map_cons, List.map_nil, List.append_assoc, List.singleton_append] at hn ⊢
      exact hn

theorem chkFields_all {f : AType → Val → Res Val} {get : String → Option Val} {g : String → Val}
    {fs : List Field} (h : ∀ fd ∈ fs, ∃ x, get fd.name = some x ∧ f fd.type x = .ok (g fd.name))
    (out : List (String × Val)) : chkFields f get fs out = .ok (setAll g fs out) := by
  induction fs generalizing out with
  | nil => rfl
  | cons fd fs ih =>
    obtain ⟨x, h1, h2⟩ := h fd (by simp)
    simp only [chkFields, h1, h2]
    exact ih (fun fd' h' => h fd' (by simp [h'])) _

theorem chkTag_hit {f : AType → Val → Res Val} {x u : Val} {ts : List AType} {t : AType} (ht : t ∈ ts)
    (hn : t.name ≠ "null") (hu : ∀ t' ∈ ts, t'.name = t.name → t' = t) (hf : f t x = .ok u) :
    chkTag f t.name x ts = .ok (.dict [(t.name, u)]) := by
  induction ts with
  | nil => cases ht
  | cons s ts ih =>
    simp only [chkTag]
    by_cases hs : s.name = t.name
    · have := hu s (by simp) hs
      subst this
      rw [if_pos rfl, if_neg hn, hf]; rfl
    · rw [if_neg hs]
      refine ih ?_ (fun t' h' => hu t' (by simp [h']))
      rcases List.mem_cons.1 ht with h | h
      · exact absurd (congrArg AType.name h.symm) hs
      · exact h

/-- Null is refused with TypeError by every type but null and unions. -/
theorem chk_null_refused {pf : List Char → Option Flt} {env : Env} {f : AType → Val → Res Val} {t : AType}
    (hf : t.flat = true) (hn : t ≠ .null) (hk : ∀ n, t = .record n → (env.fields? n).isSome) :
    chkStep pf env f t .null = .error tyErr := by
  cases t with
  | null => exact absurd rfl hn
  | union ts => cases hf
  | record n =>
    obtain ⟨fs, hfs⟩ := Option.isSome_iff_exists.1 (hk n rfl)
    simp [chkStep, hfs]
  | _ => rfl

/-- C09: `checkData` returns conforming data unchanged (the order of record fields aside). -/
theorem chk_fix {pf : List Char → Option Flt} {L : Lim} {env : Env} {U : AType → Prop} (hL : ByteForm L)
    (hU : Tags env U) (hflat : ∀ ts t, U (.union ts) → t ∈ ts → t.flat = true)
    (hk : ∀ n, U (.record n) → (env.fields? n).isSome) {t : AType} {v : Val} (ht : U t) (h : Conf L env t v) :
    ∃ u, Ends (chk pf env) t v u ∧ PyEq u v ∧ Conf L env t u := by
  have one : ∀ {t v}, Conf L env t v → (∀ f, chkStep pf env f t v = .ok v) →
      ∃ u, Ends (chk pf env) t v u ∧ PyEq u v ∧ Conf L env t u := by
    intro t v hc hs
    refine ⟨v, ⟨1, fun n hn => ?_⟩, .refl _, hc⟩
    obtain ⟨m, rfl⟩ : ∃ m, n = m + 1 := ⟨n - 1, by omega⟩
    exact hs _
  induction h with
  | null => exact one .null (fun _ => rfl)
  | boolean b => exact one (.boolean b) (fun _ => rfl)
  | int hi => exact one (.int hi) (fun _ => rfl)
  | long hi => exact one (.long hi) (fun _ => rfl)
  | float f => exact one (.float f) (fun _ => rfl)
  | double f => exact one (.double f) (fun _ => rfl)
  | intBool b h => exact one (.intBool b h) (fun _ => rfl)
  | longBool b h => exact one (.longBool b h) (fun _ => rfl)
  | @bytes v hb => obtain ⟨b, rfl⟩ := hL.bytes _ hb; exact one (.bytes hb) (fun _ => rfl)
  | string s => exact one (.string s) (fun _ => rfl)
  | @fixed n k v hb => obtain ⟨b, rfl⟩ := hL.fixed _ _ hb; exact one (.fixed hb) (fun _ => rfl)
  | @enum n syms s he => exact one (.enum he) (fun _ => rfl)
  | @array t xs h ih =>
    obtain ⟨g, hg⟩ := choose_mem (fun x hx => ih x hx (hU.array _ ht))
    obtain ⟨N, hN⟩ := ev_list (P := fun n x => chk pf env n t x = .ok (g x)) (fun x hx => (hg x hx).1)
    refine ⟨_, ⟨N + 1, fun n hn => ?_⟩, arr_rebuild (fun x hx => (hg x hx).2)⟩
    obtain ⟨m, rfl⟩ : ∃ m, n = m + 1 := ⟨n - 1, by omega⟩
    simp only [chk, chkStep, iterVals, mapR_map (hN m (by omega)), Res.app]
  | @map t d hw h ih =>
    obtain ⟨g, hg⟩ := choose_mem (xs := d) (P := fun kv u => Ends (chk pf env) t kv.2 u ∧ PyEq u kv.2 ∧ Conf L env t u)
      (fun kv hx => ih kv.1 kv.2 hx (hU.map _ ht))
    obtain ⟨N, hN⟩ := ev_list (P := fun n kv => chk pf env n t kv.2 = .ok (g kv)) (fun x hx => (hg x hx).1)
    refine ⟨_, ⟨N + 1, fun n hn => ?_⟩, map_rebuild hw (fun x hx => (hg x hx).2)⟩
    obtain ⟨m, rfl⟩ : ∃ m, n = m + 1 := ⟨n - 1, by omega⟩
    have hw' : (PyDict.keys ([] : List (String × Val)) ++ PyDict.keys d).Nodup := by
      simpa [PyDict.keys, PyDict.WF] using hw
    simp only [chk, chkStep, chkMap_map (out := []) (hN m (by omega)) hw', Res.app, List.nil_append]
  | @record n fs d x hf hw hkeys hx hc ih =>
    obtain ⟨g, hg⟩ := choose_fields (hU.names n fs hf)
      (P := fun fd u => Ends (chk pf env) fd.type (x fd.name) u ∧ PyEq u (x fd.name) ∧ Conf L env fd.type u)
      (fun fd hfd => ih fd hfd (hU.record n fs fd ht hf hfd))
    obtain ⟨N, hN⟩ := ev_list (P := fun n (fd : Field) => chk pf env n fd.type (x fd.name) = .ok (g fd.name)) (xs := fs)
      (fun fd hfd => (hg fd hfd).1)
    refine ⟨_, ⟨N + 1, fun n hn => ?_⟩,
      record_rebuild hf hkeys hx (fun fd hfd => (hg fd hfd).2.1) (fun fd hfd => (hg fd hfd).2.2)⟩
    obtain ⟨m, rfl⟩ : ∃ m, n = m + 1 := ⟨n - 1, by omega⟩
    simp only [chk, chkStep, hf, chkFields_all (fun fd hfd => ⟨_, hx fd hfd, hN m (by omega) fd hfd⟩), Res.app]
  | @unionNull ts hm =>
    refine ⟨.null, ⟨2, fun n hn => ?_⟩, .refl _, .unionNull hm⟩
    obtain ⟨m, rfl⟩ : ∃ m, n = m + 2 := ⟨n - 2, by omega⟩
    have hall : ∀ t ∈ ts, t.flat = true ∧ ∀ n, t = .record n → (env.fields? n).isSome := fun t h =>
      ⟨hflat ts t ht h, fun n hn => hk n (hn ▸ hU.union ts ht t h)⟩
    show chkFirst (chk pf env (m + 1)) .null ts = .ok .null
    clear ht
    induction ts with
    | nil => cases hm
    | cons t ts ih =>
      simp only [chkFirst]
      by_cases h0 : t = .null
      · subst h0; rfl
      · obtain ⟨h1, h2⟩ := hall t (by simp)
        have hr : chk pf env (m + 1) t .null = .error tyErr := chk_null_refused h1 h0 h2
        simp only [hr, if_pos]
        refine ih ?_ (fun t' h' => hall t' (by simp [h']))
        rcases List.mem_cons.1 hm with h | h
        · exact absurd h.symm h0
        · exact h
  | unionNullTag h => exact absurd h hL.nullTag
  | @union ts t v hm hne hc ih =>
    obtain ⟨u, ⟨N, hN⟩, h1, h2⟩ := ih (hU.union ts ht t hm)
    refine ⟨_, ⟨N + 1, fun n hn => ?_⟩, tag_rebuild hm hne h1 h2⟩
    obtain ⟨m, rfl⟩ : ∃ m, n = m + 1 := ⟨n - 1, by omega⟩
    have hn' : t.name ≠ "null" := fun h => hne (hU.null ts t ht hm h)
    simp only [chk, chkStep, chkTag_hit hm hn' (fun t' ht' he => hU.tags ts t t' ht hm ht' he) (hN m (by omega))]

/-- C09: `checkData` is idempotent. -/
theorem chk_idem {pf : List Char → Option Flt} {env : Env} {U : AType → Prop} (hU : Tags env U)
    (hflat : ∀ ts t, U (.union ts) → t ∈ ts → t.flat = true) (hk : ∀ n, U (.record n) → (env.fields? n).isSome)
    {n : Nat} {t : AType} {v u : Val} (ht : U t) (h : chk pf env n t v = .ok u) :
    ∃ w, Ends (chk pf env) t u w ∧ PyEq w u := by
  obtain ⟨w, h1, h2, _⟩ := chk_fix (pf := pf) engine_form hU hflat hk ht (chk_sound hU.toTypes n t v u ht h)
  exact ⟨w, h1, h2⟩

/-! ## Failures -/

theorem chkTag_err {f : AType → Val → Res Val} {tag : String} {x : Val} {ts : List AType} {e : Err}
    (h : chkTag f tag x ts = .error e) : e = tyErr ∨ ∃ t ∈ ts, f t x = .error e := by
  induction ts with
  | nil => cases h; exact .inl rfl
  | cons t ts ih =>
    simp only [chkTag] at h
    by_cases h1 : t.name = tag
    · rw [if_pos h1] at h
      by_cases h2 : tag = "null"
      · rw [if_pos h2] at h; exact .inr ⟨t, by simp, h⟩
      · rw [if_neg h2] at h
        exact .inr ⟨t, by simp, app_err.1 h⟩
    · rw [if_neg h1] at h
      rcases ih h with h2 | ⟨t', h2, h3⟩
      · exact .inl h2
      · exact .inr ⟨t', by simp [h2], h3⟩

theorem chkFirst_err {f : AType → Val → Res Val} {v : Val} {ts : List AType} {e : Err}
    (h : chkFirst f v ts = .error e) : e = tyErr ∨ ∃ t ∈ ts, f t v = .error e := by
  induction ts with
  | nil => cases h; exact .inl rfl
  | cons t ts ih =>
    simp only [chkFirst] at h
    cases h1 : f t v with
    | ok y => rw [h1] at h; cases h
    | error e' =>
      rw [h1] at h
      by_cases h2 : e' = tyErr
      · simp only [if_pos h2] at h
        rcases ih h with h2 | ⟨t', h2, h3⟩
        · exact .inl h2
        · exact .inr ⟨t', by simp [h2], h3⟩
      · simp only [if_neg h2] at h; cases h; exact .inr ⟨t, by simp, h1⟩

theorem chkMap_err {f : Val → Res Val} {d out : List (String × Val)} {e : Err} (h : chkMap f d out = .error e) :
    ∃ k x, (k, x) ∈ d ∧ f x = .error e := by
  induction d generalizing out with
  | nil => cases h
  | cons kv d ih =>
    obtain ⟨k, x⟩ := kv
    simp only [chkMap] at h
    cases hx : f x with
    | error _ => rw [hx] at h; cases h; exact ⟨k, x, by simp, hx⟩
    | ok y =>
      rw [hx] at h
      obtain ⟨k', x', h1, h2⟩ := ih h
      exact ⟨k', x', by simp [h1], h2⟩

theorem chkAt_err {f : Val → Res Val} {xs : List Val} {i : Int} {e : Err}
    (h : chkAt f xs i = .error e) : e = tyErr ∨ e = .py "IndexError" ∨ ∃ x ∈ xs, f x = .error e := by
  unfold chkAt at h
  split at h
  · split at h
    · next x hx =>
      split at h
      · cases h; exact .inl rfl
      · next hf => cases h; exact .inr (.inr ⟨x, List.mem_of_getElem? hx, hf⟩)
    · cases h; exact .inr (.inl rfl)
  · cases h; exact .inr (.inl rfl)

theorem chkListAsMap_err {f : Val → Res Val} {xs : List Val} {key : Val} {e : Err}
    (h : chkListAsMap f xs key = .error e) : e = tyErr ∨ e = .py "IndexError" ∨ ∃ x ∈ xs, f x = .error e := by
  unfold chkListAsMap at h
  split at h
  · exact chkAt_err h
  · exact chkAt_err h
  · cases h; exact .inl rfl

theorem chkFields_err {f : AType → Val → Res Val} {get : String → Option Val} {fs : List Field}
    {out : List (String × Val)} {e : Err} (h : chkFields f get fs out = .error e) :
    e = tyErr ∨ ∃ fd ∈ fs, ∃ x, get fd.name = some x ∧ f fd.type x = .error e := by
  induction fs generalizing out with
  | nil => cases h
  | cons fd fs ih =>
    simp only [chkFields] at h
    cases h1 : get fd.name with
    | none => rw [h1] at h; cases h; exact .inl rfl
    | some x =>
      rw [h1] at h
      cases h2 : f fd.type x with
      | error _ => simp only [h2] at h; cases h; exact .inr ⟨fd, by simp, x, h1, h2⟩
      | ok y =>
        simp only [h2] at h
        rcases ih h with h | ⟨fd', h3, h4⟩
        · exact .inl h
        · exact .inr ⟨fd', by simp [h3], h4⟩

/-- Leaf failures are TypeError or OverflowError. -/
theorem leaf_err {pf : List Char → Option Flt} {v : Val} {e : Err}
    (h : chkInt v = .error e ∨ chkFlt pf v = .error e ∨ chkBytes v = .error e) :
    e = tyErr ∨ e = .py "OverflowError" := by
  rcases h with h | h | h
  · unfold chkInt at h
    split at h <;> first | (cases h; exact .inl rfl) | (cases h; done) | skip
    split at h <;> cases h; exact .inl rfl
  · unfold chkFlt at h
    split at h <;> first | (cases h; exact .inl rfl) | (cases h; done) | skip
    · split at h <;> cases h; exact .inl rfl
    · rw [app_err] at h
      unfold intToFlt at h
      split at h <;> cases h; exact .inr rfl
  · unfold chkBytes at h
    split at h <;> first | (cases h; exact .inl rfl) | (cases h; done) | skip
    rw [app_err] at h
    unfold Slice.stringToBytes at h
    split at h <;> cases h; exact .inl rfl

/-- The parts of the datum that one level of `checkData` may look at, with their types. -/
def kids (env : Env) (t : AType) (v : Val) : List (AType × Val) :=
  match t with
  | .array t => ((iterVals v).getD []).map (fun x => (t, x))
  | .map t => match v with
    | .dict d => d.map (fun kv => (t, kv.2))
    | .arr xs => xs.map (fun x => (t, x))
    | .bytes b => b.map (fun n : Nat => (t, .int n))
    | _ => []
  | .record n => match v with
    | .dict d => ((env.fields? n).getD []).flatMap (fun fd => d.map (fun kv => (fd.type, kv.2)))
    | _ => []
  | .union ts => match v with
    | .dict [(_, x)] => ts.map (fun t => (t, x))
    | _ => ts.map (fun t => (t, v))
  | _ => []

/-- One level of `checkData` fails by itself only with TypeError, IndexError or OverflowError; all other
failures come from a part of the datum. -/
theorem chkStep_err {pf : List Char → Option Flt} {env : Env} {f : AType → Val → Res Val} {t : AType} {v : Val} {e : Err}
    (h : chkStep pf env f t v = .error e) :
    e = tyErr ∨ e = .py "IndexError" ∨ e = .py "OverflowError" ∨ e = .py "KeyError" ∨
      ∃ p ∈ kids env t v, f p.1 p.2 = .error e := by
  have ty : e = tyErr → e = tyErr ∨ e = .py "IndexError" ∨ e = .py "OverflowError" ∨ e = .py "KeyError" ∨
      ∃ p ∈ kids env t v, f p.1 p.2 = .error e := .inl
  have fin : (e = tyErr ∨ e = .py "OverflowError") → e = tyErr ∨ e = .py "IndexError" ∨ e = .py "OverflowError" ∨
      e = .py "KeyError" ∨ ∃ p ∈ kids env t v, f p.1 p.2 = .error e := by
    rintro (h | h)
    · exact .inl h
    · exact .inr (.inr (.inl h))
  have kid : ∀ t' v', (t', v') ∈ kids env t v → f t' v' = .error e → e = tyErr ∨ e = .py "IndexError" ∨
      e = .py "OverflowError" ∨ e = .py "KeyError" ∨ ∃ p ∈ kids env t v, f p.1 p.2 = .error e :=
    fun t' v' h1 h2 => .inr (.inr (.inr (.inr ⟨(t', v'), h1, h2⟩)))
  cases t with
  | null =>
    left; simp only [chkStep] at h
    split at h <;> first | (cases h; rfl) | (cases h; done) | (split at h <;> cases h; rfl)
  | boolean =>
    left; simp only [chkStep] at h
    split at h <;> first | (cases h; rfl) | (cases h; done) | skip
    split at h
    · cases h
    · split at h <;> cases h; rfl
  | int => exact fin (leaf_err (pf := pf) (.inl h))
  | long => exact fin (leaf_err (pf := pf) (.inl h))
  | float => exact fin (leaf_err (.inr (.inl h)))
  | double => exact fin (leaf_err (.inr (.inl h)))
  | bytes => exact fin (leaf_err (pf := pf) (.inr (.inr h)))
  | fixed _ _ => exact fin (leaf_err (pf := pf) (.inr (.inr h)))
  | string => left; simp only [chkStep] at h; split at h <;> cases h; rfl
  | enum _ _ => left; simp only [chkStep] at h; split at h <;> cases h; rfl
  | array t =>
    simp only [chkStep] at h
    split at h
    · next xs hi =>
      rw [app_err] at h
      obtain ⟨x, hm, hx⟩ := mapR_err h
      exact kid t x (by simp only [kids, hi, Option.getD_some]; exact List.mem_map.2 ⟨x, hm, rfl⟩) hx
    · cases h; exact .inl rfl
  | map t =>
    simp only [chkStep] at h
    split at h <;> first | (cases h; exact .inl rfl) | (cases h; done) | skip
    · next d =>
      rw [app_err] at h
      obtain ⟨k, x, hm, hx⟩ := chkMap_err h
      exact kid t x (List.mem_map.2 ⟨(k, x), hm, rfl⟩) hx
    · next y ys =>
      rcases chkListAsMap_err h with h | h | ⟨x, hm, hx⟩
      · exact .inl h
      · exact .inr (.inl h)
      · exact kid t x (List.mem_map.2 ⟨x, hm, rfl⟩) hx
    · split at h <;> cases h; exact .inl rfl
    · next y ys =>
      rcases chkListAsMap_err h with h | h | ⟨x, hm, hx⟩
      · exact .inl h
      · exact .inr (.inl h)
      · obtain ⟨n, hn, rfl⟩ := List.mem_map.1 hm
        exact kid t _ (List.mem_map.2 ⟨n, hn, rfl⟩) hx
  | record n =>
    simp only [chkStep] at h
    split at h
    · cases h; exact .inr (.inr (.inr (.inl rfl)))
    next fs hfs =>
    split at h
    · next d =>
      rw [app_err] at h
      rcases chkFields_err h with h | ⟨fd, hfd, x, hg, hx⟩
      · exact .inl h
      · refine kid _ x ?_ hx
        simp only [kids, hfs, Option.getD_some, List.mem_flatMap]
        exact ⟨fd, hfd, List.mem_map.2 ⟨(fd.name, x), PyDict.mem_of_get? hg, rfl⟩⟩
    · split at h <;> cases h; exact .inl rfl
    · split at h <;> cases h; exact .inl rfl
    · split at h <;> cases h; exact .inl rfl
    · cases h; exact .inl rfl
  | union ts =>
    by_cases hs : ∃ tag x, v = .dict [(tag, x)]
    · obtain ⟨tag, x, rfl⟩ := hs
      simp only [chkStep] at h
      rcases chkTag_err h with h | ⟨t, hm, hx⟩
      · exact .inl h
      · exact kid t x (List.mem_map.2 ⟨t, hm, rfl⟩) hx
    · have h1 : chkStep pf env f (.union ts) v = chkFirst f v ts := by
        simp only [chkStep]
        split
        · exact absurd ⟨_, _, rfl⟩ hs
        · rfl
      have h2 : kids env (.union ts) v = ts.map (fun t => (t, v)) := by
        simp only [kids]
        split
        · exact absurd ⟨_, _, rfl⟩ hs
        · rfl
      rw [h1] at h
      rcases chkFirst_err h with h | ⟨t, hm, hx⟩
      · exact .inl h
      · exact kid t v (by rw [h2]; exact List.mem_map.2 ⟨t, hm, rfl⟩) hx

/-- C09: `checkData` fails only with TypeError, IndexError, OverflowError (or out of stack, or with a
record that is not in the table). -/
theorem chk_fails {pf : List Char → Option Flt} {env : Env}
    (n : Nat) (t : AType) (v : Val) (e : Err) (h : chk pf env n t v = .error e) :
    e = tyErr ∨ e = .py "IndexError" ∨ e = .py "OverflowError" ∨ e = .py "KeyError" ∨ e = recErr := by
  induction n generalizing t v with
  | zero => cases h; exact .inr (.inr (.inr (.inr rfl)))
  | succ n ih =>
    rcases chkStep_err h with h | h | h | h | ⟨p, _, h⟩
    · exact .inl h
    · exact .inr (.inl h)
    · exact .inr (.inr (.inl h))
    · exact .inr (.inr (.inr (.inl h)))
    · exact ih p.1 p.2 h

/-! ## Termination -/

mutual
/-- Nesting depth of a datum; iterating text gives text again. -/
def rk : Val → Nat
  | .str _ => 1
  | .bytes _ => 1
  | .arr xs => rkL xs + 1
  | .dict d => rkD d + 2
  | _ => 0
def rkL : List Val → Nat
  | [] => 0
  | x :: xs => max (rk x) (rkL xs)
def rkD : List (String × Val) → Nat
  | [] => 0
  | (_, x) :: xs => max (rk x) (rkD xs)
end

theorem rk_mem {xs : List Val} {x : Val} (h : x ∈ xs) : rk x ≤ rkL xs := by
  induction xs with
  | nil => cases h
  | cons y ys ih =>
    simp only [rkL]
    rcases List.mem_cons.1 h with rfl | h
    · omega
    · have := ih h; omega

theorem rk_memD {d : List (String × Val)} {k : String} {x : Val} (h : (k, x) ∈ d) : rk x ≤ rkD d := by
  induction d with
  | nil => cases h
  | cons y ys ih =>
    obtain ⟨k', y⟩ := y
    simp only [rkD]
    rcases List.mem_cons.1 h with h | h
    · cases h; omega
    · have := ih h; omega

/-- Parts are nested less deeply, or have a smaller type. -/
theorem kids_smaller {env : Env} {t : AType} {v : Val} {p : AType × Val} (h : p ∈ kids env t v) :
    rk p.2 < rk v ∨ (rk p.2 ≤ rk v ∧ sizeOf p.1 < sizeOf t) := by
  cases t with
  | array t =>
    simp only [kids, List.mem_map] at h
    obtain ⟨x, hx, rfl⟩ := h
    cases v <;> simp only [iterVals, Option.getD_none, Option.getD_some, List.not_mem_nil] at hx
    · right
      obtain ⟨c, _, rfl⟩ := List.mem_map.1 hx
      simp [rk]
    · left
      obtain ⟨c, _, rfl⟩ := List.mem_map.1 hx
      simp [rk]
    · left
      have := rk_mem hx
      simp only [rk]; omega
    · left
      obtain ⟨c, _, rfl⟩ := List.mem_map.1 hx
      simp [rk]
  | map t =>
    left
    cases v <;> simp only [kids, List.not_mem_nil] at h
    · obtain ⟨c, _, rfl⟩ := List.mem_map.1 h
      simp [rk]
    · obtain ⟨x, hx, rfl⟩ := List.mem_map.1 h
      have := rk_mem hx
      simp only [rk]; omega
    · obtain ⟨⟨k, x⟩, hx, rfl⟩ := List.mem_map.1 h
      have := rk_memD hx
      simp only [rk]; omega
  | record n =>
    left
    cases v <;> simp only [kids, List.not_mem_nil] at h
    obtain ⟨fd, _, h⟩ := List.mem_flatMap.1 h
    obtain ⟨⟨k, x⟩, hx, rfl⟩ := List.mem_map.1 h
    have := rk_memD hx
    simp only [rk]; omega
  | union ts =>
    right
    simp only [kids] at h
    split at h
    · obtain ⟨t, ht, rfl⟩ := List.mem_map.1 h
      have := sizeOf_mem_union ht
      simp only [rk, rkD]; omega
    · obtain ⟨t, ht, rfl⟩ := List.mem_map.1 h
      have := sizeOf_mem_union ht
      simp only; omega
  | _ => simp [kids] at h

/-- C09: `checkData` terminates on every datum and type, also on recursive types. -/
theorem chk_terminates (pf : List Char → Option Flt) (env : Env) (t : AType) (v : Val) :
    ∃ N, ∀ n ≥ N, chk pf env n t v ≠ .error recErr := by
  have key : ∀ (a b : Nat) (t : AType) (v : Val), rk v ≤ a → sizeOf t ≤ b →
      ∃ N, ∀ n ≥ N, chk pf env n t v ≠ .error recErr := by
    intro a
    induction a with
    | zero =>
      intro b
      induction b with
      | zero =>
        intro t v _ hb
        have : 0 < sizeOf t := by cases t <;> simp <;> omega
        omega
      | succ b ihb =>
        intro t v ha hb
        obtain ⟨N, hN⟩ := ev_list (P := fun n (p : AType × Val) => chk pf env n p.1 p.2 ≠ .error recErr)
          (xs := kids env t v) (fun p hp => by
            rcases kids_smaller hp with h | ⟨h1, h2⟩
            · omega
            · exact ihb p.1 p.2 (by omega) (by omega))
        refine ⟨N + 1, fun n hn h => ?_⟩
        obtain ⟨m, rfl⟩ : ∃ m, n = m + 1 := ⟨n - 1, by omega⟩
        rcases chkStep_err h with h | h | h | h | ⟨p, hp, h⟩
        · revert h; unfold recErr tyErr; decide
        · revert h; unfold recErr; decide
        · revert h; unfold recErr; decide
        · revert h; unfold recErr; decide
        · exact hN m (by omega) p hp h
    | succ a iha =>
      intro b
      induction b with
      | zero =>
        intro t v _ hb
        have : 0 < sizeOf t := by cases t <;> simp <;> omega
        omega
      | succ b ihb =>
        intro t v ha hb
        obtain ⟨N, hN⟩ := ev_list (P := fun n (p : AType × Val) => chk pf env n p.1 p.2 ≠ .error recErr)
          (xs := kids env t v) (fun p hp => by
            rcases kids_smaller hp with h | ⟨h1, h2⟩
            · exact iha _ p.1 p.2 (by omega) (Nat.le_refl _)
            · exact ihb p.1 p.2 (by omega) (by omega))
        refine ⟨N + 1, fun n hn h => ?_⟩
        obtain ⟨m, rfl⟩ : ∃ m, n = m + 1 := ⟨n - 1, by omega⟩
        rcases chkStep_err h with h | h | h | h | ⟨p, hp, h⟩
        · revert h; unfold recErr tyErr; decide
        · revert h; unfold recErr; decide
        · revert h; unfold recErr; decide
        · revert h; unfold recErr; decide
        · exact hN m (by omega) p hp h
  exact key _ _ t v (Nat.le_refl _) (Nat.le_refl _)

/-! ## C09 violations -/

/-- A conforming datum of type bytes comes back as a `bytes` object, which the encoder of the engine's
output then refuses with TypeError. -/
theorem chk_bytes_violation (pf : List Char → Option Flt) (env : Env) (n : Nat) :
    Conf strict env .bytes (.str "a") ∧ chk pf env (n + 1) .bytes (.str "a") = .ok (.bytes [97]) ∧
    enc true env (n + 1) .bytes (.bytes [97]) = .error (.py "TypeError") := by
  refine ⟨.bytes ⟨"a", rfl, ?_⟩, by rfl, by rfl⟩
  intro c hc
  simp at hc
  subst hc; decide

/-- Symbols, sizes and ranges are not checked. -/
theorem chk_lenient_violation (pf : List Char → Option Flt) (env : Env) (n : Nat) :
    chk pf env (n + 1) (.enum ⟨"", "E"⟩ ["A", "B"]) (.str "C") = .ok (.str "C") ∧
    chk pf env (n + 1) (.fixed ⟨"", "F"⟩ 4) (.bytes [1]) = .ok (.bytes [1]) ∧
    chk pf env (n + 1) .int (.int (2 ^ 31)) = .ok (.int (2 ^ 31)) ∧
    chk pf env (n + 1) .int (.bool true) = .ok (.bool true) ∧
    chk pf env (n + 2) (.array .string) (.str "ab") = .ok (.arr [.str "a", .str "b"]) := by
  refine ⟨rfl, rfl, rfl, rfl, by rfl⟩

/-- Text given without a tag to a union that lists int first becomes an integer. -/
theorem chk_retype_violation (pf : List Char → Option Flt) (env : Env) (n : Nat) :
    chk pf env (n + 2) (.union [.int, .string]) (.str "12") = .ok (.dict [("int", .int 12)]) := by rfl

/-- A list given to a map raises IndexError, which also escapes from a union that could take the list. -/
theorem chk_index_violation (pf : List Char → Option Flt) (env : Env) (n : Nat) :
    chk pf env (n + 2) (.union [.map .int, .array .int]) (.arr [.int 5]) = .error (.py "IndexError") := by rfl

/-- A concrete case: the recursive type of the round trip. -/
example (pf : List Char → Option Flt) : ∃ u, Ends (chk pf treeEnv) (.record ⟨"", "Tree"⟩)
    (.dict [("right", .null), ("value", .int 7), ("left", .null)]) u ∧
    PyEq u (.dict [("right", .null), ("value", .int 7), ("left", .null)]) := by
  have hc : Conf engine treeEnv (.record ⟨"", "Tree"⟩) (.dict [("right", .null), ("value", .int 7), ("left", .null)]) := by
    refine .record (fun k => if k = "value" then .int 7 else .null)
      (fs := [⟨"value", .int, none, .ascending⟩, ⟨"left", .union [.null, .record ⟨"", "Tree"⟩], none, .ascending⟩,
        ⟨"right", .union [.null, .record ⟨"", "Tree"⟩], none, .ascending⟩])
      (by simp [treeEnv, Env.fields?, PyDict.get?]) (by decide) ?_ ?_ ?_
    · intro k hk
      simp only [PyDict.keys, List.map_cons, List.map_nil, List.mem_cons, List.not_mem_nil, or_false] at hk
      rcases hk with rfl | rfl | rfl <;> simp
    · intro f hf
      simp only [List.mem_cons, List.not_mem_nil, or_false] at hf
      rcases hf with rfl | rfl | rfl <;> rfl
    · intro f hf
      simp only [List.mem_cons, List.not_mem_nil, or_false] at hf
      rcases hf with rfl | rfl | rfl
      · exact .int trivial
      · exact .unionNull (by simp)
      · exact .unionNull (by simp)
  obtain ⟨u, h1, h2, _⟩ := chk_fix (pf := pf) engine_form treeTypes_tags (by
      intro ts t h ht
      rcases h with h | h | h | h <;> cases h
      simp only [List.mem_cons, List.not_mem_nil, or_false] at ht
      rcases ht with rfl | rfl <;> rfl) (by
      intro n h
      rcases h with h | h | h | h <;> cases h
      simp [treeEnv, Env.fields?, PyDict.get?]) (.inl rfl) hc
  exact ⟨u, h1, h2⟩

end Verif.Avro
