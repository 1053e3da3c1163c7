import Verif.Types.Print

/-!
# Types as JSON: they come back (C99)
-/

namespace Verif.Types
open Avro

/-! ## Specification -/

/-- Named types that are written in a type. -/
inductive Occurs : Name → AType → Prop where
  | fixed {n s} : Occurs n (.fixed n s)
  | enum {n s} : Occurs n (.enum n s)
  | record {n} : Occurs n (.record n)
  | array {n t} (h : Occurs n t) : Occurs n (.array t)
  | map {n t} (h : Occurs n t) : Occurs n (.map t)
  | union {n t ts} (ht : t ∈ ts) (h : Occurs n t) : Occurs n (.union ts)

/-- Named types that are reached from a type through fields of records. -/
inductive Reach (env : Env) (t : AType) : Name → Prop where
  | here {n} (h : Occurs n t) : Reach env t n
  | there {r n fs f} (hr : Reach env t r) (hf : env.fields? r = some fs) (hm : f ∈ fs) (h : Occurs n f.type) : Reach env t n

/-- A name that can be read as it was printed inside the namespace `ns`. -/
structure NameOk (ns : String) (n : Name) : Prop where
  plain : '.' ∉ n.short.toList
  free : full n ∉ reserved
  bare : n.ns = "" → ns = ""

/-- A type that fits the definitions `D` of names (one for each name) and passes the checks of the reader, inside the namespace `ns`. -/
inductive Fits (C : Checks) (env : Env) (D : Name → Option AType) (ns : String) : AType → Prop where
  | null : Fits C env D ns .null
  | boolean : Fits C env D ns .boolean
  | int : Fits C env D ns .int
  | long : Fits C env D ns .long
  | float : Fits C env D ns .float
  | double : Fits C env D ns .double
  | bytes : Fits C env D ns .bytes
  | string : Fits C env D ns .string
  | fixed {n s} (hn : NameOk ns n) (hd : D n = some (.fixed n s)) (hc : C.fixed n s = true) : Fits C env D ns (.fixed n s)
  | enum {n s} (hn : NameOk ns n) (hd : D n = some (.enum n s)) (hc : C.enum n s = true) : Fits C env D ns (.enum n s)
  | record {n fs} (hn : NameOk ns n) (hd : D n = some (.record n)) (hf : env.fields? n = some fs) (hc : C.record n fs = true) : Fits C env D ns (.record n)
  | array {t} (h : Fits C env D ns t) : Fits C env D ns (.array t)
  | map {t} (h : Fits C env D ns t) : Fits C env D ns (.map t)
  | union {ts} (h : ∀ t ∈ ts, Fits C env D ns t) (hc : C.union ts = true) : Fits C env D ns (.union ts)

/-- The fields of all records fit, each inside the namespace of its record. -/
def FitsEnv (C : Checks) (env : Env) (D : Name → Option AType) : Prop :=
  ∀ n fs, env.fields? n = some fs → ∀ f ∈ fs, Fits C env D n.ns f.type ∧ f.default ≠ some .null

/-! ## Names -/

theorem nameIn_full {n : Name} {ns : String} (hp : '.' ∉ n.short.toList) (hb : n.ns = "" → ns = "") : nameIn ns (full n) = n := by
  obtain ⟨a, b⟩ := n
  simp only [full] at *
  split
  · next h =>
    simp only [nameIn, hp, if_false, hb h, h]
  · have e : (a ++ "." ++ b).toList = a.toList ++ '.' :: b.toList := by simp
    have er : (a ++ "." ++ b).toList.reverse = b.toList.reverse ++ '.' :: a.toList.reverse := by rw [e]; simp
    have hr : ∀ c ∈ b.toList.reverse, decide (c ≠ '.') = true := by
      intro c hc
      simp only [List.mem_reverse] at hc
      simp only [decide_eq_true_eq]
      rintro rfl
      exact hp hc
    have h1 : '.' ∈ (a ++ "." ++ b).toList := by rw [e]; simp
    simp only [nameIn, h1, if_true, Forward.nsOf, er]
    rw [List.takeWhile_append_of_pos hr, List.dropWhile_append_of_pos hr]
    simp

theorem nameIn_short {n : Name} (hp : '.' ∉ n.short.toList) : nameIn n.ns n.short = n := by
  simp [nameIn, hp]

theorem full_inj {n m : Name} (hn : '.' ∉ n.short.toList) (hm : '.' ∉ m.short.toList) (h : full n = full m) : n = m := by
  rw [← nameIn_full (ns := "") hn (fun _ => rfl), h, nameIn_full hm (fun _ => rfl)]

theorem prim_reserved {s : String} (h : s ∉ reserved) : prim? s = none := by
  simp only [reserved, List.mem_cons, List.not_mem_nil, or_false, not_or] at h
  simp [prim?, h]

/-! ## Invariants -/

section
variable {C : Checks} {env : Env} {D : Name → Option AType}

/-- The names known to the reader are those that were printed. -/
structure Inv (D : Name → Option AType) (M : Memo) (T : Tab) : Prop where
  names : ∀ n, '.' ∉ n.short.toList → PyDict.get? T.names n = if full n ∈ M then D n else none
  env : ∀ n, '.' ∉ n.short.toList → full n ∉ M → T.env.fields? n = none

/-- From one state of printing and reading to another. -/
structure Step (env : Env) (D : Name → Option AType) (M : Memo) (T : Tab) (M' : Memo) (T' : Tab) : Prop where
  inv : Inv D M' T'
  mono : ∀ x ∈ M, x ∈ M'
  keep : ∀ n, '.' ∉ n.short.toList → full n ∈ M → T'.env.fields? n = T.env.fields? n
  new : ∀ n fs, '.' ∉ n.short.toList → full n ∈ M' → full n ∉ M → D n = some (.record n) → env.fields? n = some fs →
    T'.env.fields? n = some fs ∧ ∀ f ∈ fs, ∀ x, Occurs x f.type → full x ∈ M'

theorem Step.refl {M : Memo} {T : Tab} (h : Inv D M T) : Step env D M T M T :=
  ⟨h, fun _ h => h, fun _ _ _ => rfl, fun _ _ _ h h' => absurd h h'⟩

theorem Step.trans {M M1 M2 : Memo} {T T1 T2 : Tab} (h1 : Step env D M T M1 T1) (h2 : Step env D M1 T1 M2 T2) : Step env D M T M2 T2 := by
  refine ⟨h2.inv, fun x hx => h2.mono x (h1.mono x hx), fun n hp hn => (h2.keep n hp (h1.mono _ hn)).trans (h1.keep n hp hn), ?_⟩
  intro n fs hp hin hout hd hf
  by_cases hm : full n ∈ M1
  · obtain ⟨e, ho⟩ := h1.new n fs hp hm hout hd hf
    exact ⟨(h2.keep n hp hm).trans e, fun f hf x hx => h2.mono _ (ho f hf x hx)⟩
  · exact h2.new n fs hp hin hm hd hf

/-- A new name. -/
theorem define_ok {ns : String} {M : Memo} {T : Tab} {n : Name} {a : AType} (h : Inv D M T) (hn : NameOk ns n) (hm : full n ∉ M) (hd : D n = some a) :
    define T n a = some { T with names := T.names.set n a } ∧ Inv D (full n :: M) { T with names := T.names.set n a } := by
  have h0 := h.names n hn.plain
  rw [if_neg hm] at h0
  refine ⟨?_, ?_, ?_⟩
  · simp [define, PyDict.has, h0, hn.free]
  · intro m hp
    by_cases e : n = m
    · subst e
      simp [PyDict.get?_set_self, hd]
    · have hf : full m ≠ full n := fun hf => e (full_inj hn.plain hp hf.symm)
      rw [PyDict.get?_set_ne _ _ e, h.names m hp]
      simp [hf]
  · intro m hp hm'
    exact h.env m hp (fun h => hm' (List.mem_cons_of_mem _ h))

/-- The records that are not printed yet are at most `k`. -/
def Room (env : Env) (k : Nat) (M : Memo) : Prop := ((PyDict.keys env).filter fun n => decide (full n ∉ M)).length ≤ k

theorem Room.mono {k : Nat} {M M' : Memo} (h : Room env k M) (hm : ∀ x ∈ M, x ∈ M') : Room env k M' := by
  refine Nat.le_trans ?_ h
  rw [← List.countP_eq_length_filter, ← List.countP_eq_length_filter]
  apply List.countP_mono_left
  intro x _ hx
  simp only [decide_eq_true_eq] at hx ⊢
  exact fun h => hx (hm _ h)

theorem mem_keys {n : Name} {fs : List Field} (h : env.fields? n = some fs) : n ∈ PyDict.keys env := by
  unfold Env.fields? at h
  induction env with
  | nil => simp [PyDict.get?] at h
  | cons kv env ih =>
    obtain ⟨k, v⟩ := kv
    simp only [PyDict.get?] at h
    split at h
    · next e => simp [PyDict.keys, e]
    · simpa [PyDict.keys] using Or.inr (by simpa [PyDict.keys] using ih h)

theorem Room.less {k : Nat} {M : Memo} {n : Name} (h : Room env k M) (hk : n ∈ PyDict.keys env) (hn : full n ∉ M) :
    ∃ k', k = k' + 1 ∧ Room env k' (full n :: M) := by
  have h1 : ((PyDict.keys env).filter fun m => decide (full m ∉ full n :: M)).length < ((PyDict.keys env).filter fun m => decide (full m ∉ M)).length := by
    generalize PyDict.keys env = l at hk
    induction l with
    | nil => cases hk
    | cons m l ih =>
      have hle : ((l.filter fun m => decide (full m ∉ full n :: M)).length) ≤ (l.filter fun m => decide (full m ∉ M)).length := by
        rw [← List.countP_eq_length_filter, ← List.countP_eq_length_filter]
        apply List.countP_mono_left
        intro x _ hx
        simp only [decide_eq_true_eq] at hx ⊢
        exact fun h => hx (List.mem_cons_of_mem _ h)
      by_cases e : n = m
      · subst e
        simp only [List.filter_cons, List.mem_cons, true_or, not_true_eq_false, decide_false, Bool.false_eq_true, if_false, hn, not_false_eq_true, decide_true, if_true,
          List.length_cons]
        simp only [List.mem_cons] at hle
        omega
      · have hk' : n ∈ l := by
          rcases List.mem_cons.1 hk with h | h
          · exact absurd h e
          · exact h
        have := ih hk'
        simp only [List.filter_cons]
        by_cases c1 : full m ∈ M
        · simp only [List.mem_cons, c1, or_true, not_true_eq_false, decide_false, Bool.false_eq_true, if_false] at this ⊢
          exact this
        · by_cases c2 : full m = full n
          · simp only [List.mem_cons, c2, true_or, not_true_eq_false, decide_false, Bool.false_eq_true, if_false]
            rw [← c2]
            simp only [c1, not_false_eq_true, decide_true, if_true, List.length_cons]
            simp only [List.mem_cons, c2] at hle ⊢
            omega
          · simp only [List.mem_cons, c1, c2, or_false, not_false_eq_true, decide_true, if_true, List.length_cons] at this ⊢
            omega
  unfold Room at h
  exact ⟨k - 1, by omega, by unfold Room; omega⟩

/-! ## Reading what was printed -/

/-- `v` is read as `t`, from the state `T` to the state `T'`. -/
def ReadsAs (C : Checks) (ns : String) (v : Val) (T : Tab) (t : AType) (T' : Tab) : Prop := ∃ N, ∀ j, N ≤ j → readT C j ns v T = some (t, T')

/-- Printing `t` after `M` and reading it after `T`. -/
def Comes (C : Checks) (env : Env) (D : Name → Option AType) (rec : Name → Memo → Val × Memo) (k : Nat) (ns : String) (t : AType) : Prop :=
  ∀ M T, Inv D M T → Room env k M → ∃ T', ReadsAs C ns (nodeWith rec t M).1 T t T' ∧ Step env D M T (nodeWith rec t M).2 T' ∧
    ∀ x, Occurs x t → full x ∈ (nodeWith rec t M).2

theorem reads_prim {ns s : String} {T : Tab} {t : AType} (h : prim? s = some t) : ReadsAs C ns (.str s) T t T :=
  ⟨1, fun j hj => by obtain ⟨i, rfl⟩ : ∃ i, j = i + 1 := ⟨j - 1, by omega⟩; simp [readT, h]⟩

theorem reads_name {ns : String} {T : Tab} {M : Memo} {n : Name} {t : AType} (h : Inv D M T) (hn : NameOk ns n) (hd : D n = some t) (hm : full n ∈ M) :
    ReadsAs C ns (.str (full n)) T t T :=
  ⟨1, fun j hj => by
    obtain ⟨i, rfl⟩ : ∃ i, j = i + 1 := ⟨j - 1, by omega⟩
    simp [readT, prim_reserved hn.free, nameIn_full hn.plain hn.bare, h.names n hn.plain, hm, hd]⟩

theorem step_define {ns : String} {M : Memo} {T : Tab} {n : Name} {a : AType} (h : Inv D M T) (hn : NameOk ns n) (hm : full n ∉ M) (hd : D n = some a)
    (hr : a ≠ .record n) : Step env D M T (full n :: M) { T with names := T.names.set n a } := by
  refine ⟨(define_ok h hn hm hd).2, fun x hx => List.mem_cons_of_mem _ hx, fun _ _ _ => rfl, ?_⟩
  intro m fs hp hin hout hd' hf
  rcases List.mem_cons.1 hin with e | e
  · have := full_inj hp hn.plain e
    subst this
    rw [hd] at hd'
    cases hd'
    exact absurd rfl hr
  · exact absurd e hout

theorem strAt_heading {n : Name} {d t : List (String × Val)} (hd : ∀ k ∈ PyDict.keys d, k ≠ "name" ∧ k ≠ "namespace") (he : ∀ k ∈ PyDict.keys t, k ≠ "name" ∧ k ≠ "namespace")
    {ns : String} (hn : NameOk ns n) : defName ns (d ++ heading n ++ t) = some n := by
  have skip : ∀ (d : List (String × Val)) (r : List (String × Val)) (k : String), k ∉ PyDict.keys d → PyDict.get? (d ++ r) k = PyDict.get? r k := by
    intro d r k h
    induction d with
    | nil => rfl
    | cons kv d ih =>
      obtain ⟨k', v⟩ := kv
      simp only [PyDict.keys, List.map_cons, List.mem_cons, not_or] at h
      simp only [List.cons_append, PyDict.get?, Ne.symm h.1, if_false]
      exact ih h.2
  have gone : ∀ (d : List (String × Val)) (k : String), k ∉ PyDict.keys d → PyDict.get? d k = none := by
    intro d k h
    have := skip d [] k h
    rw [List.append_nil] at this
    exact this
  have h1 : PyDict.get? (d ++ heading n ++ t) "name" = some (.str n.short) := by
    rw [List.append_assoc, skip _ _ _ (fun h => (hd _ h).1 rfl)]
    unfold heading
    split <;> simp [PyDict.get?]
  have h2 : PyDict.get? (d ++ heading n ++ t) "namespace" = if n.ns = "" then none else some (.str n.ns) := by
    rw [List.append_assoc, skip _ _ _ (fun h => (hd _ h).2 rfl)]
    unfold heading
    split
    · simp only [List.cons_append, List.nil_append, PyDict.get?]
      simpa using gone _ _ (fun h => (he _ h).2 rfl)
    · simp [PyDict.get?]
  have e : ((strAt (d ++ heading n ++ t) "namespace").getD ns) = n.ns := by
    unfold strAt
    rw [h2]
    by_cases hb : n.ns = ""
    · simp [hb, hn.bare hb]
    · simp [hb]
  have e' : strAt (d ++ heading n ++ t) "name" = some n.short := by unfold strAt; rw [h1]
  unfold defName
  rw [e, e']
  simp [nameIn_short hn.plain]

theorem strings_back (ss : List String) : strings (ss.map .str) = some ss := by
  induction ss with
  | nil => rfl
  | cons s ss ih => simp [strings, ih]

theorem reads_fixed {ns : String} {M : Memo} {T : Tab} {n : Name} {s : Nat} (h : Inv D M T) (hn : NameOk ns n) (hm : full n ∉ M) (hd : D n = some (.fixed n s))
    (hc : C.fixed n s = true) : ReadsAs C ns (.dict ([("type", .str "fixed"), ("size", .int s)] ++ heading n)) T (.fixed n s) { T with names := T.names.set n (.fixed n s) } := by
  refine ⟨1, fun j hj => ?_⟩
  obtain ⟨i, rfl⟩ : ∃ i, j = i + 1 := ⟨j - 1, by omega⟩
  have h1 := strAt_heading (n := n) (d := [("type", .str "fixed"), ("size", .int s)]) (t := []) (by simp [PyDict.keys]) (by simp [PyDict.keys]) hn
  rw [List.append_nil] at h1
  have h2 : strAt ([("type", Val.str "fixed"), ("size", .int s)] ++ heading n) "type" = some "fixed" := by simp [strAt, PyDict.get?]
  have h3 : PyDict.get? ([("type", Val.str "fixed"), ("size", .int s)] ++ heading n) "size" = some (.int (.ofNat s)) := by simp [PyDict.get?]
  simp only [readT, readDict, h2, if_true, readFixed, h1, h3, hc, (define_ok h hn hm hd).1, Option.map_some]

theorem reads_enum {ns : String} {M : Memo} {T : Tab} {n : Name} {s : List String} (h : Inv D M T) (hn : NameOk ns n) (hm : full n ∉ M) (hd : D n = some (.enum n s))
    (hc : C.enum n s = true) :
    ReadsAs C ns (.dict ([("type", .str "enum"), ("symbols", .arr (s.map .str))] ++ heading n)) T (.enum n s) { T with names := T.names.set n (.enum n s) } := by
  refine ⟨1, fun j hj => ?_⟩
  obtain ⟨i, rfl⟩ : ∃ i, j = i + 1 := ⟨j - 1, by omega⟩
  have h1 := strAt_heading (n := n) (d := [("type", .str "enum"), ("symbols", .arr (s.map .str))]) (t := []) (by simp [PyDict.keys]) (by simp [PyDict.keys]) hn
  rw [List.append_nil] at h1
  have h2 : strAt ([("type", Val.str "enum"), ("symbols", .arr (s.map .str))] ++ heading n) "type" = some "enum" := by simp [strAt, PyDict.get?]
  have h3 : PyDict.get? ([("type", Val.str "enum"), ("symbols", .arr (s.map .str))] ++ heading n) "symbols" = some (.arr (s.map .str)) := by simp [PyDict.get?]
  simp only [readT, readDict, h2, readEnum, h1, h3, strings_back, hc, if_true, (define_ok h hn hm hd).1, Option.map_some]
  simp

theorem reads_array {ns : String} {v : Val} {T T' : Tab} {t : AType} (h : ReadsAs C ns v T t T') : ReadsAs C ns (.dict [("type", .str "array"), ("items", v)]) T (.array t) T' := by
  obtain ⟨N, h⟩ := h
  refine ⟨N + 1, fun j hj => ?_⟩
  obtain ⟨i, rfl⟩ : ∃ i, j = i + 1 := ⟨j - 1, by omega⟩
  simp [readT, readDict, strAt, PyDict.get?, readColl, h i (by omega)]

theorem reads_map {ns : String} {v : Val} {T T' : Tab} {t : AType} (h : ReadsAs C ns v T t T') : ReadsAs C ns (.dict [("type", .str "map"), ("values", v)]) T (.map t) T' := by
  obtain ⟨N, h⟩ := h
  refine ⟨N + 1, fun j hj => ?_⟩
  obtain ⟨i, rfl⟩ : ∃ i, j = i + 1 := ⟨j - 1, by omega⟩
  simp [readT, readDict, strAt, PyDict.get?, readColl, h i (by omega)]

/-- A list of types. -/
theorem nodes_come {rec : Name → Memo → Val × Memo} {k : Nat} {ns : String} {ts : List AType} (h : ∀ t ∈ ts, Comes C env D rec k ns t) :
    ∀ M T, Inv D M T → Room env k M → ∃ T', (∃ N, ∀ j, N ≤ j → readL (readT C j ns) (nodesWith rec ts M).1 T = some (ts, T')) ∧
      Step env D M T (nodesWith rec ts M).2 T' ∧ ∀ t ∈ ts, ∀ x, Occurs x t → full x ∈ (nodesWith rec ts M).2 := by
  induction ts with
  | nil => intro M T hi _; exact ⟨T, ⟨0, fun _ _ => rfl⟩, .refl hi, by simp⟩
  | cons t ts ih =>
    intro M T hi hr
    obtain ⟨T1, ⟨N1, h1⟩, s1, o1⟩ := h t (by simp) M T hi hr
    obtain ⟨T2, ⟨N2, h2⟩, s2, o2⟩ := ih (fun t ht => h t (by simp [ht])) _ T1 s1.inv (hr.mono s1.mono)
    refine ⟨T2, ⟨max N1 N2, fun j hj => ?_⟩, s1.trans s2, ?_⟩
    · simp only [nodesWith, readL, h1 j (by omega), h2 j (by omega)]
    · intro t' ht' x hx
      rcases List.mem_cons.1 ht' with rfl | ht'
      · exact s2.mono _ (o1 x hx)
      · exact o2 t' ht' x hx

theorem field_back {f : Field} {v : Val} {g : Val → Tab → Option (AType × Tab)} {T T' : Tab} (h : g v T = some (f.type, T')) (hd : f.default ≠ some .null) :
    readField g (fieldNode f v) T = some (f, T') := by
  obtain ⟨n, t, d, o⟩ := f
  simp only at h hd
  cases d with
  | none => cases o <;> simp [readField, fieldNode, orderWord, strAt, PyDict.get?, orderOf, defaultOf, h]
  | some d =>
    have e : ∀ o : Option Val, o = some d → (match o with | some .null => none | o => o) = some d := by
      rintro _ rfl
      cases d <;> first | rfl | exact absurd rfl hd
    cases o <;> simp only [readField, fieldNode, orderWord, strAt, PyDict.get?, orderOf, defaultOf, h, List.cons_append, List.nil_append, String.reduceEq, if_false, if_true,
      Option.map_some, e _ rfl]

/-- The fields of a record. -/
theorem fields_come {rec : Name → Memo → Val × Memo} {k : Nat} {ns : String} {fs : List Field} (h : ∀ f ∈ fs, Comes C env D rec k ns f.type ∧ f.default ≠ some .null) :
    ∀ M T, Inv D M T → Room env k M → ∃ T', (∃ N, ∀ j, N ≤ j → readL (readField (readT C j ns)) (fieldsWith rec fs M).1 T = some (fs, T')) ∧
      Step env D M T (fieldsWith rec fs M).2 T' ∧ ∀ f ∈ fs, ∀ x, Occurs x f.type → full x ∈ (fieldsWith rec fs M).2 := by
  induction fs with
  | nil => intro M T hi _; exact ⟨T, ⟨0, fun _ _ => rfl⟩, .refl hi, by simp⟩
  | cons t ts ih =>
    intro M T hi hr
    obtain ⟨T1, ⟨N1, h1⟩, s1, o1⟩ := (h t (by simp)).1 M T hi hr
    obtain ⟨T2, ⟨N2, h2⟩, s2, o2⟩ := ih (fun t ht => h t (by simp [ht])) _ T1 s1.inv (hr.mono s1.mono)
    refine ⟨T2, ⟨max N1 N2, fun j hj => ?_⟩, s1.trans s2, ?_⟩
    · simp only [fieldsWith, readL, field_back (h1 j (by omega)) (h t (by simp)).2, h2 j (by omega)]
    · intro t' ht' x hx
      rcases List.mem_cons.1 ht' with rfl | ht'
      · exact s2.mono _ (o1 x hx)
      · exact o2 t' ht' x hx

/-- What is needed of the printing of a record. -/
def RecComes (C : Checks) (env : Env) (D : Name → Option AType) (rec : Name → Memo → Val × Memo) (k : Nat) : Prop :=
  ∀ ns n fs M T, NameOk ns n → D n = some (.record n) → env.fields? n = some fs → C.record n fs = true → full n ∉ M → Inv D M T → Room env k M →
    ∃ T', ReadsAs C ns (rec n (full n :: M)).1 T (.record n) T' ∧ Step env D M T (rec n (full n :: M)).2 T' ∧ full n ∈ (rec n (full n :: M)).2

theorem node_comes {rec : Name → Memo → Val × Memo} {k : Nat} (hrec : RecComes C env D rec k) {ns : String} {t : AType} (h : Fits C env D ns t) : Comes C env D rec k ns t := by
  induction h with
  | null | boolean | int | long | float | double | bytes | string =>
    intro M T hi _
    exact ⟨T, reads_prim rfl, .refl hi, fun x hx => by cases hx⟩
  | @fixed n s hn hd hc =>
    intro M T hi _
    by_cases hm : full n ∈ M
    · simp only [nodeWith, hm, if_true]
      exact ⟨T, reads_name hi hn hd hm, .refl hi, fun x hx => by cases hx; exact hm⟩
    · simp only [nodeWith, hm, if_false]
      exact ⟨_, reads_fixed hi hn hm hd hc, step_define hi hn hm hd (by simp), fun x hx => by cases hx; simp⟩
  | @enum n s hn hd hc =>
    intro M T hi _
    by_cases hm : full n ∈ M
    · simp only [nodeWith, hm, if_true]
      exact ⟨T, reads_name hi hn hd hm, .refl hi, fun x hx => by cases hx; exact hm⟩
    · simp only [nodeWith, hm, if_false]
      exact ⟨_, reads_enum hi hn hm hd hc, step_define hi hn hm hd (by simp), fun x hx => by cases hx; simp⟩
  | @record n fs hn hd hf hc =>
    intro M T hi hr
    by_cases hm : full n ∈ M
    · simp only [nodeWith, hm, if_true]
      exact ⟨T, reads_name hi hn hd hm, .refl hi, fun x hx => by cases hx; exact hm⟩
    · simp only [nodeWith, hm, if_false]
      obtain ⟨T', h1, h2, h3⟩ := hrec ns n fs M T hn hd hf hc hm hi hr
      exact ⟨T', h1, h2, fun x hx => by cases hx; exact h3⟩
  | @array t h ih =>
    intro M T hi hr
    obtain ⟨T', h1, h2, h3⟩ := ih M T hi hr
    simp only [nodeWith]
    exact ⟨T', reads_array h1, h2, fun x hx => by cases hx with | array hx => exact h3 x hx⟩
  | @map t h ih =>
    intro M T hi hr
    obtain ⟨T', h1, h2, h3⟩ := ih M T hi hr
    simp only [nodeWith]
    exact ⟨T', reads_map h1, h2, fun x hx => by cases hx with | map hx => exact h3 x hx⟩
  | @union ts h hc ih =>
    intro M T hi hr
    obtain ⟨T', ⟨N, h1⟩, h2, h3⟩ := nodes_come ih M T hi hr
    simp only [nodeWith]
    refine ⟨T', ⟨N + 1, fun j hj => ?_⟩, h2, fun x hx => by cases hx with | union ht hx => exact h3 _ ht x hx⟩
    obtain ⟨i, rfl⟩ : ∃ i, j = i + 1 := ⟨j - 1, by omega⟩
    simp [readT, h1 i (by omega), hc]

theorem rec_comes (he : FitsEnv C env D) : ∀ k, RecComes C env D (printRec env k) k
  | 0 => by
    intro ns n fs M T hn hd hf hc hm hi hr
    obtain ⟨k', e, _⟩ := hr.less (mem_keys hf) hm
    cases e
  | k + 1 => by
    intro ns n fs M T hn hd hf hc hm hi hr
    obtain ⟨k', e, hr'⟩ := hr.less (mem_keys hf) hm
    cases e
    obtain ⟨hdef, hi1⟩ := define_ok hi hn hm hd
    obtain ⟨T2, ⟨N, h1⟩, s2, o2⟩ := fields_come (fun f hf' => ⟨node_comes (rec_comes he k) (he n fs hf f hf').1, (he n fs hf f hf').2⟩) _ _ hi1 hr'
    have hp : printRec env (k + 1) n (full n :: M) = (.dict ([("type", .str "record")] ++ heading n ++ [("fields", .arr (fieldsWith (printRec env k) fs (full n :: M)).1)]),
        (fieldsWith (printRec env k) fs (full n :: M)).2) := by simp [printRec, hf]
    have hno : T2.env.fields? n = none := (s2.keep n hn.plain (by simp)).trans (hi.env n hn.plain hm)
    have happ : ∀ m, Env.fields? (T2.env ++ [(n, fs)]) m = if m = n then some fs else T2.env.fields? m := by
      intro m
      unfold Env.fields? at hno ⊢
      generalize T2.env = d at hno
      induction d with
      | nil => by_cases e : m = n <;> simp [PyDict.get?, e, eq_comm (a := n)]
      | cons kv d ih =>
        obtain ⟨a, b⟩ := kv
        simp only [PyDict.get?, List.cons_append] at hno ⊢
        by_cases ea : a = n
        · rw [if_pos ea] at hno; cases hno
        · rw [if_neg ea] at hno
          by_cases em : a = m
          · subst em; simp [ea]
          · simp only [em, if_false]; exact ih hno
    rw [hp]
    refine ⟨{ T2 with env := T2.env ++ [(n, fs)] }, ⟨N + 1, fun j hj => ?_⟩, ⟨⟨s2.inv.names, ?_⟩, fun x hx => s2.mono _ (List.mem_cons_of_mem _ hx), ?_, ?_⟩, s2.mono _ (by simp)⟩
    · obtain ⟨i, rfl⟩ : ∃ i, j = i + 1 := ⟨j - 1, by omega⟩
      have e1 := strAt_heading (n := n) (d := [("type", .str "record")]) (t := [("fields", .arr (fieldsWith (printRec env k) fs (full n :: M)).1)]) (by simp [PyDict.keys])
        (by simp [PyDict.keys]) hn
      have e2 : ∀ v : Val, strAt ([("type", Val.str "record")] ++ heading n ++ [("fields", v)]) "type" = some "record" := by simp [strAt, PyDict.get?]
      have e3 : ∀ v : Val, PyDict.get? ([("type", Val.str "record")] ++ heading n ++ [("fields", v)]) "fields" = some v := by
        intro v; unfold heading; split <;> simp [PyDict.get?]
      simp only [readT, readDict, e2, readRecord, e1, e3, hdef, h1 i (by omega), hc, if_true]
      simp
    · intro m hp' hm'
      rw [happ]
      have : m ≠ n := by rintro rfl; exact hm' (s2.mono _ (by simp))
      rw [if_neg this]
      exact s2.inv.env m hp' hm'
    · intro m hp' hm'
      have : m ≠ n := by rintro rfl; exact hm hm'
      rw [happ, if_neg this]
      exact s2.keep m hp' (List.mem_cons_of_mem _ hm')
    · intro m fs' hp' hin hout hd' hf'
      rw [happ]
      by_cases e : m = n
      · subst e
        rw [hf] at hf'
        cases hf'
        exact ⟨by simp, o2⟩
      · rw [if_neg e]
        refine s2.new m fs' hp' hin ?_ hd' hf'
        intro h
        rcases List.mem_cons.1 h with h | h
        · exact e (full_inj hp' hn.plain h)
        · exact hout h

theorem room_all (M : Memo) : Room env env.length M := by
  unfold Room
  refine Nat.le_trans (List.length_filter_le _ _) ?_
  simp [PyDict.keys]

theorem inv_empty : Inv D [] {} := ⟨fun n _ => by simp [PyDict.get?], fun n _ _ => rfl⟩

theorem occurs_plain {ns : String} {t : AType} (h : Fits C env D ns t) : ∀ {x}, Occurs x t → '.' ∉ x.short.toList := by
  induction h with
  | null | boolean | int | long | float | double | bytes | string => intro x hx; cases hx
  | fixed hn _ _ | enum hn _ _ | record hn _ _ _ => intro x hx; cases hx; exact hn.plain
  | array _ ih => intro x hx; cases hx with | array hx => exact ih hx
  | map _ ih => intro x hx; cases hx with | map hx => exact ih hx
  | union _ _ ih => intro x hx; cases hx with | union ht hx => exact ih _ ht hx

/-- What is reached is known afterwards, with the same fields. -/
theorem reach_known (he : FitsEnv C env D) {ns : String} {ts : List AType} (ht : ∀ t ∈ ts, Fits C env D ns t) {M' : Memo} {T' : Tab} (hs : Step env D [] {} M' T')
    (ho : ∀ t ∈ ts, ∀ x, Occurs x t → full x ∈ M') (hD : ∀ n fs, env.fields? n = some fs → D n = some (.record n)) {t : AType} (hm : t ∈ ts) {n : Name}
    (h : Reach env t n) : '.' ∉ n.short.toList ∧ full n ∈ M' := by
  induction h with
  | here h => exact ⟨occurs_plain (ht _ hm) h, ho _ hm _ h⟩
  | @there r n fs f hr hf hfs hx ih =>
    exact ⟨occurs_plain (he r fs hf f hfs).1 hx, (hs.new r fs ih.1 ih.2 (by simp) (hD r fs hf) hf).2 f hfs n hx⟩

/-- **C99.**  Types that are printed one after the other with one memo are read back in that order: every type as it was, every name with its definition, and every record that
is reached with its fields. -/
theorem types_back_partial (he : FitsEnv C env D) (hD : ∀ n fs, env.fields? n = some fs → D n = some (.record n)) {ns : String} {ts : List AType}
    (ht : ∀ t ∈ ts, Fits C env D ns t) :
    ∃ T', (∃ N, ∀ j, N ≤ j → readL (readT C j ns) (jsonNodes env ts []).1 {} = some (ts, T')) ∧
      ∀ t ∈ ts, ∀ n, Reach env t n → T'.names.get? n = D n ∧ ∀ fs, env.fields? n = some fs → T'.env.fields? n = some fs := by
  obtain ⟨T', h1, h2, h3⟩ := nodes_come (fun t h => node_comes (rec_comes he env.length) (ht t h)) [] {} inv_empty (room_all [])
  refine ⟨T', h1, fun t hm n hn => ?_⟩
  obtain ⟨hp, hin⟩ := reach_known he ht h2 h3 hD hm hn
  refine ⟨?_, fun fs hf => (h2.new n fs hp hin (by simp) (hD n fs hf) hf).1⟩
  have := h2.inv.names n hp
  rwa [if_pos hin] at this

/-- **C99.**  `toJson` and reading it again. -/
theorem type_back_partial (he : FitsEnv C env D) (hD : ∀ n fs, env.fields? n = some fs → D n = some (.record n)) {t : AType} (ht : Fits C env D "" t) :
    ∃ T', (∃ N, ∀ j, N ≤ j → readT C j "" (toJson env t) {} = some (t, T')) ∧
      ∀ n, Reach env t n → T'.names.get? n = D n ∧ ∀ fs, env.fields? n = some fs → T'.env.fields? n = some fs := by
  obtain ⟨T', ⟨N, h1⟩, h2⟩ := types_back_partial (ts := [t]) (ns := "") he hD (by simpa using ht)
  refine ⟨T', ⟨N, fun j hj => ?_⟩, fun n hn => h2 t (by simp) n hn⟩
  have h := h1 j hj
  simp only [jsonNodes, nodesWith, readL] at h
  simp only [toJson, jsonNode]
  revert h
  cases hc : readT C j "" (nodeWith (printRec env env.length) t []).1 {} with
  | none => intro h; cases h
  | some r =>
    intro h
    simp only [Option.some.injEq, Prod.mk.injEq, List.cons.injEq, and_true] at h
    obtain ⟨a, T⟩ := r
    simp_all

/-- **C99.**  No definition is printed twice: a named type that was met before is printed as its name. -/
theorem again_name (rec : Name → Memo → Val × Memo) {n : Name} {M : Memo} (h : full n ∈ M) :
    (∀ s, nodeWith rec (.fixed n s) M = (.str (full n), M)) ∧ (∀ s, nodeWith rec (.enum n s) M = (.str (full n), M)) ∧ nodeWith rec (.record n) M = (.str (full n), M) := by
  simp [nodeWith, h]

/-- **C99, violation.**  `AvroPlaceholder.toJson` without a memo: the second time, a named type is printed as a bare name, whatever it is,
and a reader that starts afresh refuses it. -/
theorem placeholder_second_violation (he : FitsEnv C env D) {t : AType} (ht : Fits C env D "" t) {n : Name} (hn : t = .record n ∨ (∃ s, t = .enum n s) ∨ ∃ s, t = .fixed n s) :
    (placeholderToJson env t (placeholderToJson env t []).2).1 = .str (full n) ∧ ∀ j, readT C j "" (.str (full n)) {} = none := by
  have ho : Occurs n t := by rcases hn with rfl | ⟨s, rfl⟩ | ⟨s, rfl⟩ <;> constructor
  obtain ⟨_, _, _, h3⟩ := node_comes (rec_comes he env.length) ht [] {} inv_empty (room_all [])
  have hm := h3 n ho
  have hf : full n ∉ reserved := by
    rcases hn with rfl | ⟨s, rfl⟩ | ⟨s, rfl⟩
    · cases ht with | record hn _ _ _ => exact hn.free
    · cases ht with | enum hn _ _ => exact hn.free
    · cases ht with | fixed hn _ _ => exact hn.free
  refine ⟨?_, ?_⟩
  · unfold placeholderToJson jsonNode
    rcases hn with rfl | ⟨s, rfl⟩ | ⟨s, rfl⟩
    · rw [(again_name _ hm).2.2]
    · rw [(again_name _ hm).2.1]
    · rw [(again_name _ hm).1]
  · intro j
    cases j <;> simp [readT, prim_reserved hf, PyDict.get?]

end

/-! ## Concrete cases -/

/-- A reader without further conditions. -/
def lax : Checks := ⟨fun _ _ => true, fun _ _ => true, fun _ _ => true, fun _ => true⟩

/-- A tree with a colour at each node, in a namespace. -/
def tree : Name := ⟨"com.example", "Tree"⟩
@[inherit_doc tree] def colour : Name := ⟨"com.example", "Colour"⟩
@[inherit_doc tree] def key : Name := ⟨"org", "Key"⟩

/-- Its fields. -/
def treeEnv : Env := [(tree, [⟨"key", .fixed key 4, none, .descending⟩, ⟨"colour", .enum colour ["red", "black"], some (.str "red"), .ascending⟩,
  ⟨"left", .union [.null, .record tree], none, .ascending⟩, ⟨"right", .union [.null, .record tree], none, .ignore⟩])]

/-- The definitions of names. -/
def treeDefs (n : Name) : Option AType :=
  if n = tree then some (.record tree) else if n = colour then some (.enum colour ["red", "black"]) else if n = key then some (.fixed key 4) else none

theorem nameOk_tree : NameOk ns tree ∧ NameOk ns colour ∧ NameOk ns key :=
  ⟨⟨by simp [tree], by decide +kernel, by simp [tree]⟩, ⟨by simp [colour], by decide +kernel, by simp [colour]⟩, ⟨by simp [key], by decide +kernel, by simp [key]⟩⟩

theorem treeEnv_fields {n : Name} {fs : List Field} (h : treeEnv.fields? n = some fs) : n = tree ∧ fs = (treeEnv.fields? tree).getD [] := by
  unfold treeEnv Env.fields? at *
  simp only [PyDict.get?] at h
  split at h
  · next e => subst e; cases h; exact ⟨rfl, by simp [PyDict.get?]⟩
  · cases h

theorem tree_record (ns : String) : Fits lax treeEnv treeDefs ns (.record tree) := .record nameOk_tree.1 rfl rfl rfl

theorem tree_fitsEnv : FitsEnv lax treeEnv treeDefs := by
  intro n fs h f hf
  obtain ⟨rfl, rfl⟩ := treeEnv_fields h
  simp only [treeEnv, Env.fields?, PyDict.get?, if_true, Option.getD_some, List.mem_cons, List.not_mem_nil, or_false] at hf
  have hu : Fits lax treeEnv treeDefs tree.ns (.union [.null, .record tree]) := by
    refine .union ?_ rfl
    intro t ht
    simp only [List.mem_cons, List.not_mem_nil, or_false] at ht
    rcases ht with rfl | rfl
    · exact .null
    · exact tree_record _
  rcases hf with rfl | rfl | rfl | rfl
  · exact ⟨.fixed nameOk_tree.2.2 (by decide +kernel) rfl, by simp⟩
  · exact ⟨.enum nameOk_tree.2.1 (by decide +kernel) rfl, by simp⟩
  · exact ⟨hu, by simp⟩
  · exact ⟨hu, by simp⟩

/-- The tree comes back, twice with one memo. -/
theorem tree_back : ∃ T', (∃ N, ∀ j, N ≤ j → readL (readT lax j "") (jsonNodes treeEnv [.array (.record tree), .record tree] []).1 {} = some ([.array (.record tree), .record tree], T')) ∧
    T'.env.fields? tree = treeEnv.fields? tree := by
  obtain ⟨T', h1, h2⟩ := types_back_partial (ts := [.array (.record tree), .record tree]) (ns := "") tree_fitsEnv
    (fun n fs h => by obtain ⟨rfl, _⟩ := treeEnv_fields h; rfl) (by
      intro t ht
      simp only [List.mem_cons, List.not_mem_nil, or_false] at ht
      rcases ht with rfl | rfl
      · exact .array (tree_record _)
      · exact tree_record _)
  exact ⟨T', h1, (h2 (.record tree) (by simp) tree (.here .record)).2 _ rfl⟩

/-- What is printed: the name of the tree inside its own definition, and of the whole tree the second time. -/
example : (jsonNodes treeEnv [.array (.record tree), .record tree] []).1 =
    [.dict [("type", .str "array"), ("items", .dict [("type", .str "record"), ("name", .str "Tree"), ("namespace", .str "com.example"), ("fields", .arr [
      .dict [("name", .str "key"), ("type", .dict [("type", .str "fixed"), ("size", .int 4), ("name", .str "Key"), ("namespace", .str "org")]), ("order", .str "descending")],
      .dict [("name", .str "colour"), ("type", .dict [("type", .str "enum"), ("symbols", .arr [.str "red", .str "black"]), ("name", .str "Colour"), ("namespace", .str "com.example")]),
        ("default", .str "red")],
      .dict [("name", .str "left"), ("type", .arr [.str "null", .str "com.example.Tree"])],
      .dict [("name", .str "right"), ("type", .arr [.str "null", .str "com.example.Tree"]), ("order", .str "ignore")]])])],
     .str "com.example.Tree"] := rfl

/-- A type without a namespace inside a record with one. -/
def bareEnv : Env := [(⟨"com.example", "Box"⟩, [⟨"kind", .enum ⟨"", "Kind"⟩ ["a", "b"], none, .ascending⟩])]

/-- **C99, violation.**  A named type without a namespace inside a record with a namespace comes back as another type: it is printed without
a namespace, and takes that of the record when it is read. -/
theorem bare_name_violation :
    (readT lax 9 "" (toJson bareEnv (.record ⟨"com.example", "Box"⟩)) {}).map (fun r => r.2.env.fields? ⟨"com.example", "Box"⟩) =
      some (some [⟨"kind", .enum ⟨"com.example", "Kind"⟩ ["a", "b"], none, .ascending⟩]) ∧
    bareEnv.fields? ⟨"com.example", "Box"⟩ = some [⟨"kind", .enum ⟨"", "Kind"⟩ ["a", "b"], none, .ascending⟩] := by
  refine ⟨?_, rfl⟩
  have h1 : nameIn "" "Box" = ⟨"", "Box"⟩ := by simp [nameIn]
  have h2 : nameIn "com.example" "Box" = ⟨"com.example", "Box"⟩ := by simp [nameIn]
  have h3 : nameIn "com.example" "Kind" = ⟨"com.example", "Kind"⟩ := by simp [nameIn]
  simp [toJson, jsonNode, bareEnv, nodeWith, printRec, full, Env.fields?, PyDict.get?, heading, fieldsWith, fieldNode, orderWord, readT, readDict, strAt, readRecord, defName, h2, h3, define,
    PyDict.has, reserved, readL, readField, orderOf, defaultOf, readEnum, strings, lax, PyDict.set]

end Verif.Types
