import Verif.Avro.Accepts
/-!
# Data that conform to a type, and widening (C06)

`Conf` is the specification of the run-time data of a type: what the engine passes around after
reading (datatype.py 873-953).  It is not code of the project.
-/

namespace Verif.Avro

/-- The parts of conformance that the code does not treat alike everywhere: each function below is
proved for the strongest choice that holds. -/
structure Lim where
  int : Int → Prop
  long : Int → Prop
  /-- bytes data: text with one character per byte, or `bytes` objects -/
  bytes : Val → Prop
  fixed : Nat → Val → Prop
  enum : List String → String → Prop
  /-- whether `{"null": null}` is a datum of a union with null -/
  nullTag : Prop
  /-- whether True and False are integers -/
  boolInt : Prop

/-- One character per byte. -/
def IsRaw (s : String) : Prop := ∀ c ∈ s.toList, c.toNat < 256

/-- Conformance as Avro defines it. -/
def strict : Lim where
  int i := -2 ^ 31 ≤ i ∧ i < 2 ^ 31
  long i := -2 ^ 63 ≤ i ∧ i < 2 ^ 63
  bytes v := ∃ s, v = .str s ∧ IsRaw s
  fixed k v := ∃ s, v = .str s ∧ IsRaw s ∧ s.length = k
  enum syms s := s ∈ syms
  nullTag := False
  boolInt := False

/-- The datum conforms to the type.  Union data are tagged with the name of their type, null is
not tagged.  The order of the keys of records and maps does not matter. -/
inductive Conf (L : Lim) (env : Env) : AType → Val → Prop
  | null : Conf L env .null .null
  | boolean (b : Bool) : Conf L env .boolean (.bool b)
  | int {i : Int} : L.int i → Conf L env .int (.int i)
  | long {i : Int} : L.long i → Conf L env .long (.int i)
  | float (f : Flt) : Conf L env .float (.flt f)
  | double (f : Flt) : Conf L env .double (.flt f)
  | intBool (b : Bool) : L.boolInt → Conf L env .int (.bool b)
  | longBool (b : Bool) : L.boolInt → Conf L env .long (.bool b)
  | bytes {v : Val} : L.bytes v → Conf L env .bytes v
  | string (s : String) : Conf L env .string (.str s)
  | fixed {n : Name} {k : Nat} {v : Val} : L.fixed k v → Conf L env (.fixed n k) v
  | enum {n : Name} {syms : List String} {s : String} : L.enum syms s → Conf L env (.enum n syms) (.str s)
  | array {t : AType} {xs : List Val} : (∀ x ∈ xs, Conf L env t x) → Conf L env (.array t) (.arr xs)
  | map {t : AType} {d : List (String × Val)} : PyDict.WF d → (∀ k x, (k, x) ∈ d → Conf L env t x) →
      Conf L env (.map t) (.dict d)
  | record {n : Name} {fs : List Field} {d : List (String × Val)} (x : String → Val) :
      env.fields? n = some fs → PyDict.WF d → (∀ k ∈ PyDict.keys d, ∃ f ∈ fs, f.name = k) →
      (∀ f ∈ fs, PyDict.get? d f.name = some (x f.name)) → (∀ f ∈ fs, Conf L env f.type (x f.name)) →
      Conf L env (.record n) (.dict d)
  | unionNull {ts : List AType} : .null ∈ ts → Conf L env (.union ts) .null
  | unionNullTag {ts : List AType} : L.nullTag → .null ∈ ts → Conf L env (.union ts) (.dict [("null", .null)])
  | union {ts : List AType} {t : AType} {v : Val} : t ∈ ts → t ≠ .null → Conf L env t v →
      Conf L env (.union ts) (.dict [(t.name, v)])

/-! ## Widening -/

/-- The tag of a union datum. -/
def tagAs (t : AType) (v : Val) : Val := if t = .null then v else .dict [(t.name, v)]

/-- `Wid er ew r w v v'`: the datum `v` of the writer's type `w`, seen as a datum `v'` of the
reader's type `r`: integers promoted, records projected with defaults filled in, unions re-tagged.
Promotion to floating point is exact here: rounding is not modelled. -/
inductive Wid (er ew : Env) : AType → AType → Val → Val → Prop
  | null : Wid er ew .null .null .null .null
  | boolean (b : Bool) : Wid er ew .boolean .boolean (.bool b) (.bool b)
  | int (i : Int) : Wid er ew .int .int (.int i) (.int i)
  | intLong (i : Int) : Wid er ew .long .int (.int i) (.int i)
  | long (i : Int) : Wid er ew .long .long (.int i) (.int i)
  | intFloat (i : Int) : Wid er ew .float .int (.int i) (.flt (.fin i))
  | longFloat (i : Int) : Wid er ew .float .long (.int i) (.flt (.fin i))
  | float (f : Flt) : Wid er ew .float .float (.flt f) (.flt f)
  | intDouble (i : Int) : Wid er ew .double .int (.int i) (.flt (.fin i))
  | longDouble (i : Int) : Wid er ew .double .long (.int i) (.flt (.fin i))
  | floatDouble (f : Flt) : Wid er ew .double .float (.flt f) (.flt f)
  | double (f : Flt) : Wid er ew .double .double (.flt f) (.flt f)
  | bytes (v : Val) : Wid er ew .bytes .bytes v v
  | string (s : String) : Wid er ew .string .string (.str s) (.str s)
  | fixed (n : Name) (k : Nat) (v : Val) : Wid er ew (.fixed n k) (.fixed n k) v v
  | enum (n : Name) (a b : List String) (s : String) : Wid er ew (.enum n a) (.enum n b) (.str s) (.str s)
  | array {r w : AType} {xs : List Val} (f : Val → Val) : (∀ x ∈ xs, Wid er ew r w x (f x)) →
      Wid er ew (.array r) (.array w) (.arr xs) (.arr (xs.map f))
  | map {r w : AType} {d : List (String × Val)} (f : String × Val → Val) :
      (∀ kv ∈ d, Wid er ew r w kv.2 (f kv)) →
      Wid er ew (.map r) (.map w) (.dict d) (.dict (d.map (fun kv => (kv.1, f kv))))
  | record {n : Name} {xs ys : List Field} {d : List (String × Val)} (g : String → Val)
      (y : String → Field) (x : String → Val) :
      er.fields? n = some xs → ew.fields? n = some ys →
      -- fields the writer has
      (∀ xf ∈ xs, (∃ yf ∈ ys, yf.name = xf.name) →
        y xf.name ∈ ys ∧ (y xf.name).name = xf.name ∧ PyDict.get? d xf.name = some (x xf.name)) →
      (∀ xf ∈ xs, (∃ yf ∈ ys, yf.name = xf.name) → Wid er ew xf.type (y xf.name).type (x xf.name) (g xf.name)) →
      -- fields the writer does not have
      (∀ xf ∈ xs, (¬ ∃ yf ∈ ys, yf.name = xf.name) → xf.default = some (g xf.name)) →
      Wid er ew (.record n) (.record n) (.dict d) (.dict (xs.map (fun f => (f.name, g f.name))))
  | toUnion {x : AType} {xs : List AType} {w : AType} {v v' : Val} : x ∈ xs → Wid er ew x w v v' →
      Wid er ew (.union xs) w v (tagAs x v')
  | fromUnion {r y : AType} {ys : List AType} {v v' : Val} : y ∈ ys → Wid er ew r y v v' →
      Wid er ew r (.union ys) (tagAs y v) v'
  | fromNullTag {r : AType} {ys : List AType} {v' : Val} : .null ∈ ys → Wid er ew r .null .null v' →
      Wid er ew r (.union ys) (.dict [("null", .null)]) v'

/-- Defaults conform to the type of their field. -/
def DefaultsOk (L : Lim) (env : Env) : Prop := ∀ n fs f d, env.fields? n = some fs → f ∈ fs →
  f.default = some d → Conf L env f.type d

theorem conf_null {L : Lim} {env : Env} {v : Val} (h : Conf L env .null v) : v = .null := by cases h; rfl

theorem conf_tagAs {L : Lim} {env : Env} {x : AType} {xs : List AType} {v : Val} (hx : x ∈ xs)
    (h : Conf L env x v) : Conf L env (.union xs) (tagAs x v) := by
  unfold tagAs
  by_cases h0 : x = .null
  · rw [if_pos h0]; subst h0; rw [conf_null h]; exact .unionNull hx
  · rw [if_neg h0]; exact .union hx h0 h

/-- The goal of C06 for one datum. -/
def Widens (L : Lim) (er ew : Env) (r w : AType) (v : Val) : Prop :=
  ∃ v', Wid er ew r w v v' ∧ Conf L er r v'

theorem lift_union {L : Lim} {er ew : Env} {S : Name → Bool} {w : AType} {v : Val} (hw : w.flat = true)
    (h : ∀ r, r.flat = true → acc S r w = true → Widens L er ew r w v) :
    ∀ (k : Nat) (r : AType), sizeOf r ≤ k → acc S r w = true → Widens L er ew r w v := by
  intro k
  induction k with
  | zero =>
    intro r hk
    have : 0 < sizeOf r := by cases r <;> simp <;> omega
    omega
  | succ k ih =>
    intro r hk ha
    rcases flat_or r with hr | ⟨xs, rfl⟩
    · exact h r hr ha
    · rw [acc_union_flat _ _ _ hw] at ha
      obtain ⟨x, hx, hxw⟩ := ha
      obtain ⟨v', h1, h2⟩ := ih x (by have := sizeOf_mem_union hx; omega) hxw
      exact ⟨_, .toUnion hx h1, conf_tagAs hx h2⟩

theorem from_union {L : Lim} {er ew : Env} {S : Name → Bool} {y : AType} {ys : List AType} {v : Val} (hy : y ∈ ys)
    (ih : ∀ r, acc S r y = true → Widens L er ew r y v) (r : AType) (ha : acc S r (.union ys) = true) :
    Widens L er ew r (.union ys) (tagAs y v) := by
  rcases flat_or r with hr | ⟨xs, rfl⟩
  · rw [acc_flat_union _ _ hr] at ha
    obtain ⟨v', h1, h2⟩ := ih r (ha y hy)
    exact ⟨v', .fromUnion hy h1, h2⟩
  · rw [acc_union_union] at ha
    obtain ⟨x, hx, hxy⟩ := ha y hy
    obtain ⟨v', h1, h2⟩ := ih x hxy
    exact ⟨_, .fromUnion hy (.toUnion hx h1), conf_tagAs hx h2⟩

theorem null_widens {L : Lim} {er ew : Env} {S : Name → Bool} (r : AType) (ha : acc S r .null = true) :
    Widens L er ew r .null .null := by
  refine lift_union rfl (fun r hr ha => ?_) _ r (Nat.le_refl _) ha
  cases r <;> first | (cases hr; done) | (simp [acc, overUnion] at ha; done) | exact ⟨_, .null, .null⟩

theorem get?_map_fields (g : String → Val) (xs : List Field) (f : Field) (hf : f ∈ xs) :
    PyDict.get? (xs.map (fun f => (f.name, g f.name))) f.name = some (g f.name) := by
  induction xs with
  | nil => cases hf
  | cons x xs ih =>
    simp only [List.map_cons, PyDict.get?]
    by_cases h : x.name = f.name
    · rw [if_pos h, h]
    · rw [if_neg h]
      rcases List.mem_cons.1 hf with rfl | hf
      · exact absurd rfl h
      · exact ih hf

theorem keys_map_fields (g : String → Val) (xs : List Field) :
    PyDict.keys (xs.map (fun f => (f.name, g f.name))) = xs.map Field.name := by
  simp [PyDict.keys, Function.comp_def]

/-- Choose a value for each field name. -/
theorem choose_fields {P : Field → Val → Prop} {xs : List Field} (hn : (xs.map Field.name).Nodup)
    (h : ∀ f ∈ xs, ∃ v, P f v) : ∃ g : String → Val, ∀ f ∈ xs, P f (g f.name) := by
  classical
  refine ⟨fun k => if hk : ∃ v, ∃ f, f ∈ xs ∧ f.name = k ∧ P f v then hk.choose else .null,
    fun f hf => ?_⟩
  have hk : ∃ v, ∃ f', f' ∈ xs ∧ f'.name = f.name ∧ P f' v := by
    obtain ⟨v, hv⟩ := h f hf
    exact ⟨v, f, hf, rfl, hv⟩
  simp only [dif_pos hk]
  obtain ⟨f', hf', hn', hp⟩ := hk.choose_spec
  have e := field_unique hn hf hf' hn'.symm
  generalize hk.choose = v at hp
  subst e
  exact hp

/-- C06: widening a conforming datum along `accepts` gives a conforming datum. -/
theorem accepts_sound {L : Lim} {er ew : Env} (hL : ∀ i, L.int i → L.long i) (hb : ¬ L.boolInt)
    (he : ∀ a b s, (∀ x ∈ a, x ∈ b) → L.enum a s → L.enum b s) (her : er.Ok) (hew : ew.Ok)
    (hdef : DefaultsOk L er) (r w : AType) (v : Val)
    (hacc : accepts er ew r w = true) (hv : Conf L ew w v) : Widens L er ew r w v := by
  obtain ⟨S, hS, ha⟩ := (accepts_iff ..).1 hacc
  clear hacc
  induction hv generalizing r with
  | null =>
    refine lift_union rfl (fun r hr ha => ?_) _ r (Nat.le_refl _) ha
    cases r <;> first | (cases hr; done) | (simp [acc, overUnion] at ha; done) | exact ⟨_, .null, .null⟩
  | boolean b =>
    refine lift_union rfl (fun r hr ha => ?_) _ r (Nat.le_refl _) ha
    cases r <;> first | (cases hr; done) | (simp [acc, overUnion] at ha; done) | exact ⟨_, .boolean b, .boolean b⟩
  | @int i h =>
    refine lift_union rfl (fun r hr ha => ?_) _ r (Nat.le_refl _) ha
    cases r <;> first
      | (cases hr; done) | (simp [acc, overUnion] at ha; done)
      | exact ⟨_, .int i, .int h⟩ | exact ⟨_, .intLong i, .long (hL i h)⟩
      | exact ⟨_, .intFloat i, .float _⟩ | exact ⟨_, .intDouble i, .double _⟩
  | @long i h =>
    refine lift_union rfl (fun r hr ha => ?_) _ r (Nat.le_refl _) ha
    cases r <;> first
      | (cases hr; done) | (simp [acc, overUnion] at ha; done)
      | exact ⟨_, .long i, .long h⟩
      | exact ⟨_, .longFloat i, .float _⟩ | exact ⟨_, .longDouble i, .double _⟩
  | float f =>
    refine lift_union rfl (fun r hr ha => ?_) _ r (Nat.le_refl _) ha
    cases r <;> first
      | (cases hr; done) | (simp [acc, overUnion] at ha; done)
      | exact ⟨_, .float f, .float f⟩ | exact ⟨_, .floatDouble f, .double f⟩
  | double f =>
    refine lift_union rfl (fun r hr ha => ?_) _ r (Nat.le_refl _) ha
    cases r <;> first
      | (cases hr; done) | (simp [acc, overUnion] at ha; done) | exact ⟨_, .double f, .double f⟩
  | intBool b h => exact absurd h hb
  | longBool b h => exact absurd h hb
  | @bytes s h =>
    refine lift_union rfl (fun r hr ha => ?_) _ r (Nat.le_refl _) ha
    cases r <;> first | (cases hr; done) | (simp [acc, overUnion] at ha; done) | exact ⟨_, .bytes s, .bytes h⟩
  | string s =>
    refine lift_union rfl (fun r hr ha => ?_) _ r (Nat.le_refl _) ha
    cases r <;> first | (cases hr; done) | (simp [acc, overUnion] at ha; done) | exact ⟨_, .string s, .string s⟩
  | @fixed n k s h1 =>
    refine lift_union rfl (fun r hr ha => ?_) _ r (Nat.le_refl _) ha
    cases r with
    | fixed m l =>
      simp only [acc, overUnion, Bool.and_eq_true, beq_iff_eq, decide_eq_true_eq] at ha
      obtain ⟨rfl, rfl⟩ := ha
      exact ⟨_, .fixed _ _ s, .fixed h1⟩
    | union _ => cases hr
    | _ => simp [acc, overUnion] at ha
  | @enum n syms s h =>
    refine lift_union rfl (fun r hr ha => ?_) _ r (Nat.le_refl _) ha
    cases r with
    | enum m l =>
      simp only [acc, overUnion, Bool.and_eq_true, decide_eq_true_eq, List.all_eq_true,
        List.contains_iff_mem] at ha
      obtain ⟨h1, rfl⟩ := ha
      exact ⟨_, .enum _ _ _ s, .enum (he _ _ s h1 h)⟩
    | union _ => cases hr
    | _ => simp [acc, overUnion] at ha
  | @array t xs h ih =>
    refine lift_union rfl (fun r hr ha => ?_) _ r (Nat.le_refl _) ha
    cases r with
    | array i =>
      simp only [acc, overUnion] at ha
      classical
      let f : Val → Val := fun x => if hx : x ∈ xs then (ih x hx i ha).choose else .null
      have hf : ∀ x ∈ xs, Wid er ew i t x (f x) ∧ Conf L er i (f x) := by
        intro x hx
        simp only [f, dif_pos hx]
        exact (ih x hx i ha).choose_spec
      refine ⟨_, .array f (fun x hx => (hf x hx).1), .array ?_⟩
      intro y hy
      obtain ⟨x, hx, rfl⟩ := List.mem_map.1 hy
      exact (hf x hx).2
    | union _ => cases hr
    | _ => simp [acc, overUnion] at ha
  | @map t d hwf h ih =>
    refine lift_union rfl (fun r hr ha => ?_) _ r (Nat.le_refl _) ha
    cases r with
    | map i =>
      simp only [acc, overUnion] at ha
      classical
      let f : String × Val → Val := fun kv => if hx : kv ∈ d then (ih kv.1 kv.2 hx i ha).choose else .null
      have hf : ∀ kv ∈ d, Wid er ew i t kv.2 (f kv) ∧ Conf L er i (f kv) := by
        intro kv hx
        simp only [f, dif_pos hx]
        exact (ih kv.1 kv.2 hx i ha).choose_spec
      refine ⟨_, .map f (fun kv hx => (hf kv hx).1), .map ?_ ?_⟩
      · have : PyDict.keys (d.map (fun kv => (kv.1, f kv))) = PyDict.keys d := by
          simp [PyDict.keys, Function.comp_def]
        unfold PyDict.WF; rw [this]; exact hwf
      · intro k y hy
        obtain ⟨kv, hx, he⟩ := List.mem_map.1 hy
        cases he
        exact (hf kv hx).2
    | union _ => cases hr
    | _ => simp [acc, overUnion] at ha
  | @record n fs d x hfs hwf hkeys hget hc ih =>
    refine lift_union rfl (fun r hr ha => ?_) _ r (Nat.le_refl _) ha
    cases r with
    | record m =>
      simp only [acc, overUnion, Bool.and_eq_true, decide_eq_true_eq] at ha
      obtain ⟨rfl, hSm⟩ := ha
      obtain ⟨xs, ys, hx, hy, hok⟩ := hS _ hSm
      rw [hfs] at hy; cases hy
      rw [fieldsOk_iff] at hok
      have key : ∀ xf ∈ xs, ∃ v', ((∃ yf ∈ fs, yf.name = xf.name) →
            ∃ yf ∈ fs, yf.name = xf.name ∧ Wid er ew xf.type yf.type (x xf.name) v') ∧
          ((¬ ∃ yf ∈ fs, yf.name = xf.name) → xf.default = some v') ∧ Conf L er xf.type v' := by
        intro xf hxf
        obtain ⟨p1, p2⟩ := hok xf hxf
        by_cases hex : ∃ yf ∈ fs, yf.name = xf.name
        · obtain ⟨yf, hyf, hname⟩ := hex
          have hacc : acc S xf.type yf.type = true := by
            by_cases hd : xf.default = none
            · obtain ⟨yf', hyf', hn', ha⟩ := p1 hd
              rw [field_unique (hew.names _ fs hfs) hyf hyf' (hname.trans hn')]; exact ha
            · exact p2 hd yf hyf hname.symm
          obtain ⟨v', h1, h2⟩ := ih yf hyf xf.type hacc
          rw [hname] at h1
          exact ⟨v', fun _ => ⟨yf, hyf, hname, h1⟩, fun hno => absurd ⟨yf, hyf, hname⟩ hno, h2⟩
        · cases hd : xf.default with
          | none =>
            obtain ⟨yf, hyf, hn', _⟩ := p1 hd
            exact absurd ⟨yf, hyf, hn'.symm⟩ hex
          | some d => exact ⟨d, fun h => absurd h hex, fun _ => rfl, hdef _ xs xf d hx hxf hd⟩
      obtain ⟨g, hg⟩ := choose_fields (her.names _ xs hx) key
      classical
      let y : String → Field := fun k => if hk : ∃ yf, yf ∈ fs ∧ yf.name = k then hk.choose else ⟨"", .null, none, .ascending⟩
      have hyspec : ∀ k, (∃ yf ∈ fs, yf.name = k) → y k ∈ fs ∧ (y k).name = k := by
        intro k hk
        simp only [y, dif_pos hk]
        exact hk.choose_spec
      refine ⟨_, .record g y x hx hfs ?_ ?_ ?_, ?_⟩
      · intro xf hxf hex
        obtain ⟨h1, h2⟩ := hyspec _ hex
        refine ⟨h1, h2, ?_⟩
        have := hget _ h1
        rwa [h2] at this
      · intro xf hxf hex
        obtain ⟨yf, hyf, hname, hw⟩ := (hg xf hxf).1 hex
        obtain ⟨h1, h2⟩ := hyspec _ hex
        rw [field_unique (hew.names _ fs hfs) h1 hyf (h2.trans hname.symm)]
        exact hw
      · intro xf hxf hno
        exact (hg xf hxf).2.1 hno
      · refine .record g hx ?_ ?_ (fun f hf => get?_map_fields g xs f hf) (fun f hf => (hg f hf).2.2)
        · unfold PyDict.WF; rw [keys_map_fields]; exact her.names _ xs hx
        · intro k hk
          rw [keys_map_fields, List.mem_map] at hk
          obtain ⟨f, hf, rfl⟩ := hk
          exact ⟨f, hf, rfl⟩
    | union _ => cases hr
    | _ => simp [acc, overUnion] at ha
  | @unionNull ts hm =>
    have := from_union (L := L) (er := er) (ew := ew) hm null_widens r ha
    simpa [tagAs] using this
  | @unionNullTag ts hn hm =>
    rcases flat_or r with hr | ⟨xs, rfl⟩
    · rw [acc_flat_union _ _ hr] at ha
      obtain ⟨v', h1, h2⟩ := null_widens (L := L) (er := er) (ew := ew) r (ha _ hm)
      exact ⟨v', .fromNullTag hm h1, h2⟩
    · rw [acc_union_union] at ha
      obtain ⟨x, hx, hxy⟩ := ha _ hm
      obtain ⟨v', h1, h2⟩ := null_widens (L := L) (er := er) (ew := ew) x hxy
      exact ⟨_, .fromNullTag hm (.toUnion hx h1), conf_tagAs hx h2⟩
  | @union ts t v hm hne hc ih =>
    have := from_union (L := L) (er := er) (ew := ew) (S := S) (v := v) hm (fun r ha => ih r ha) r ha
    simpa [tagAs, hne] using this

/-! ## A concrete case: the reader has a wider field type and an extra field with a default -/

def widR : Env := [(⟨"", "R"⟩, [⟨"a", .double, none, .ascending⟩, ⟨"b", .string, some (.str "z"), .ascending⟩])]
def widW : Env := [(⟨"", "R"⟩, [⟨"a", .int, none, .ascending⟩])]

theorem widR_ok : widR.Ok := by
  constructor <;> intro n fs h <;> simp only [widR, Env.fields?, PyDict.get?] at h <;> split at h <;>
    first
      | (cases h; done)
      | (cases h; intro f hf; simp only [List.mem_cons, List.not_mem_nil, or_false] at hf
         rcases hf with rfl | rfl <;> decide)
      | (cases h; decide)

theorem widW_ok : widW.Ok := by
  constructor <;> intro n fs h <;> simp only [widW, Env.fields?, PyDict.get?] at h <;> split at h <;>
    first
      | (cases h; done)
      | (cases h; intro f hf; simp only [List.mem_cons, List.not_mem_nil, or_false] at hf
         rcases hf with rfl; decide)
      | (cases h; decide)

theorem widR_defaults : DefaultsOk strict widR := by
  intro n fs f d h hf hd
  simp only [widR, Env.fields?, PyDict.get?] at h
  split at h
  · cases h
    simp only [List.mem_cons, List.not_mem_nil, or_false] at hf
    rcases hf with rfl | rfl
    · cases hd
    · cases hd; exact .string _
  · cases h

theorem widW_conf : Conf strict widW (.record ⟨"", "R"⟩) (.dict [("a", .int 3)]) := by
  refine .record (fun _ => .int 3) (fs := [⟨"a", .int, none, .ascending⟩]) (by simp [widW, Env.fields?, PyDict.get?]) (by decide) ?_ ?_ ?_ <;>
    simp only [PyDict.keys, List.map_cons, List.map_nil, List.mem_singleton]
  · intro k hk; exact ⟨_, rfl, hk.symm⟩
  · rintro f rfl; rfl
  · rintro f rfl; exact .int (by constructor <;> decide)

/-- The projected datum: `a` promoted, `b` from its default, tagged with the name of the record. -/
example : ∃ v', Wid widR widW (.union [.null, .record ⟨"", "R"⟩]) (.record ⟨"", "R"⟩) (.dict [("a", .int 3)]) v' ∧
    Conf strict widR (.union [.null, .record ⟨"", "R"⟩]) v' :=
  accepts_sound (L := strict) (fun i h => ⟨by have := h.1; omega, by have := h.2; omega⟩) id (fun a b s h1 h2 => h1 s h2) widR_ok widW_ok widR_defaults _ _ _
    (by decide) widW_conf

end Verif.Avro
