import Verif.Avro.Basic
/-!
# Type acceptance (C04, C05, C61)

Models `AvroType.accepts` and `_recordFieldsOkay` (datatype.py 188-287).  Reader and writer types
live in their own tables of record definitions.  Full names are pairs of namespace and name.
`ExceptionType` is not a member of `AType`; nothing accepts it (222-223).
-/

namespace Verif.Avro

/-! ## Model -/

mutual
/-- The last case of `accepts` (281-282): a reader that is not a union accepts a union when it
accepts each member. -/
def overUnion (f : AType → Bool) : AType → Bool
  | .union ys => overUnionL f ys
  | w => f w
def overUnionL (f : AType → Bool) : List AType → Bool
  | [] => true
  | y :: ys => overUnion f y && overUnionL f ys
end

mutual
/-- `accepts` (206-287) with the treatment of a pair of records of the same name as a parameter. -/
def acc (ro : Name → Bool) : AType → AType → Bool
  | .null => overUnion (fun | .null => true | _ => false)
  | .boolean => overUnion (fun | .boolean => true | _ => false)
  | .bytes => overUnion (fun | .bytes => true | _ => false)
  | .string => overUnion (fun | .string => true | _ => false)
  | .int => overUnion (fun | .int => true | _ => false)
  | .long => overUnion (fun | .int => true | .long => true | _ => false)
  | .float => overUnion (fun | .int => true | .long => true | .float => true | _ => false)
  | .double => overUnion (fun | .int => true | .long => true | .float => true | .double => true | _ => false)
  | .array i => overUnion (fun | .array j => acc ro i j | _ => false)
  | .map i => overUnion (fun | .map j => acc ro i j | _ => false)
  | .fixed n s => overUnion (fun | .fixed m t => s == t && decide (n = m) | _ => false)
  | .enum n s => overUnion (fun | .enum m t => t.all (fun x => s.contains x) && decide (n = m) | _ => false)
  | .record n => overUnion (fun | .record m => decide (n = m) && ro n | _ => false)
  | .union xs => fun w =>
    match w with
    | .union ys => ys.all (fun y => (accL ro xs).any (fun f => f y))
    | w => (accL ro xs).any (fun f => f w)
def accL (ro : Name → Bool) : List AType → List (AType → Bool)
  | [] => []
  | x :: xs => acc ro x :: accL ro xs
end

/-- `_recordFieldsOkay` (188-201). -/
def fieldsOk (f : AType → AType → Bool) (xs ys : List Field) : Bool :=
  xs.all (fun xf => match xf.default with
    | none => ys.any (fun yf => decide (xf.name = yf.name) && f xf.type yf.type)
    | some _ => ys.all (fun yf => !decide (xf.name = yf.name) || f xf.type yf.type))

/-- The record case (255-272): `memo` holds the names above; the first pass has
`checkRecord=False`, which takes every pair of records of the same name as compatible.
A name without definition cannot occur in Python. -/
def recOk (er ew : Env) : Nat → List Name → Name → Bool
  | 0, _, _ => false
  | fuel + 1, memo, n =>
    if n ∈ memo then true
    else match er.fields? n, ew.fields? n with
      | some xs, some ys =>
        fieldsOk (acc (fun _ => true)) xs ys && fieldsOk (acc (recOk er ew fuel (n :: memo))) xs ys
      | _, _ => false

/-- `reader.accepts(writer)`. -/
def accepts (er ew : Env) (r w : AType) : Bool := acc (recOk er ew (er.length + 1) []) r w

/-! ## Unfolding -/

/-- Not a union. -/
def AType.flat : AType → Bool
  | .union _ => false
  | _ => true

theorem flat_or (t : AType) : t.flat = true ∨ ∃ ts, t = .union ts := by
  cases t <;> simp [AType.flat]

theorem overUnionL_eq (f : AType → Bool) (ys : List AType) : overUnionL f ys = ys.all (overUnion f) := by
  induction ys with
  | nil => rfl
  | cons y ys ih => simp [overUnionL, ih]

theorem accL_eq (ro : Name → Bool) (xs : List AType) : accL ro xs = xs.map (acc ro) := by
  induction xs with
  | nil => rfl
  | cons x xs ih => simp [accL, ih]

theorem acc_flat_union (ro : Name → Bool) (r : AType) (hr : r.flat = true) (ys : List AType) :
    acc ro r (.union ys) = true ↔ ∀ y ∈ ys, acc ro r y = true := by
  cases r <;> first | (cases hr; done) | (simp [acc, overUnion, overUnionL_eq])

theorem acc_union_flat (ro : Name → Bool) (xs : List AType) (w : AType) (hw : w.flat = true) :
    acc ro (.union xs) w = true ↔ ∃ x ∈ xs, acc ro x w = true := by
  cases w <;> first | (cases hw; done) | (simp [acc, accL_eq])

theorem acc_union_union (ro : Name → Bool) (xs ys : List AType) :
    acc ro (.union xs) (.union ys) = true ↔ ∀ y ∈ ys, ∃ x ∈ xs, acc ro x y = true := by
  simp [acc, accL_eq]

theorem sizeOf_mem_union {x : AType} {xs : List AType} (h : x ∈ xs) : sizeOf x < sizeOf (AType.union xs) := by
  have := List.sizeOf_lt_of_mem h
  simp only [AType.union.sizeOf_spec]; omega

/-- More record pairs give more acceptance. -/
theorem acc_mono {ro ro' : Name → Bool} (h : ∀ n, ro n = true → ro' n = true) :
    ∀ (k : Nat) (r w : AType), sizeOf r + sizeOf w ≤ k → acc ro r w = true → acc ro' r w = true := by
  intro k
  induction k with
  | zero =>
    intro r w hk
    have : 0 < sizeOf r := by cases r <;> simp <;> omega
    omega
  | succ k ih =>
    intro r w hk ha
    by_cases hr : r.flat = true
    · by_cases hw : w.flat = true
      · cases r with
        | union _ => cases hr
        | array i =>
          cases w with
          | array j =>
            simp only [acc, overUnion] at ha ⊢
            exact ih i j (by simp at hk; omega) ha
          | union _ => cases hw
          | _ => simp [acc, overUnion] at ha
        | map i =>
          cases w with
          | map j =>
            simp only [acc, overUnion] at ha ⊢
            exact ih i j (by simp at hk; omega) ha
          | union _ => cases hw
          | _ => simp [acc, overUnion] at ha
        | record n =>
          cases w with
          | record m =>
            simp only [acc, overUnion, Bool.and_eq_true] at ha ⊢
            exact ⟨ha.1, h n ha.2⟩
          | union _ => cases hw
          | _ => simp [acc, overUnion] at ha
        | _ => simpa [acc] using ha
      · cases w with
        | union ys =>
          rw [acc_flat_union _ _ hr] at ha ⊢
          exact fun y hy => ih r y (by have := sizeOf_mem_union hy; omega) (ha y hy)
        | _ => exact absurd rfl hw
    · cases r with
      | union xs =>
        by_cases hw : w.flat = true
        · rw [acc_union_flat _ _ _ hw] at ha ⊢
          obtain ⟨x, hx, hxw⟩ := ha
          exact ⟨x, hx, ih x w (by have := sizeOf_mem_union hx; omega) hxw⟩
        · cases w with
          | union ys =>
            rw [acc_union_union] at ha ⊢
            intro y hy
            obtain ⟨x, hx, hxw⟩ := ha y hy
            exact ⟨x, hx, ih x y (by have := sizeOf_mem_union hx; have := sizeOf_mem_union hy; omega) hxw⟩
          | _ => exact absurd rfl hw
      | _ => exact absurd rfl hr

theorem acc_mono' {ro ro' : Name → Bool} (h : ∀ n, ro n = true → ro' n = true) {r w : AType}
    (ha : acc ro r w = true) : acc ro' r w = true := acc_mono h _ r w (Nat.le_refl _) ha

/-- What `_recordFieldsOkay` says. -/
theorem fieldsOk_iff (f : AType → AType → Bool) (xs ys : List Field) : fieldsOk f xs ys = true ↔
    ∀ xf ∈ xs, (xf.default = none → ∃ yf ∈ ys, xf.name = yf.name ∧ f xf.type yf.type = true) ∧
      (xf.default ≠ none → ∀ yf ∈ ys, xf.name = yf.name → f xf.type yf.type = true) := by
  unfold fieldsOk
  rw [List.all_eq_true]
  refine forall_congr' fun xf => forall_congr' fun _ => ?_
  cases h : xf.default with
  | none => simp
  | some d => simp [← imp_iff_not_or]

theorem fieldsOk_mono {f g : AType → AType → Bool} (h : ∀ r w, f r w = true → g r w = true) {xs ys : List Field}
    (hf : fieldsOk f xs ys = true) : fieldsOk g xs ys = true := by
  rw [fieldsOk_iff] at hf ⊢
  intro xf hx
  obtain ⟨h1, h2⟩ := hf xf hx
  refine ⟨fun hd => ?_, fun hd yf hy hn => h _ _ (h2 hd yf hy hn)⟩
  obtain ⟨yf, hy, hn, ha⟩ := h1 hd
  exact ⟨yf, hy, hn, h _ _ ha⟩

/-! ## The memo computes the greatest simulation -/

/-- The record definitions of `n` are compatible when pairs in `S` are taken as compatible. -/
def Closed (er ew : Env) (S : Name → Bool) (n : Name) : Prop :=
  ∃ xs ys, er.fields? n = some xs ∧ ew.fields? n = some ys ∧ fieldsOk (acc S) xs ys = true

/-- A set of record names compatible with each other. -/
def Sim (er ew : Env) (S : Name → Bool) : Prop := ∀ n, S n = true → Closed er ew S n

theorem Closed.mono {er ew : Env} {S S' : Name → Bool} (h : ∀ n, S n = true → S' n = true) {n : Name}
    (hc : Closed er ew S n) : Closed er ew S' n := by
  obtain ⟨xs, ys, h1, h2, h3⟩ := hc
  exact ⟨xs, ys, h1, h2, fieldsOk_mono (fun _ _ => acc_mono' h) h3⟩

open Classical in
/-- The greatest simulation relative to assumptions `M`. -/
noncomputable def gsim (er ew : Env) (M : List Name) (n : Name) : Bool :=
  decide (∃ S : Name → Bool, S n = true ∧ ∀ m, S m = true → m ∈ M ∨ Closed er ew S m)

theorem gsim_iff (er ew : Env) (M : List Name) (n : Name) :
    gsim er ew M n = true ↔ ∃ S : Name → Bool, S n = true ∧ ∀ m, S m = true → m ∈ M ∨ Closed er ew S m := by
  simp [gsim]

theorem gsim_closed (er ew : Env) (M : List Name) (n : Name) (h : gsim er ew M n = true) :
    n ∈ M ∨ Closed er ew (gsim er ew M) n := by
  obtain ⟨S, hS, hc⟩ := (gsim_iff ..).1 h
  refine (hc n hS).imp id (Closed.mono fun m hm => ?_)
  exact (gsim_iff ..).2 ⟨S, hm, hc⟩

theorem recOk_sound (er ew : Env) (fuel : Nat) (memo : List Name) (n : Name)
    (h : recOk er ew fuel memo n = true) : gsim er ew memo n = true := by
  induction fuel generalizing memo n with
  | zero => cases h
  | succ fuel ih =>
    rw [recOk] at h
    split at h
    · next hm =>
      refine (gsim_iff ..).2 ⟨fun m => decide (m = n), by simp, fun m hm' => ?_⟩
      have : m = n := by simpa using hm'
      exact .inl (this ▸ hm)
    · split at h
      · next xs ys hx hy =>
        rw [Bool.and_eq_true] at h
        have hg : fieldsOk (acc (gsim er ew (n :: memo))) xs ys = true :=
          fieldsOk_mono (fun _ _ => acc_mono' (fun m hm => ih _ _ hm)) h.2
        refine (gsim_iff ..).2 ⟨fun m => decide (m = n) || gsim er ew (n :: memo) m, by simp, fun m hm => ?_⟩
        have up : ∀ k, gsim er ew (n :: memo) k = true → (decide (k = n) || gsim er ew (n :: memo) k) = true := by
          intro k hk; simp [hk]
        have hcn : Closed er ew (fun m => decide (m = n) || gsim er ew (n :: memo) m) n :=
          Closed.mono up ⟨xs, ys, hx, hy, hg⟩
        rw [Bool.or_eq_true, decide_eq_true_eq] at hm
        rcases hm with rfl | hm
        · exact .inr hcn
        · rcases gsim_closed er ew _ m hm with hmem | hc
          · rcases List.mem_cons.1 hmem with rfl | hmem
            · exact .inr hcn
            · exact .inl hmem
          · exact .inr (hc.mono up)
      · cases h

theorem recOk_complete (er ew : Env) (S : Name → Bool) (hS : Sim er ew S) (fuel : Nat) (memo : List Name)
    (hnd : memo.Nodup) (hsub : ∀ m ∈ memo, m ∈ PyDict.keys er) (hf : er.length < fuel + memo.length)
    (n : Name) (hn : S n = true) : recOk er ew fuel memo n = true := by
  induction fuel generalizing memo n with
  | zero =>
    exfalso
    have : memo.length ≤ (PyDict.keys er).length := (List.subperm_of_subset hnd hsub).length_le
    simp [PyDict.keys] at this
    omega
  | succ fuel ih =>
    obtain ⟨xs, ys, hx, hy, hok⟩ := hS n hn
    rw [recOk]
    split
    · rfl
    · next hmem =>
      rw [hx, hy]
      simp only [Bool.and_eq_true]
      refine ⟨fieldsOk_mono (fun _ _ => acc_mono' (fun _ _ => rfl)) hok,
        fieldsOk_mono (fun _ _ => acc_mono' (fun m hm => ?_)) hok⟩
      refine ih (n :: memo) (List.nodup_cons.2 ⟨hmem, hnd⟩) ?_ (by simp; omega) m hm
      intro m' hm'
      rcases List.mem_cons.1 hm' with rfl | hm'
      · exact PyDict.mem_keys_of_get? hx
      · exact hsub m' hm'

/-- `accepts` holds exactly when some simulation of the record definitions supports it. -/
theorem accepts_iff (er ew : Env) (r w : AType) :
    accepts er ew r w = true ↔ ∃ S, Sim er ew S ∧ acc S r w = true := by
  constructor
  · intro h
    refine ⟨gsim er ew [], fun n hn => (gsim_closed er ew [] n hn).resolve_left (by simp), ?_⟩
    exact acc_mono' (fun n hn => recOk_sound er ew _ _ n hn) h
  · rintro ⟨S, hS, ha⟩
    exact acc_mono' (fun n hn => recOk_complete er ew S hS _ [] List.nodup_nil (by simp) (by simp) n hn) ha

/-! ## Reflexivity -/

mutual
/-- Every record named in the type is defined. -/
def AType.known (env : Env) : AType → Bool
  | .array i => AType.known env i
  | .map i => AType.known env i
  | .record n => (env.fields? n).isSome
  | .union ts => AType.knownL env ts
  | _ => true
def AType.knownL (env : Env) : List AType → Bool
  | [] => true
  | t :: ts => AType.known env t && AType.knownL env ts
end

theorem knownL_eq (env : Env) (ts : List AType) : AType.knownL env ts = ts.all (AType.known env) := by
  induction ts with
  | nil => rfl
  | cons t ts ih => simp [AType.knownL, ih]

/-- A table as `avro.schema.Names` holds it: no reference to an undefined record, field names distinct. -/
structure Env.Ok (env : Env) : Prop where
  known : ∀ n fs, env.fields? n = some fs → ∀ f ∈ fs, AType.known env f.type = true
  names : ∀ n fs, env.fields? n = some fs → (fs.map Field.name).Nodup

theorem acc_refl (env : Env) (k : Nat) (t : AType) (hk : sizeOf t ≤ k) (h : AType.known env t = true) :
    acc (fun n => (env.fields? n).isSome) t t = true := by
  induction k generalizing t with
  | zero =>
    have : 0 < sizeOf t := by cases t <;> simp <;> omega
    omega
  | succ k ih =>
    cases t with
    | union ts =>
      rw [acc_union_union]
      rw [AType.known, knownL_eq, List.all_eq_true] at h
      exact fun y hy => ⟨y, hy, ih y (by have := sizeOf_mem_union hy; omega) (h y hy)⟩
    | array i => simp only [acc, overUnion]; exact ih i (by simp at hk; omega) (by simpa [AType.known] using h)
    | map i => simp only [acc, overUnion]; exact ih i (by simp at hk; omega) (by simpa [AType.known] using h)
    | record n => simpa [acc, overUnion, AType.known] using h
    | _ => simp [acc, overUnion]

theorem field_unique {fs : List Field} (h : (fs.map Field.name).Nodup) {f g : Field} (hf : f ∈ fs) (hg : g ∈ fs)
    (he : f.name = g.name) : f = g := List.inj_on_of_nodup_map h hf hg he

/-- The names of a table simulate themselves. -/
theorem sim_self {env : Env} (he : env.Ok) : Sim env env (fun n => (env.fields? n).isSome) := by
  intro n hn
  obtain ⟨fs, hfs⟩ := Option.isSome_iff_exists.1 hn
  refine ⟨fs, fs, hfs, hfs, ?_⟩
  rw [fieldsOk_iff]
  intro xf hx
  have hself := acc_refl env _ xf.type (Nat.le_refl _) (he.known n fs hfs xf hx)
  refine ⟨fun _ => ⟨xf, hx, rfl, hself⟩, fun _ yf hy hname => ?_⟩
  rw [← field_unique (he.names n fs hfs) hx hy hname]; exact hself

/-- C04: every type accepts itself. -/
theorem accepts_refl {env : Env} (he : env.Ok) (t : AType) (h : AType.known env t = true) :
    accepts env env t t = true :=
  (accepts_iff ..).2 ⟨_, sim_self he, acc_refl env _ t (Nat.le_refl _) h⟩

/-! ## Transitivity -/

theorem acc_trans {S1 S2 S3 : Name → Bool} (hS : ∀ n, S1 n = true → S2 n = true → S3 n = true) :
    ∀ (k : Nat) (r w v : AType), sizeOf r + sizeOf w + sizeOf v ≤ k → acc S1 r w = true → acc S2 w v = true →
      acc S3 r v = true := by
  intro k
  induction k with
  | zero =>
    intro r w v hk
    have : 0 < sizeOf r := by cases r <;> simp <;> omega
    omega
  | succ k ih =>
    intro r w v hk h1 h2
    rcases flat_or r with hr | ⟨xs, rfl⟩ <;> rcases flat_or w with hw | ⟨ys, rfl⟩ <;>
      rcases flat_or v with hv | ⟨zs, rfl⟩
    · -- no unions at the top
      cases r with
      | union _ => cases hr
      | array i =>
        cases w with
        | array j =>
          cases v with
          | array l =>
            simp only [acc, overUnion] at h1 h2 ⊢
            exact ih i j l (by simp at hk; omega) h1 h2
          | union _ => cases hv
          | _ => simp [acc, overUnion] at h2
        | union _ => cases hw
        | _ => simp [acc, overUnion] at h1
      | map i =>
        cases w with
        | map j =>
          cases v with
          | map l =>
            simp only [acc, overUnion] at h1 h2 ⊢
            exact ih i j l (by simp at hk; omega) h1 h2
          | union _ => cases hv
          | _ => simp [acc, overUnion] at h2
        | union _ => cases hw
        | _ => simp [acc, overUnion] at h1
      | record n =>
        cases w with
        | record m =>
          cases v with
          | record l =>
            simp only [acc, overUnion, Bool.and_eq_true, decide_eq_true_eq] at h1 h2 ⊢
            obtain ⟨rfl, h1⟩ := h1
            obtain ⟨rfl, h2⟩ := h2
            exact ⟨rfl, hS _ h1 h2⟩
          | union _ => cases hv
          | _ => simp [acc, overUnion] at h2
        | union _ => cases hw
        | _ => simp [acc, overUnion] at h1
      | fixed n s =>
        cases w with
        | fixed m t =>
          cases v with
          | fixed l u =>
            simp only [acc, overUnion, Bool.and_eq_true, decide_eq_true_eq, beq_iff_eq] at h1 h2 ⊢
            exact ⟨h1.1.trans h2.1, h1.2.trans h2.2⟩
          | union _ => cases hv
          | _ => simp [acc, overUnion] at h2
        | union _ => cases hw
        | _ => simp [acc, overUnion] at h1
      | enum n s =>
        cases w with
        | enum m t =>
          cases v with
          | enum l u =>
            simp only [acc, overUnion, Bool.and_eq_true, decide_eq_true_eq, List.all_eq_true,
              List.contains_iff_mem] at h1 h2 ⊢
            exact ⟨fun x hx => h1.1 x (h2.1 x hx), h1.2.trans h2.2⟩
          | union _ => cases hv
          | _ => simp [acc, overUnion] at h2
        | union _ => cases hw
        | _ => simp [acc, overUnion] at h1
      | _ =>
        cases w <;> first
          | (cases hw; done)
          | (simp [acc, overUnion] at h1; done)
          | (cases v <;> first | (cases hv; done) | (simp [acc, overUnion] at h2; done) | (simp [acc, overUnion]; done))
    · rw [acc_flat_union _ _ hw] at h2
      rw [acc_flat_union _ _ hr]
      intro z hz
      have := sizeOf_mem_union hz
      exact ih r w z (by omega) h1 (h2 z hz)
    · rw [acc_flat_union _ _ hr] at h1
      rw [acc_union_flat _ _ _ hv] at h2
      obtain ⟨y, hy, hyz⟩ := h2
      have := sizeOf_mem_union hy
      exact ih r y v (by omega) (h1 y hy) hyz
    · rw [acc_flat_union _ _ hr] at h1
      rw [acc_union_union] at h2
      rw [acc_flat_union _ _ hr]
      intro z hz
      obtain ⟨y, hy, hyz⟩ := h2 z hz
      have := sizeOf_mem_union hy; have := sizeOf_mem_union hz
      exact ih r y z (by omega) (h1 y hy) hyz
    · rw [acc_union_flat _ _ _ hw] at h1
      rw [acc_union_flat _ _ _ hv]
      obtain ⟨x, hx, hxy⟩ := h1
      have := sizeOf_mem_union hx
      exact ⟨x, hx, ih x w v (by omega) hxy h2⟩
    · rw [acc_union_flat _ _ _ hw] at h1
      rw [acc_flat_union _ _ hw] at h2
      rw [acc_union_union]
      obtain ⟨x, hx, hxy⟩ := h1
      intro z hz
      have := sizeOf_mem_union hx; have := sizeOf_mem_union hz
      exact ⟨x, hx, ih x w z (by omega) hxy (h2 z hz)⟩
    · rw [acc_union_union] at h1
      rw [acc_union_flat _ _ _ hv] at h2 ⊢
      obtain ⟨y, hy, hyz⟩ := h2
      obtain ⟨x, hx, hxy⟩ := h1 y hy
      have := sizeOf_mem_union hx; have := sizeOf_mem_union hy
      exact ⟨x, hx, ih x y v (by omega) hxy hyz⟩
    · rw [acc_union_union] at h1 h2 ⊢
      intro z hz
      obtain ⟨y, hy, hyz⟩ := h2 z hz
      obtain ⟨x, hx, hxy⟩ := h1 y hy
      have := sizeOf_mem_union hx; have := sizeOf_mem_union hy; have := sizeOf_mem_union hz
      exact ⟨x, hx, ih x y z (by omega) hxy hyz⟩

/-- C05 within one table of record definitions (every engine has one): acceptance is transitive. -/
theorem accepts_trans {env : Env} (he : env.Ok) (a b c : AType)
    (h1 : accepts env env a b = true) (h2 : accepts env env b c = true) : accepts env env a c = true := by
  obtain ⟨S1, hS1, h1⟩ := (accepts_iff ..).1 h1
  obtain ⟨S2, hS2, h2⟩ := (accepts_iff ..).1 h2
  refine (accepts_iff ..).2 ⟨_, sim_self he, acc_trans ?_ _ a b c (Nat.le_refl _) h1 h2⟩
  intro n hn _
  obtain ⟨xs, _, hx, _⟩ := hS1 n hn
  simp [hx]

/-- The guard under which acceptance is transitive between different tables: every field of a
record of `ea` is a field of the record in `eb`, and has a default when that one has. -/
def Guard (ea eb : Env) : Prop := ∀ n xs ys, ea.fields? n = some xs → eb.fields? n = some ys →
  ∀ xf ∈ xs, ∃ yf ∈ ys, xf.name = yf.name ∧ (yf.default ≠ none → xf.default ≠ none)

/-- C05 between three tables, as far as it holds: the full statement has no `Guard`; see the two
violations below. -/
theorem accepts_trans_partial {ea eb ec : Env} (hb : eb.Ok) (hc : ec.Ok) (hg : Guard ea eb) (a b c : AType)
    (h1 : accepts ea eb a b = true) (h2 : accepts eb ec b c = true) : accepts ea ec a c = true := by
  obtain ⟨S1, hS1, h1⟩ := (accepts_iff ..).1 h1
  obtain ⟨S2, hS2, h2⟩ := (accepts_iff ..).1 h2
  refine (accepts_iff ..).2 ⟨fun n => S1 n && S2 n, ?_, acc_trans (by simp_all) _ a b c (Nat.le_refl _) h1 h2⟩
  intro n hn
  rw [Bool.and_eq_true] at hn
  obtain ⟨xs, ys, hx, hy, h12⟩ := hS1 n hn.1
  obtain ⟨ys', zs, hy', hz, h23⟩ := hS2 n hn.2
  rw [hy] at hy'; cases hy'
  refine ⟨xs, zs, hx, hz, ?_⟩
  rw [fieldsOk_iff] at h12 h23 ⊢
  intro xf hxf
  obtain ⟨yf, hyf, hname, hdef⟩ := hg n xs ys hx hy xf hxf
  have hxy : acc S1 xf.type yf.type = true := by
    obtain ⟨p1, p2⟩ := h12 xf hxf
    by_cases hd : xf.default = none
    · obtain ⟨yf', hyf', hn', ha⟩ := p1 hd
      rw [field_unique (hb.names n ys hy) hyf hyf' (hname.symm.trans hn')]; exact ha
    · exact p2 hd yf hyf hname
  have comp : ∀ zf : Field, acc S2 yf.type zf.type = true → acc (fun n => S1 n && S2 n) xf.type zf.type = true :=
    fun zf hz => acc_trans (by simp_all) _ _ _ _ (Nat.le_refl _) hxy hz
  obtain ⟨q1, q2⟩ := h23 yf hyf
  refine ⟨fun hd => ?_, fun _ zf hzf hn' => ?_⟩
  · have hyd : yf.default = none := by
      by_contra hyc; exact hdef hyc hd
    obtain ⟨zf, hzf, hn', ha⟩ := q1 hyd
    exact ⟨zf, hzf, hname.trans hn', comp zf ha⟩
  · by_cases hyd : yf.default = none
    · obtain ⟨zf', hzf', hn'', ha⟩ := q1 hyd
      rw [field_unique (hc.names n zs hz) hzf hzf' (hn'.symm.trans (hname.trans hn''))]
      exact comp zf' ha
    · exact comp zf (q2 hyd zf hzf (hname.symm.trans hn'))

/-- The name used in the witnesses. -/
def nR : Name := ⟨"", "R"⟩

/-- C05 violated: `R{x:int}` accepts `R{x:int=0}`, which accepts `R{}`, but `R{x:int}` does not
accept `R{}`. -/
theorem accepts_trans_violation_default :
    ∃ ea eb ec : Env, ea.Ok ∧ eb.Ok ∧ ec.Ok ∧ accepts ea eb (.record nR) (.record nR) = true ∧
      accepts eb ec (.record nR) (.record nR) = true ∧ accepts ea ec (.record nR) (.record nR) = false := by
  refine ⟨[(nR, [⟨"x", .int, none, .ascending⟩])], [(nR, [⟨"x", .int, some (.int 0), .ascending⟩])], [(nR, [])],
    ?_, ?_, ?_, by decide, by decide, by decide⟩
  all_goals
    constructor <;> intro n fs h <;> simp only [Env.fields?, PyDict.get?] at h <;> split at h <;>
      first | (cases h; simp [AType.known]; done) | (cases h; done)

/-- C05 violated in another way: `R{x:int=0}` accepts `R{}`, which accepts `R{x:string}`. -/
theorem accepts_trans_violation_dropped :
    ∃ ea eb ec : Env, ea.Ok ∧ eb.Ok ∧ ec.Ok ∧ accepts ea eb (.record nR) (.record nR) = true ∧
      accepts eb ec (.record nR) (.record nR) = true ∧ accepts ea ec (.record nR) (.record nR) = false := by
  refine ⟨[(nR, [⟨"x", .int, some (.int 0), .ascending⟩])], [(nR, [])], [(nR, [⟨"x", .string, none, .ascending⟩])],
    ?_, ?_, ?_, by decide, by decide, by decide⟩
  all_goals
    constructor <;> intro n fs h <;> simp only [Env.fields?, PyDict.get?] at h <;> split at h <;>
      first | (cases h; simp [AType.known]; done) | (cases h; done)

/-! ## Mutual acceptance (C61) -/

/-- Equal types, up to the order of enum symbols. -/
inductive Same : AType → AType → Prop
  | refl (t) : Same t t
  | enum (n) {s t : List String} : (∀ x, x ∈ s ↔ x ∈ t) → Same (.enum n s) (.enum n t)
  | array {a b} : Same a b → Same (.array a) (.array b)
  | map {a b} : Same a b → Same (.map a) (.map b)

/-- No union in the type (records are references and not looked into). -/
def AType.unionFree : AType → Bool
  | .array i => AType.unionFree i
  | .map i => AType.unionFree i
  | .union _ => false
  | _ => true

/-- The docstring of `accepts` says that types accepting each other are equal.  It holds for types
without unions; see `mutual_violation` for unions. -/
theorem mutual_partial (env env' : Env) (a : AType) (b : AType) (ha : a.unionFree = true) (hb : b.unionFree = true)
    (h1 : accepts env env' a b = true) (h2 : accepts env' env b a = true) : Same a b := by
  unfold accepts at h1 h2
  generalize recOk env env' _ [] = S1 at h1
  generalize recOk env' env _ [] = S2 at h2
  clear env env'
  obtain ⟨k, hk⟩ : ∃ k, sizeOf a ≤ k := ⟨_, Nat.le_refl _⟩
  induction k generalizing a b with
  | zero =>
    have : 0 < sizeOf a := by cases a <;> simp <;> omega
    omega
  | succ k ih =>
    cases a with
    | array i =>
      cases b with
      | array j => exact .array (ih i j ha hb (by simpa [acc, overUnion] using h1) (by simpa [acc, overUnion] using h2) (by simp at hk; omega))
      | union _ => cases hb
      | _ => simp [acc, overUnion] at h1
    | map i =>
      cases b with
      | map j => exact .map (ih i j ha hb (by simpa [acc, overUnion] using h1) (by simpa [acc, overUnion] using h2) (by simp at hk; omega))
      | union _ => cases hb
      | _ => simp [acc, overUnion] at h1
    | enum n s =>
      cases b with
      | enum m t =>
        simp only [acc, overUnion, Bool.and_eq_true, List.all_eq_true, List.contains_iff_mem,
          decide_eq_true_eq] at h1 h2
        obtain ⟨h1, rfl⟩ := h1
        exact .enum n (fun x => ⟨h2.1 x, h1 x⟩)
      | union _ => cases hb
      | _ => simp [acc, overUnion] at h1
    | fixed n s =>
      cases b with
      | fixed m t =>
        simp only [acc, overUnion, Bool.and_eq_true, beq_iff_eq, decide_eq_true_eq] at h1
        obtain ⟨rfl, rfl⟩ := h1
        exact .refl _
      | union _ => cases hb
      | _ => simp [acc, overUnion] at h1
    | record n =>
      cases b with
      | record m =>
        simp only [acc, overUnion, Bool.and_eq_true, decide_eq_true_eq] at h1
        rw [h1.1]; exact .refl _
      | union _ => cases hb
      | _ => simp [acc, overUnion] at h1
    | union _ => cases ha
    | _ =>
      cases b <;> first
        | (cases hb; done)
        | (simp [acc, overUnion] at h1; done)
        | (simp [acc, overUnion] at h2; done)
        | exact .refl _

/-- A type and the union of that type alone accept each other, and so do `long` and `[int, long]`. -/
theorem mutual_violation :
    (accepts [] [] .int (.union [.int]) = true ∧ accepts [] [] (.union [.int]) .int = true) ∧
    (accepts [] [] .long (.union [.int, .long]) = true ∧ accepts [] [] (.union [.int, .long]) .long = true) := by
  decide

/-! ### Non-vacuity: a recursive record -/

/-- `record Tree { value: int, left: [null, Tree], right: [null, Tree] }` -/
def treeEnv : Env := [(⟨"", "Tree"⟩, [⟨"value", .int, none, .ascending⟩,
  ⟨"left", .union [.null, .record ⟨"", "Tree"⟩], none, .ascending⟩,
  ⟨"right", .union [.null, .record ⟨"", "Tree"⟩], none, .ascending⟩])]

theorem treeEnv_ok : treeEnv.Ok := by
  constructor <;> intro n fs h <;> simp only [treeEnv, Env.fields?, PyDict.get?] at h <;> split at h <;>
    first
      | (cases h; done)
      | (cases h; intro f hf; simp only [List.mem_cons, List.not_mem_nil, or_false] at hf
         rcases hf with rfl | rfl | rfl <;> decide)
      | (cases h; decide)

example : accepts treeEnv treeEnv (.record ⟨"", "Tree"⟩) (.record ⟨"", "Tree"⟩) = true := by decide
example : accepts treeEnv treeEnv (.union [.null, .record ⟨"", "Tree"⟩]) (.record ⟨"", "Tree"⟩) = true := by decide
example : Guard treeEnv treeEnv := by
  intro n xs ys hx hy xf hxf
  rw [hx] at hy; cases hy
  exact ⟨xf, hxf, rfl, fun h => h⟩

end Verif.Avro
