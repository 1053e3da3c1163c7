import Verif.Lang.Seal
import Verif.Lang.Cast
import Verif.Pack.Theorems
import Verif.Arith.Model
/-!
# An instance of the soundness theorem (C42)

`engine_sound_partial` is about any relation between types and data that fits the run-time system.  Here is
one: `Data`, the run-time data of Avro types as the generated code passes them around (integers in
range, integers also where floating point numbers are expected, tagged unions, bytes as Python `bytes`).
`strictGuard` gives the conditions under which checked programs do not go wrong with such data; each of
them is decidable on the program.  `fit` proves that they are enough.
-/

namespace Verif.Lang
open Avro Scope Path Sig Ast

/-! ## Data -/

/-- Run-time data of a type. -/
inductive Data (env : Env) : AType → Val → Prop
  | null : Data env .null .null
  | boolean (b : Bool) : Data env .boolean (.bool b)
  | int {i : Int} : -2 ^ 31 ≤ i → i < 2 ^ 31 → Data env .int (.int i)
  | long {i : Int} : -2 ^ 63 ≤ i → i < 2 ^ 63 → Data env .long (.int i)
  | float (f : Flt) : Data env .float (.flt f)
  | floatInt {i : Int} : -2 ^ 64 ≤ i → i ≤ 2 ^ 64 → Data env .float (.int i)
  | double (f : Flt) : Data env .double (.flt f)
  | doubleInt {i : Int} : -2 ^ 64 ≤ i → i ≤ 2 ^ 64 → Data env .double (.int i)
  | bytes {bs : List Nat} : Pack.Bytes bs → Data env .bytes (.bytes bs)
  | string (s : String) : Data env .string (.str s)
  | fixed {n : Name} {k : Nat} {bs : List Nat} : Pack.Bytes bs → bs.length = k → Data env (.fixed n k) (.bytes bs)
  | enum {n : Name} {syms : List String} {s : String} : s ∈ syms → Data env (.enum n syms) (.str s)
  | array {t : AType} {vs : List Val} : (∀ x ∈ vs, Data env t x) → Data env (.array t) (.arr vs)
  | map {t : AType} {d : List (String × Val)} : PyDict.WF d → (∀ k x, PyDict.get? d k = some x → Data env t x) → Data env (.map t) (.dict d)
  | record {n : Name} {fs : List Field} {d : List (String × Val)} (x : String → Val) : env.fields? n = some fs → PyDict.WF d →
      (∀ k ∈ PyDict.keys d, ∃ f, fs.find? (fun f => f.name = k) = some f) →
      (∀ k f, fs.find? (fun f => f.name = k) = some f → PyDict.get? d k = some (x k)) →
      (∀ k f, fs.find? (fun f => f.name = k) = some f → Data env f.type (x k)) → Data env (.record n) (.dict d)
  | unionNull {ts : List AType} : .null ∈ ts → Data env (.union ts) .null
  | union {ts : List AType} {t : AType} {v : Val} : t ∈ ts → t ≠ .null → Data env t v → Data env (.union ts) (.dict [(t.name, v)])

/-! ## Conditions -/

/-- A value of the second type is a value of the first. -/
def sub (r w : AType) : Bool :=
  decide (r = w) || match r, w with
  | .long, .int => true
  | .float, .int => true
  | .float, .long => true
  | .double, .int => true
  | .double, .long => true
  | .double, .float => true
  | .array r, .array w => sub r w
  | .map r, .map w => sub r w
  | .union rs, .union ws => ws.all (fun w => decide (w ∈ rs))
  | _, _ => false

theorem sub_data {env : Env} : ∀ {r w : AType} {v : Val}, sub r w = true → Data env w v → Data env r v := by
  intro r
  have key : ∀ (k : Nat) (r : AType), sizeOf r ≤ k → ∀ {w v}, sub r w = true → Data env w v → Data env r v := by
    intro k
    induction k with
    | zero =>
      intro r hk
      have : 0 < sizeOf r := by cases r <;> simp <;> omega
      omega
    | succ k ih =>
      intro r hk w v hs hd
      rw [sub.eq_def, Bool.or_eq_true, decide_eq_true_eq] at hs
      rcases hs with rfl | hs
      · exact hd
      · split at hs
        · cases hd with | int h1 h2 => exact .long (by omega) (by omega)
        · cases hd with | int h1 h2 => exact .floatInt (by omega) (by omega)
        · cases hd with | long h1 h2 => exact .floatInt (by omega) (by omega)
        · cases hd with | int h1 h2 => exact .doubleInt (by omega) (by omega)
        · cases hd with | long h1 h2 => exact .doubleInt (by omega) (by omega)
        · cases hd with
          | float f => exact .double f
          | floatInt h1 h2 => exact .doubleInt h1 h2
        · next r' w' =>
          simp only [AType.array.sizeOf_spec] at hk
          cases hd with | array h => exact .array (fun x hx => ih r' (by omega) hs (h x hx))
        · next r' w' =>
          simp only [AType.map.sizeOf_spec] at hk
          cases hd with | map hw h => exact .map hw (fun k x hx => ih r' (by omega) hs (h k x hx))
        · next rs ws =>
          simp only [List.all_eq_true, decide_eq_true_eq] at hs
          cases hd with
          | unionNull h => exact .unionNull (hs _ h)
          | union h1 h2 h3 => exact .union (hs _ h1) h2 h3
        · cases hs
  exact fun {w v} => key _ r (le_refl _)

/-- Is the value a datum of the type? -/
def isData (env : Env) : Nat → AType → Val → Bool
  | 0, _, _ => false
  | k + 1, t, v => match t, v with
    | .null, .null => true
    | .boolean, .bool _ => true
    | .int, .int i => decide (-2 ^ 31 ≤ i) && decide (i < 2 ^ 31)
    | .long, .int i => decide (-2 ^ 63 ≤ i) && decide (i < 2 ^ 63)
    | .float, .flt _ => true
    | .double, .flt _ => true
    | .string, .str _ => true
    | .enum _ syms, .str s => decide (s ∈ syms)
    | .array t, .arr vs => vs.all (isData env k t)
    | .map t, .dict d => decide (PyDict.keys d).Nodup && d.all (fun kv => isData env k t kv.2)
    | .record n, .dict d => match env.fields? n with
      | some fs => decide (PyDict.keys d).Nodup && d.all (fun kv => (fs.find? (fun f => f.name = kv.1)).isSome) &&
          fs.all (fun f => match PyDict.get? d f.name with | some x => isData env k f.type x | none => false)
      | none => false
    | .union ts, .null => decide (.null ∈ ts)
    | .union ts, .dict [(tag, x)] => ts.any (fun t => !isNull t && decide (t.name = tag) && isData env k t x)
    | _, _ => false

theorem isNull_false {t : AType} (h : isNull t = false) : t ≠ .null := by rintro rfl; cases h

theorem isData_data {env : Env} (k : Nat) : ∀ {t : AType} {v : Val}, isData env k t v = true → Data env t v := by
  induction k with
  | zero => intro t v h; cases h
  | succ k ih =>
    intro t v h
    unfold isData at h
    split at h
    · exact .null
    · exact .boolean _
    · simp only [Bool.and_eq_true, decide_eq_true_eq] at h; exact .int h.1 h.2
    · simp only [Bool.and_eq_true, decide_eq_true_eq] at h; exact .long h.1 h.2
    · exact .float _
    · exact .double _
    · exact .string _
    · exact .enum (by simpa using h)
    · exact .array (fun x hx => ih (List.all_eq_true.1 h x hx))
    · simp only [Bool.and_eq_true, decide_eq_true_eq, List.all_eq_true] at h
      exact .map h.1 (fun k x hx => ih (h.2 _ (PyDict.mem_of_get? hx)))
    · next n d =>
      split at h
      · next fs hfs =>
        simp only [Bool.and_eq_true, decide_eq_true_eq, List.all_eq_true] at h
        have hget : ∀ k f, fs.find? (fun f => f.name = k) = some f → ∃ x, PyDict.get? d k = some x ∧ Data env f.type x := by
          intro key f hf
          have h1 := h.2 f (List.mem_of_find?_eq_some hf)
          have h2 : f.name = key := by simpa using List.find?_some hf
          rw [h2] at h1
          split at h1
          · next x hx => exact ⟨x, hx, ih h1⟩
          · cases h1
        refine .record (fun key => (PyDict.get? d key).getD .null) hfs h.1.1 (fun key hk => ?_) (fun key f hf => ?_) (fun key f hf => ?_)
        · obtain ⟨⟨k', x⟩, hm, rfl⟩ := List.mem_map.1 hk
          have := h.1.2 _ hm
          rw [Option.isSome_iff_exists] at this
          exact this
        · obtain ⟨x, hx, -⟩ := hget key f hf
          simp [hx]
        · obtain ⟨x, hx, hd⟩ := hget key f hf
          simpa [hx] using hd
      · cases h
    · exact .unionNull (by simpa using h)
    · simp only [List.any_eq_true, Bool.and_eq_true, Bool.not_eq_true', decide_eq_true_eq] at h
      obtain ⟨t, ht, ⟨h1, rfl⟩, h2⟩ := h
      exact .union ht (isNull_false h1) (ih h2)
    · cases h

/-- Types whose data `cast` can tell by the tag and read back. -/
def castLeaf : AType → Bool
  | .null => true
  | .boolean => true
  | .int => true
  | .long => true
  | .float => true
  | .double => true
  | .string => true
  | .enum _ _ => true
  | _ => false

/-- Types whose data have no bytes in them. -/
def noBytes : AType → Bool
  | .bytes => false
  | .fixed _ _ => false
  | .record _ => false
  | .array t => noBytes t
  | .map t => noBytes t
  | .union ts => noBytesL ts
  | _ => true
where
  @[inherit_doc noBytes] noBytesL : List AType → Bool
    | [] => true
    | t :: ts => noBytes t && noBytesL ts

/-- Values of the type that can be packed in this way without `struct.error`. -/
def packable : Pack.Decl → AType → Bool
  | .raw, .bytes => true
  | .rawSize _, .bytes => true
  | .toNull, .bytes => true
  | .prefixed, .bytes => true
  | .pad, _ => true
  | .boolean, _ => true
  | .int _ false, .int => true
  | .long _ false, .int => true
  | .long _ false, .long => true
  | _, _ => false

/-- No visible symbol begins with `$`. -/
def noDollar (Γ : SymTab) : Bool := Γ.all (fun s => s.symbols.all (fun p => decide (p.1.toList.head? ≠ some '$')))

/-- The library functions of the instance: `+` (lib/core.py 62-68) and `<` on integers, `a.map` (lib/array.py). -/
def libCall (name : String) (tys ps : List CType) (r : CType) : Bool :=
  match name, tys, ps, r with
  | "+", [.avro a, .avro b], [.avro p, .avro _], .avro q => decide (p = q) && (decide (p = .int) || decide (p = .long)) && sub .long a && sub .long b
  | "<", [.avro a, .avro b], _, .avro .boolean => sub .long a && sub .long b
  | "a.map", [.avro (.array a), .fcn [.avro p] (.avro b)], _, .avro (.array q) => sub p a && sub q b
  | _, _, _, _ => false

/-- Conditions under which nothing goes wrong. -/
def strictGuard (env : Env) : Guard where
  acc := sub
  lit t v := isData env 100 t v
  cast t cases part := match t with
    | .union ts => ts.all castLeaf && decide ((ts.map AType.name).Nodup) && decide ("union" ∉ ts.map AType.name) && cases.all (fun c => decide (c ∈ ts)) &&
        ts.all (fun m => ts.all (fun c => !tagFits m.name c.name || decide (m = c))) && (part || ts.all (fun m => decide (m ∈ cases)))
    | _ => false
  notNull t u := match t with
    | .union ts => decide (ts.length > 2) || decide (expectedTag u = some u.name)
    | _ => false
  try_ t := isUnion t
  filter := false
  upcast t u := match t with
    | .union ts => if isUnion u then sub t u else match ts.find? (fun x => accepts env env x u) with
      | some x => sub x u && !isNull x && !isUnion x
      | none => false
    | _ => sub t u
  call := libCall
  ref _ _ _ := false
  fill p a := match p, a with
    | .avro t, some (.avro u) => sub t u
    | _, _ => false
  dollar := noDollar
  libTo := false
  sets n := decide (n ≤ 1)
  pack ds := ds.all (fun d => packable d.1 d.2)
  unpack _ := true
  log := noBytes

/-! ## Casts -/

theorem dec_leaf {pf : List Char → Option Flt} {env : Env} {n : Nat} {t : AType} {x : Val} (hl : castLeaf t = true) (hd : Data env t x) :
    ∃ y, dec pf env (n + 1) t x = .ok y ∧ Data env t y := by
  have big : ∀ i : Int, -2 ^ 64 ≤ i → i ≤ 2 ^ 64 → i.natAbs < dblLimit := by
    intro i h1 h2
    have : (2 : Nat) ^ 65 < dblLimit := by unfold dblLimit; decide +kernel
    have : (2 : Nat) ^ 65 = 36893488147419103232 := by norm_num
    omega
  cases hd with
  | null => exact ⟨_, rfl, .null⟩
  | boolean b => exact ⟨_, rfl, .boolean b⟩
  | int h1 h2 => exact ⟨_, rfl, .int h1 h2⟩
  | long h1 h2 => exact ⟨_, rfl, .long h1 h2⟩
  | float f => exact ⟨_, rfl, .float f⟩
  | floatInt h1 h2 =>
    exact ⟨_, by simp only [dec, decStep, toFlt, intToFlt, if_pos (big _ h1 h2), Res.app]; rfl, .float _⟩
  | double f => exact ⟨_, rfl, .double f⟩
  | doubleInt h1 h2 =>
    exact ⟨_, by simp only [dec, decStep, toFlt, intToFlt, if_pos (big _ h1 h2), Res.app]; rfl, .double _⟩
  | string s => exact ⟨_, rfl, .string s⟩
  | enum h => exact ⟨_, by simp only [dec, decStep, if_pos h], .enum h⟩
  | bytes _ => cases hl
  | fixed _ _ => cases hl
  | array _ => cases hl
  | map _ _ => cases hl
  | record _ _ _ _ _ _ => cases hl
  | unionNull _ => cases hl
  | union _ _ _ => cases hl

theorem leaf_mapFree {t : AType} (h : castLeaf t = true) : mapFree t = true := by cases t <;> first | rfl | cases h

theorem leaf_reparse {t : AType} (h : castLeaf t = true) : reparse t = .ok t := reparse_id t (leaf_mapFree h)

theorem dec_null {pf : List Char → Option Flt} {env : Env} {n : Nat} {t : AType} (hl : castLeaf t = true) (hn : t ≠ .null) :
    dec pf env (n + 1) t .null = .error .avro := by
  cases t <;> first | (cases hl; done) | (exact absurd rfl hn) | rfl

/-- Null runs the case of null. -/
theorem pick_null {pf : List Char → Option Flt} {env : Env} {n : Nat} (cases : List AType) (hl : ∀ c ∈ cases, castLeaf c = true) :
    match castPick (dec pf env (n + 1)) true .null cases with
    | .ok none => .null ∉ cases
    | .ok (some (i, y)) => ∃ u, cases[i]? = some u ∧ Data env u y
    | .error e => Allowed e := by
  induction cases with
  | nil => simp [castPick]
  | cons t ts ih =>
    have h1 := hl t (List.mem_cons_self ..)
    have ih := ih (fun c hc => hl c (List.mem_cons_of_mem _ hc))
    rw [castPick, leaf_reparse h1]
    dsimp only [candidate]
    by_cases hn : t = .null
    · subst hn
      exact ⟨.null, rfl, .null⟩
    · rw [dec_null h1 hn]
      simp only [true_or, if_true]
      revert ih
      rcases castPick (dec pf env (n + 1)) true .null ts with e | (_ | ⟨i, y⟩)
      · exact fun h => h
      · intro h
        simp only [Res.app, Option.map, List.mem_cons, not_or]
        exact ⟨fun h' => hn h'.symm, h⟩
      · intro h
        simpa [Res.app, Option.map] using h

/-- A tagged value runs the case of its type. -/
theorem pick_tag {pf : List Char → Option Flt} {env : Env} {n : Nat} {m : AType} {x : Val} (hd : Data env m x) (hml : castLeaf m = true) (cases : List AType)
    (hl : ∀ c ∈ cases, castLeaf c = true) (ht : ∀ c ∈ cases, tagFits m.name c.name = true → m = c) :
    match castPick (dec pf env (n + 1)) true (.dict [(m.name, x)]) cases with
    | .ok none => m ∉ cases
    | .ok (some (i, y)) => ∃ u, cases[i]? = some u ∧ Data env u y
    | .error e => Allowed e := by
  induction cases with
  | nil => simp [castPick]
  | cons t ts ih =>
    have h1 := hl t (List.mem_cons_self ..)
    have ih := ih (fun c hc => hl c (List.mem_cons_of_mem _ hc)) (fun c hc => ht c (List.mem_cons_of_mem _ hc))
    rw [castPick, leaf_reparse h1]
    dsimp only [candidate]
    by_cases hf : tagFits m.name t.name = true
    · obtain rfl := ht t (List.mem_cons_self ..) hf
      obtain ⟨y, h2, h3⟩ := dec_leaf (pf := pf) (n := n) h1 hd
      rw [if_pos hf]
      dsimp only
      rw [h2]
      exact ⟨m, rfl, h3⟩
    · rw [if_neg hf]
      have hn : m ≠ t := by rintro rfl; exact hf (by simp [tagFits])
      revert ih
      dsimp only
      rcases castPick (dec pf env (n + 1)) true (.dict [(m.name, x)]) ts with e | (_ | ⟨i, y⟩)
      · exact fun h => h
      · intro h
        simp only [Res.app, Option.map, List.mem_cons, not_or]
        exact ⟨hn, h⟩
      · intro h
        simpa [Res.app, Option.map] using h

/-! ## Bytes -/

theorem packInt_bytes {w : Nat} {l u : Bool} {i : Int} {bs : List Nat} (h : Pack.packInt w l u i = .ok bs) : Pack.Bytes bs := by
  unfold Pack.packInt at h
  split at h
  · split at h
    · cases h; exact Pack.order_bytes (Pack.lowBytes_bytes _ _)
    · cases h
  · split at h
    · cases h; exact Pack.order_bytes (Pack.lowBytes_bytes _ _)
    · cases h

theorem packOne_data {F : Pack.FloatBits} {env : Env} {d : Pack.Decl} {t : AType} {v : Val} (hp : packable d t = true) (hd : Data env t v) :
    match Pack.packOne F d v with
    | .ok bs => Pack.Bytes bs
    | .error e => Allowed e := by
  unfold packable at hp
  split at hp
  · cases hd with | bytes h => exact h
  · next k =>
    cases hd with
    | bytes h =>
      next bs =>
      simp only [Pack.packOne, Pack.lenOf, bind, Except.bind, Pack.rawOf]
      by_cases hk : bs.length ≠ k
      · rw [if_pos hk]; trivial
      · rw [if_neg hk]; exact h
  · cases hd with
    | bytes h =>
      simp only [Pack.packOne, bind, Except.bind, Pack.rawOf]
      intro b hb
      rcases List.mem_append.1 hb with hb | hb
      · exact h b hb
      · rw [List.mem_singleton.1 hb]; decide
  · cases hd with
    | bytes h =>
      next bs =>
      simp only [Pack.packOne, Pack.lenOf, bind, Except.bind, Pack.rawOf]
      by_cases hk : bs.length > 255
      · rw [if_pos hk]; trivial
      · rw [if_neg hk]
        intro b hb
        rcases List.mem_cons.1 hb with rfl | hb
        · omega
        · exact h b hb
  · intro b hb
    rw [List.mem_singleton.1 hb]; decide
  · intro b hb
    rw [List.mem_singleton.1 hb]
    cases Pack.truthy v <;> decide
  · next l =>
    cases hd with
    | int h1 h2 =>
      next i =>
      have : Pack.packOne F (.int l false) (.int i) = Pack.packInt 4 l false i := rfl
      rw [this]
      have h : -2 ^ (8 * 4 - 1) ≤ i ∧ i < 2 ^ (8 * 4 - 1) := by constructor <;> norm_num <;> omega
      have h3 : ∃ bs, Pack.packInt 4 l false i = .ok bs := by
        unfold Pack.packInt; rw [if_neg (by decide), if_pos h]; exact ⟨_, rfl⟩
      obtain ⟨bs, h4⟩ := h3
      rw [h4]
      exact packInt_bytes h4
  · next l =>
    cases hd with
    | int h1 h2 =>
      next i =>
      have : Pack.packOne F (.long l false) (.int i) = Pack.packInt 8 l false i := rfl
      rw [this]
      have h : -2 ^ (8 * 8 - 1) ≤ i ∧ i < 2 ^ (8 * 8 - 1) := by constructor <;> norm_num <;> omega
      have h3 : ∃ bs, Pack.packInt 8 l false i = .ok bs := by
        unfold Pack.packInt; rw [if_neg (by decide), if_pos h]; exact ⟨_, rfl⟩
      obtain ⟨bs, h4⟩ := h3
      rw [h4]
      exact packInt_bytes h4
  · next l =>
    cases hd with
    | long h1 h2 =>
      next i =>
      have : Pack.packOne F (.long l false) (.int i) = Pack.packInt 8 l false i := rfl
      rw [this]
      have h : -2 ^ (8 * 8 - 1) ≤ i ∧ i < 2 ^ (8 * 8 - 1) := by constructor <;> norm_num <;> omega
      have h3 : ∃ bs, Pack.packInt 8 l false i = .ok bs := by
        unfold Pack.packInt; rw [if_neg (by decide), if_pos h]; exact ⟨_, rfl⟩
      obtain ⟨bs, h4⟩ := h3
      rw [h4]
      exact packInt_bytes h4
  · cases hp

theorem pack_data {F : Pack.FloatBits} {env : Env} {ds : List (Pack.Decl × AType)} : ∀ {vs : List (Pack.Decl × Val)},
    ds.all (fun d => packable d.1 d.2) = true → List.Forall₂ (fun d x => d.1 = x.1 ∧ Data env d.2 x.2) ds vs →
    match Pack.pack F vs with
    | .ok out => Pack.Bytes out
    | .error e => Allowed e := by
  induction ds with
  | nil => intro vs _ h; cases h; intro b hb; cases hb
  | cons d ds ih =>
    intro vs hp h
    cases h with
    | cons h1 h2 =>
      next v vs =>
      obtain ⟨d, t⟩ := d
      obtain ⟨d', v⟩ := v
      obtain ⟨h3, h4⟩ := h1
      dsimp only at h3 h4
      subst h3
      rw [List.all_cons, Bool.and_eq_true] at hp
      have h5 := packOne_data (F := F) hp.1 h4
      have h6 := ih hp.2 h2
      dsimp only at h5
      simp only [Pack.pack, bind, Except.bind]
      revert h5 h6
      rcases Pack.packOne F d v with e | bs
      · exact fun h _ => h
      · dsimp only
        rcases Pack.pack F vs with e | cs
        · exact fun _ h => h
        · intro h h' b hb
          rcases List.mem_append.1 hb with hb | hb
          · exact h b hb
          · exact h' b hb

theorem bytes_take {bs : List Nat} (h : Pack.Bytes bs) (n : Nat) : Pack.Bytes (bs.take n) := fun b hb => h b (List.mem_of_mem_take hb)

theorem bytes_drop {bs : List Nat} (h : Pack.Bytes bs) (n : Nat) : Pack.Bytes (bs.drop n) := fun b hb => h b (List.mem_of_mem_drop hb)

theorem unpackInt_range {w : Nat} {l u : Bool} {bs : List Nat} (h : Pack.Bytes bs) (hw : bs.length = w) (hpos : 0 < w) :
    if u then 0 ≤ Pack.unpackInt w l u bs ∧ Pack.unpackInt w l u bs < 2 ^ (8 * w)
    else -2 ^ (8 * w - 1) ≤ Pack.unpackInt w l u bs ∧ Pack.unpackInt w l u bs < 2 ^ (8 * w - 1) := by
  have h1 := Pack.leNat_lt (Pack.order_bytes (l := l) h)
  rw [Pack.order_length, hw] at h1
  have h2 : (256 : Nat) ^ w = 2 ^ (8 * w) := by rw [pow_mul]; norm_num
  rw [h2] at h1
  have h3 : (2 : Int) ^ (8 * w) = 2 * 2 ^ (8 * w - 1) := by
    rw [← pow_succ']; congr 1; omega
  have h4 : ((Pack.leNat (Pack.order l bs) : Nat) : Int) < 2 ^ (8 * w) := by exact_mod_cast h1
  have h5 : (0 : Int) < 2 ^ (8 * w - 1) := by positivity
  unfold Pack.unpackInt
  cases u with
  | true => simp only [if_true]; exact ⟨Int.natCast_nonneg _, h4⟩
  | false =>
    simp only [Bool.false_eq_true, if_false]
    by_cases h6 : Pack.leNat (Pack.order l bs) < 2 ^ (8 * w - 1)
    · rw [if_pos h6]
      have h7 : ((Pack.leNat (Pack.order l bs) : Nat) : Int) < 2 ^ (8 * w - 1) := by exact_mod_cast h6
      exact ⟨by have := Int.natCast_nonneg (Pack.leNat (Pack.order l bs)); omega, h7⟩
    · rw [if_neg h6]
      have h7 : ((2 : Int) ^ (8 * w - 1)) ≤ ((Pack.leNat (Pack.order l bs) : Nat) : Int) := by exact_mod_cast Nat.le_of_not_lt h6
      omega

theorem fixedVal_data {env : Env} {d : Pack.Decl} {n : Nat} {bs : List Nat} (hn : d.size? = some n) (hb : Pack.Bytes bs) (hl : bs.length = n) :
    Data env (declType d) (Pack.fixedVal d bs) := by
  cases d with
  | pad => exact .null
  | boolean => exact .boolean _
  | byte u =>
    cases hn
    have := unpackInt_range (l := false) (u := u) hb hl (by decide)
    cases u <;> simp at this <;> exact .int (by omega) (by omega)
  | short l u =>
    cases hn
    have := unpackInt_range (l := l) (u := u) hb hl (by decide)
    cases u <;> simp at this <;> exact .int (by omega) (by omega)
  | int l u =>
    cases hn
    have := unpackInt_range (l := l) (u := u) hb hl (by decide)
    cases u
    · simp at this; exact .int (by omega) (by omega)
    · simp at this; exact .long (by omega) (by omega)
  | long l u =>
    cases hn
    have := unpackInt_range (l := l) (u := u) hb hl (by decide)
    cases u
    · simp at this; exact .long (by omega) (by omega)
    · simp at this; exact .doubleInt (by omega) (by omega)
  | float l => exact .float _
  | double l => exact .double _
  | rawSize k => exact .bytes hb
  | raw => cases hn
  | toNull => cases hn
  | prefixed => cases hn

theorem unpackOne_data {env : Env} {d : Pack.Decl} {bs rest : List Nat} {v : Val} (hb : Pack.Bytes bs) (h : Pack.unpackOne d bs = some (v, rest)) :
    Data env (declType d) v ∧ Pack.Bytes rest := by
  have fixed : ∀ n, d.size? = some n → (if (bs.take n).length ≠ n then none else some (Pack.fixedVal d (bs.take n), bs.drop n)) = some (v, rest) →
      Data env (declType d) v ∧ Pack.Bytes rest := by
    intro n hn h
    split at h
    · cases h
    · next hl =>
      cases h
      exact ⟨fixedVal_data hn (bytes_take hb n) (by simpa using hl), bytes_drop hb n⟩
  unfold Pack.unpackOne at h
  split at h
  · split at h
    · cases h
    · cases h; exact ⟨.bytes (bytes_take hb _), bytes_drop hb _⟩
  · split at h
    · cases h
    · next n bs =>
      split at h
      · cases h
      · cases h
        have hb' : Pack.Bytes bs := fun b hm => hb b (List.mem_cons_of_mem _ hm)
        exact ⟨.bytes (bytes_take hb' _), bytes_drop hb' _⟩
  · cases h
  · split at h
    · cases h
    · next n hn => exact fixed n hn h

theorem unpack_data {env : Env} {fs : List (String × Pack.Decl)} : ∀ {bs : List Nat}, Pack.Bytes bs → ∀ e, Pack.unpack fs bs = some e →
    List.Forall₂ (fun f x => f.1 = x.1 ∧ Data env (declType f.2) x.2) fs e := by
  induction fs with
  | nil =>
    intro bs hb e h
    simp only [Pack.unpack] at h
    split at h
    · cases h
    · cases h; exact .nil
  | cons f fs ih =>
    intro bs hb e h
    obtain ⟨s, d⟩ := f
    simp only [Pack.unpack] at h
    split at h
    · cases h
    · next v rest h1 =>
      obtain ⟨h2, h3⟩ := unpackOne_data (env := env) hb h1
      rw [Option.map_eq_some_iff] at h
      obtain ⟨e', h4, rfl⟩ := h
      exact .cons ⟨rfl, h2⟩ (ih h3 e' h4)

/-! ## Logging -/

theorem noBytes_data {env : Env} {t : AType} {v : Val} (hd : Data env t v) : noBytes t = true → hasBytes v = false := by
  have hL : ∀ (ts : List AType) (t : AType), noBytes.noBytesL ts = true → t ∈ ts → noBytes t = true := by
    intro ts
    induction ts with
    | nil => intro t _ h; cases h
    | cons u us ih =>
      intro t h hm
      rw [noBytes.noBytesL, Bool.and_eq_true] at h
      rcases List.mem_cons.1 hm with rfl | hm
      · exact h.1
      · exact ih t h.2 hm
  induction hd with
  | null => exact fun _ => rfl
  | boolean => exact fun _ => rfl
  | int => exact fun _ => rfl
  | long => exact fun _ => rfl
  | float => exact fun _ => rfl
  | floatInt => exact fun _ => rfl
  | double => exact fun _ => rfl
  | doubleInt => exact fun _ => rfl
  | bytes => intro h; cases h
  | string => exact fun _ => rfl
  | fixed => intro h; cases h
  | enum => exact fun _ => rfl
  | @array t vs h ih =>
    intro hn
    rw [noBytes] at hn
    rw [hasBytes]
    clear h
    induction vs with
    | nil => rfl
    | cons x xs ihx =>
      rw [hasBytesL, ih x (List.mem_cons_self ..) hn, Bool.false_or]
      exact ihx (fun y hy => ih y (List.mem_cons_of_mem _ hy))
  | @map t d hw h ih =>
    intro hn
    rw [noBytes] at hn
    rw [hasBytes]
    have ih' : ∀ p ∈ d, hasBytes p.2 = false := fun p hp => ih p.1 p.2 (PyDict.get?_of_mem hw hp) hn
    clear h ih hw
    induction d with
    | nil => rfl
    | cons x xs ihx =>
      obtain ⟨k, x⟩ := x
      rw [hasBytesD, ih' (k, x) (List.mem_cons_self ..), Bool.false_or]
      exact ihx (fun y hy => ih' y (List.mem_cons_of_mem _ hy))
  | record => intro h; cases h
  | unionNull => exact fun _ => rfl
  | @union ts t v h1 h2 h3 ih =>
    intro hn
    rw [noBytes] at hn
    simp only [hasBytes, hasBytesD, ih (hL ts t hn h1), Bool.or_false]

/-! ## The instance fits -/

theorem noDollar_find {Γ : SymTab} (h : noDollar Γ = true) (j : Nat) : Γ.find ("$" ++ toString j) = none := by
  induction Γ with
  | nil => rfl
  | cons s up ih =>
    simp only [noDollar, List.all_cons, Bool.and_eq_true] at h
    have h1 : s.symbols.get? ("$" ++ toString j) = none := by
      cases hg : s.symbols.get? ("$" ++ toString j) with
      | none => rfl
      | some t =>
        have := List.all_eq_true.1 h.1 _ (PyDict.mem_of_get? hg)
        simp [String.toList_append] at this
    simp only [SymTab.find, h1]
    exact ih h.2

theorem fit {P : Prog} {pf : List Char → Option Flt} {n : Nat} (hdec : P.decode = dec pf P.env (n + 1)) : Fit P (strictGuard P.env) (Data P.env) where
  null := .null
  int v h := by cases h; exact ⟨_, rfl⟩
  long v h := by cases h; exact ⟨_, rfl⟩
  string v := ⟨fun h => by cases h; exact ⟨_, rfl⟩, fun ⟨s, h⟩ => h ▸ .string s⟩
  enum n syms v h := by cases h with | enum h => exact ⟨_, h, rfl⟩
  array t v := ⟨fun h => by cases h with | array h => exact ⟨_, rfl, h⟩, fun ⟨vs, h, h1⟩ => h ▸ .array h1⟩
  map t v := ⟨fun h => by cases h with | map h1 h2 => exact ⟨_, rfl, h1, h2⟩, fun ⟨d, h, h1, h2⟩ => h ▸ .map h1 h2⟩
  record n fs v hf := by
    constructor
    · intro h
      cases h with
      | record x h1 h2 h3 h4 h5 =>
        rw [hf] at h1
        cases h1
        exact ⟨_, rfl, h2, h3, fun k f hk => ⟨x k, h4 k f hk, h5 k f hk⟩⟩
    · rintro ⟨d, rfl, h2, h3, h4⟩
      refine .record (fun k => (PyDict.get? d k).getD .null) hf h2 h3 (fun k f hk => ?_) (fun k f hk => ?_)
      · obtain ⟨x, h5, -⟩ := h4 k f hk; simp [h5]
      · obtain ⟨x, h5, h6⟩ := h4 k f hk; simpa [h5] using h6
  acc r w v h hv := sub_data h hv
  lit t v h := isData_data _ h
  cast t cases part v h hv := by
    simp only [strictGuard] at h
    split at h
    · next ts =>
      simp only [Bool.and_eq_true, List.all_eq_true, decide_eq_true_eq, Bool.or_eq_true, Bool.not_eq_true'] at h
      obtain ⟨⟨⟨⟨⟨h1, h2⟩, hu⟩, h3⟩, h4⟩, h5⟩ := h
      have hr : reparse (.union ts) = .ok (.union ts) := by
        refine reparse_id _ ?_
        have : mapFreeL ts = true := by
          clear h2 hu h3 h4 h5 hv
          induction ts with
          | nil => rfl
          | cons t ts ih =>
            rw [mapFreeL, leaf_mapFree (h1 t (List.mem_cons_self ..)), Bool.true_and]
            exact ih (fun t ht => h1 t (List.mem_cons_of_mem _ ht))
        simp [mapFree, this, h2, hu]
      refine ⟨_, hr, ?_⟩
      rw [hdec]
      have hl : ∀ c ∈ cases, castLeaf c = true := fun c hc => h1 c (h3 c hc)
      cases hv with
      | unionNull hm =>
        have := pick_null (pf := pf) (env := P.env) (n := n) cases hl
        revert this
        change (match castPick (dec pf P.env (n + 1)) true .null cases with | .ok none => _ | .ok (some (i, y)) => _ | .error e => _) → _
        dsimp only [isUnion]
        rcases castPick (dec pf P.env (n + 1)) true .null cases with e | (_ | ⟨i, y⟩)
        · exact fun h => h
        · intro h
          rcases h5 with h5 | h5
          · exact h5
          · exact absurd (h5 _ hm) h
        · exact fun h => h
      | @union _ m x hm hnn hd =>
        have := pick_tag (pf := pf) (env := P.env) (n := n) hd (h1 m hm) cases hl (fun c hc hf => by
          rcases h4 m hm c (h3 c hc) with h | h
          · rw [hf] at h; cases h
          · exact h)
        revert this
        dsimp only [isUnion]
        rcases castPick (dec pf P.env (n + 1)) true (.dict [(m.name, x)]) cases with e | (_ | ⟨i, y⟩)
        · exact fun h => h
        · intro h
          rcases h5 with h5 | h5
          · exact h5
          · exact absurd (h5 _ hm) h
        · exact fun h => h
    · cases h
  notNull t u v h hw hv hn := by
    unfold withoutNull at hw
    split at hw
    · next ts =>
      simp only [strictGuard, Bool.or_eq_true, decide_eq_true_eq] at h
      split at hw
      · next hnull =>
        cases hv with
        | unionNull => cases hn
        | @union _ m x hm hnn hd =>
          have hmf : m ∈ ts.filter (fun t => !isNull t) := by
            rw [List.mem_filter]
            exact ⟨hm, by cases m <;> first | rfl | exact absurd rfl hnn⟩
          split at hw
          · obtain ⟨rfl, -⟩ := mkUnion_ok hw
            exact .union hmf hnn hd
          · next hlen =>
            split at hw
            · split at hw
              · next t' rest heq =>
                cases hw
                have : rest = [] := by
                  rw [List.any_eq_true] at hnull
                  obtain ⟨z, hz, hz1⟩ := hnull
                  have h1 : (ts.filter (fun t => !isNull t)).length < ts.length := by
                    rw [List.length_filter_lt_length_iff_exists]
                    exact ⟨z, hz, by simp [hz1]⟩
                  rw [heq] at h1
                  simp only [List.length_cons] at h1
                  exact List.length_eq_zero_iff.1 (by omega)
                rw [heq, this, List.mem_singleton] at hmf
                subst hmf
                rcases h with h | h
                · exact absurd h hlen
                · simpa [untag, h] using hd
              · cases hw
            · cases hw
      · cases hw
    · cases hw
  try_ t r h ht := by
    cases t with
    | union ts =>
      unfold tryType at ht
      dsimp only at ht
      split at ht
      · next hn =>
        cases ht
        rw [List.any_eq_true] at hn
        obtain ⟨z, hz, hz1⟩ := hn
        refine ⟨fun v hv => hv, .unionNull ?_⟩
        cases z <;> first | exact hz | cases hz1
      · obtain ⟨rfl, -⟩ := mkUnion_ok ht
        refine ⟨fun v hv => ?_, .unionNull (by simp)⟩
        cases hv with
        | unionNull hm => exact .unionNull (by simp)
        | union hm hn hd => exact .union (List.mem_append_left _ hm) hn hd
    | _ => cases h
  filter := rfl
  upcast t u f v h hf hv := by
    unfold upcastFn at hf
    simp only [strictGuard] at h
    split at hf
    · next ts hu =>
      dsimp only at h
      rw [hu] at h
      simp only [Bool.false_eq_true, if_false] at h
      split at hf
      · next x hx =>
        rw [hx] at h
        simp only [Bool.and_eq_true, Bool.not_eq_true'] at h
        cases hf
        have h1 := sub_data h.1.1 hv
        have hm := List.mem_of_find?_eq_some hx
        have h2 := isNull_false h.1.2
        unfold wrapAsUnion
        dsimp only
        split
        · cases h1 with
          | null => exact absurd rfl h2
          | unionNull hn => cases h.2
        · exact .union hm h2 h1
      · cases hf
    · next hnu =>
      cases hf
      split at h
      · next ts =>
        cases hu : isUnion u with
        | true => rw [hu] at h; exact sub_data h hv
        | false => exact (hnu ts rfl hu).elim
      · exact sub_data h hv
  fill p a h := by
    simp only [strictGuard] at h
    split at h
    · next t u => exact ⟨t, u, rfl, rfl, fun v hv => sub_data h hv⟩
    · cases h
  dollar Γ j h := noDollar_find h j
  libTo := rfl
  sets n h := by simpa [strictGuard] using h
  pack ds vs h hv := by
    have := pack_data (F := P.floats) h hv
    revert this
    rcases Pack.pack P.floats vs with e | out
    · exact fun h => h
    · exact fun h => .bytes h
  unpack fs v _ hv := by cases hv with | bytes h => exact ⟨_, rfl, unpack_data h⟩
  log t v h hv := noBytes_data hv h

end Verif.Lang
