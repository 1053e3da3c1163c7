import Verif.Scripts.Random
/-! # Random data of a type: theorems (C105) -/

namespace Verif.Scripts
open Avro

/-! ## Specification -/

/-- The types that a type is directly made of. -/
inductive Part (env : Env) : AType → AType → Prop
  | array (t : AType) : Part env t (.array t)
  | map (t : AType) : Part env t (.map t)
  | union {t : AType} {ts : List AType} : t ∈ ts → Part env t (.union ts)
  | field {n : Name} {fs : List Field} {f : Field} : env.fields? n = some fs → f ∈ fs → Part env f.type (.record n)

/-- The types that a type is made of, itself included. -/
inductive Reaches (env : Env) (t : AType) : AType → Prop
  | self : Reaches env t t
  | part {u v : AType} : Reaches env t u → Part env v u → Reaches env t v

/-- Members of unions that have a tag, and that are known by their short names. -/
def Tagged : AType → Prop
  | .fixed n _ => n.ns = ""
  | .enum n _ => n.ns = ""
  | .record n => n.ns = ""
  | .array _ => False
  | .map _ => False
  | .union _ => False
  | _ => True

/-- All members of unions are so. -/
def AllTagged (env : Env) (t : AType) : Prop := ∀ ts u, Reaches env t (.union ts) → u ∈ ts → Tagged u

/-- There is something to choose from, and records are known. -/
structure Complete (env : Env) (t : AType) : Prop where
  enum : ∀ n syms, Reaches env t (.enum n syms) → syms ≠ []
  union : ∀ ts, Reaches env t (.union ts) → ts ≠ []
  record : ∀ n, Reaches env t (.record n) → (env.fields? n).isSome

theorem Reaches.trans {env : Env} {t u v : AType} (h : Reaches env t u) (h' : Reaches env u v) : Reaches env t v := by
  induction h' with
  | self => exact h
  | part _ hp ih => exact .part ih hp

theorem Reaches.of_part {env : Env} {t u v : AType} (h : Part env u t) (h' : Reaches env u v) : Reaches env t v :=
  Reaches.trans (.part .self h) h'

theorem AllTagged.part {env : Env} {t u : AType} (h : AllTagged env t) (hp : Part env u t) : AllTagged env u :=
  fun ts w hr hw => h ts w (.of_part hp hr) hw

theorem Complete.part {env : Env} {t u : AType} (h : Complete env t) (hp : Part env u t) : Complete env u :=
  ⟨fun n s hr => h.enum n s (.of_part hp hr), fun ts hr => h.union ts (.of_part hp hr), fun n hr => h.record n (.of_part hp hr)⟩

/-! ## Draws -/

theorem choice_mem {α : Type} {g : Rng} {xs : List α} {n n' : Nat} {x : α} (h : choice g xs n = .ok (x, n')) : x ∈ xs := by
  unfold choice at h
  split at h
  · next y hy => cases h; exact List.mem_of_getElem? hy
  · cases h

theorem choice_ok {α : Type} (g : Rng) {xs : List α} (n : Nat) (hx : xs ≠ []) : ∃ x, choice g xs n = .ok (x, n + 1) := by
  have h0 : 0 < xs.length := List.length_pos_iff.2 hx
  have h : g.draw n % xs.length < xs.length := Nat.mod_lt _ h0
  exact ⟨xs[g.draw n % xs.length], by simp only [choice, List.getElem?_eq_getElem h]⟩

theorem randint_mem (g : Rng) (lo hi : Int) (n : Nat) (h : lo ≤ hi) : lo ≤ (randint g lo hi n).1 ∧ (randint g lo hi n).1 ≤ hi := by
  have h0 : 0 < (hi - lo + 1).toNat := by omega
  have := Nat.mod_lt (g.draw n) h0
  simp only [randint]
  omega

theorem byteChars_spec (g : Rng) (k n : Nat) : (byteChars g k n).1.length = k ∧ ∀ c ∈ (byteChars g k n).1, c.toNat < 256 := by
  induction k generalizing n with
  | zero => simp [byteChars]
  | succ k ih =>
    have hr := randint_mem g 0 255 n (by decide)
    obtain ⟨h1, h2⟩ := ih (randint g 0 255 n).2
    refine ⟨by simp [byteChars, h1], fun c hc => ?_⟩
    simp only [byteChars, List.mem_cons] at hc
    rcases hc with rfl | hc
    · have : (randint g 0 255 n).1.toNat < 256 := by omega
      generalize (randint g 0 255 n).1.toNat = m at this
      have hv : m.isValidChar := Or.inl (by omega)
      simp only [Char.ofNat, hv, ↓reduceDIte]
      show (Char.ofNatAux m hv).toNat < 256
      simpa [Char.ofNatAux, Char.toNat] using this
    · exact h2 c hc

/-- The characters of random text: printable, without quotation marks and apostrophes. -/
def InRange (c : Char) : Prop := ∃ r ∈ unicodeRanges, r.1 ≤ c.toNat ∧ c.toNat ≤ r.2

theorem ranges_valid : ∀ r ∈ unicodeRanges, r.2 < 0xd800 := by decide

theorem alphabet_iff (c : Char) : c ∈ unicodeAlphabet ↔ InRange c := by
  unfold unicodeAlphabet InRange
  rw [List.mem_flatMap]
  refine exists_congr fun r => and_congr_right fun hr => ?_
  have hv := ranges_valid r hr
  rw [List.mem_map]
  have hnat : ∀ m, m < 0xd800 → (Char.ofNat m).toNat = m := fun m hm => by
    have hv : m.isValidChar := Or.inl (by omega)
    simp only [Char.ofNat, hv, ↓reduceDIte]
    simp [Char.ofNatAux, Char.toNat]
  constructor
  · rintro ⟨i, hi, rfl⟩
    rw [List.mem_range] at hi
    rw [hnat _ (by omega)]
    omega
  · rintro ⟨h1, h2⟩
    refine ⟨c.toNat - r.1, List.mem_range.2 (by omega), ?_⟩
    rw [show r.1 + (c.toNat - r.1) = c.toNat by omega]
    exact Char.ofNat_toNat c

theorem textChars_spec (g : Rng) (k n : Nat) : ∃ cs n', textChars g k n = .ok (cs, n') ∧ cs.length = k ∧ ∀ c ∈ cs, InRange c := by
  induction k generalizing n with
  | zero => exact ⟨[], n, rfl, rfl, by simp⟩
  | succ k ih =>
    have hne : unicodeAlphabet ≠ [] := List.ne_nil_of_mem ((alphabet_iff '!').2 ⟨(0x0021, 0x0021), by decide, by decide, by decide⟩)
    obtain ⟨c, hc⟩ := choice_ok g n hne
    obtain ⟨cs, n', h, hl, hm⟩ := ih (n + 1)
    refine ⟨c :: cs, n', by simp only [textChars, hc, h], by simp [hl], fun x hx => ?_⟩
    rcases List.mem_cons.1 hx with rfl | hx
    · exact (alphabet_iff _).1 (choice_mem hc)
    · exact hm x hx

/-! ## Loops -/

theorem several_spec {α : Type} {f : Nat → Res (α × Nat)} {k n n' : Nat} {xs : List α} (h : several f k n = .ok (xs, n')) :
    xs.length = k ∧ ∀ x ∈ xs, ∃ a b, f a = .ok (x, b) := by
  induction k generalizing n xs with
  | zero => cases h; exact ⟨rfl, by simp⟩
  | succ k ih =>
    simp only [several] at h
    split at h
    · cases h
    · next x a hx =>
      split at h
      · cases h
      · next ys b hy =>
        cases h
        obtain ⟨h1, h2⟩ := ih hy
        refine ⟨by simp [h1], fun y hy => ?_⟩
        rcases List.mem_cons.1 hy with rfl | hy
        · exact ⟨_, _, hx⟩
        · exact h2 y hy

theorem several_ok {α : Type} {f : Nat → Res (α × Nat)} (hf : ∀ n, ∃ r, f n = .ok r) (k n : Nat) : ∃ r, several f k n = .ok r := by
  induction k generalizing n with
  | zero => exact ⟨_, rfl⟩
  | succ k ih =>
    obtain ⟨⟨x, a⟩, hx⟩ := hf n
    obtain ⟨⟨xs, b⟩, hxs⟩ := ih a
    exact ⟨(x :: xs, b), by simp only [several, hx, hxs]⟩

theorem several_error {α : Type} {f : Nat → Res (α × Nat)} {k n : Nat} {e : Err} (h : several f k n = .error e) : ∃ a, f a = .error e := by
  induction k generalizing n with
  | zero => cases h
  | succ k ih =>
    simp only [several] at h
    split at h
    · next e' he => cases h; exact ⟨_, he⟩
    · split at h
      · next e' he => cases h; exact ih he
      · cases h

theorem eachField_spec {f : AType → Nat → Res (Val × Nat)} {fs : List Field} {n n' : Nat} {d : List (String × Val)}
    (h : eachField f fs n = .ok (d, n')) :
    d.map Prod.fst = fs.map Field.name ∧ List.Forall₂ (fun fd kv => kv.1 = fd.name ∧ ∃ a b, f fd.type a = .ok (kv.2, b)) fs d := by
  induction fs generalizing n d with
  | nil => cases h; exact ⟨rfl, .nil⟩
  | cons fd fs ih =>
    simp only [eachField] at h
    split at h
    · cases h
    · next x a hx =>
      split at h
      · cases h
      · next ys b hy =>
        cases h
        obtain ⟨h1, h2⟩ := ih hy
        exact ⟨by simp [h1], .cons ⟨rfl, _, _, hx⟩ h2⟩

theorem eachField_ok {f : AType → Nat → Res (Val × Nat)} {fs : List Field} (hf : ∀ fd ∈ fs, ∀ n, ∃ r, f fd.type n = .ok r) (n : Nat) :
    ∃ r, eachField f fs n = .ok r := by
  induction fs generalizing n with
  | nil => exact ⟨_, rfl⟩
  | cons fd fs ih =>
    obtain ⟨⟨x, a⟩, hx⟩ := hf fd (by simp) n
    obtain ⟨⟨xs, b⟩, hxs⟩ := ih (fun g hg => hf g (by simp [hg])) a
    exact ⟨((fd.name, x) :: xs, b), by simp only [eachField, hx, hxs]⟩

theorem eachField_error {f : AType → Nat → Res (Val × Nat)} {fs : List Field} {n : Nat} {e : Err} (h : eachField f fs n = .error e) :
    ∃ fd ∈ fs, ∃ a, f fd.type a = .error e := by
  induction fs generalizing n with
  | nil => cases h
  | cons fd fs ih =>
    simp only [eachField] at h
    split at h
    · next e' he => cases h; exact ⟨fd, by simp, _, he⟩
    · split at h
      · next e' he => cases h; obtain ⟨g, hg, ha⟩ := ih he; exact ⟨g, by simp [hg], ha⟩
      · cases h

/-! ## Dictionaries -/

theorem set_new {d : List (String × Val)} {k : String} {v : Val} (h : k ∉ d.map Prod.fst) : PyDict.set d k v = d ++ [(k, v)] := by
  induction d with
  | nil => rfl
  | cons kv d ih =>
    obtain ⟨k0, v0⟩ := kv
    simp only [List.map_cons, List.mem_cons, not_or] at h
    simp only [PyDict.set, if_neg (Ne.symm h.1), ih h.2, List.cons_append]

theorem mem_set {d : List (String × Val)} {k : String} {v : Val} {kv : String × Val} (h : kv ∈ PyDict.set d k v) : kv = (k, v) ∨ kv ∈ d := by
  induction d with
  | nil => simp only [PyDict.set, List.mem_singleton] at h; exact .inl h
  | cons kv0 d ih =>
    obtain ⟨k0, v0⟩ := kv0
    simp only [PyDict.set] at h
    split at h
    · next hk =>
      rcases List.mem_cons.1 h with h | h
      · exact .inl (by rw [h, hk])
      · exact .inr (by simp [h])
    · rcases List.mem_cons.1 h with h | h
      · exact .inr (by simp [h])
      · rcases ih h with h | h
        · exact .inl h
        · exact .inr (by simp [h])

theorem dictOf_aux (d a : List (String × Val)) (ha : PyDict.WF a) :
    PyDict.WF (d.foldl (fun a kv => PyDict.set a kv.1 kv.2) a) ∧
    ∀ kv ∈ d.foldl (fun a kv => PyDict.set a kv.1 kv.2) a, kv ∈ a ∨ kv ∈ d := by
  induction d generalizing a with
  | nil => exact ⟨ha, fun kv h => .inl h⟩
  | cons kv0 d ih =>
    obtain ⟨h1, h2⟩ := ih (PyDict.set a kv0.1 kv0.2) (PyDict.set_nodup ha _ _)
    refine ⟨h1, fun kv h => ?_⟩
    rcases h2 kv h with h | h
    · rcases mem_set h with h | h
      · exact .inr (by simp [h])
      · exact .inl h
    · exact .inr (by simp [h])

theorem dictOf_id_aux (d a : List (String × Val)) (h : ((a ++ d).map Prod.fst).Nodup) :
    d.foldl (fun a kv => PyDict.set a kv.1 kv.2) a = a ++ d := by
  induction d generalizing a with
  | nil => simp
  | cons kv d ih =>
    have hk : kv.1 ∉ a.map Prod.fst := by
      intro hm
      rw [List.map_append, List.nodup_append] at h
      exact h.2.2 _ hm kv.1 (by simp) rfl
    simp only [List.foldl_cons]
    rw [set_new hk, ih]
    · simp
    · simpa using h

theorem dictOf_id {d : List (String × Val)} (h : (d.map Prod.fst).Nodup) : dictOf d = d := dictOf_id_aux d [] h

theorem get?_of_mem {d : List (String × Val)} (hd : (d.map Prod.fst).Nodup) {k : String} {v : Val} (h : (k, v) ∈ d) :
    PyDict.get? d k = some v := by
  induction d with
  | nil => cases h
  | cons kv d ih =>
    obtain ⟨k0, v0⟩ := kv
    simp only [List.map_cons, List.nodup_cons] at hd
    simp only [PyDict.get?]
    rcases List.mem_cons.1 h with h | h
    · cases h; rw [if_pos rfl]
    · rw [if_neg, ih hd.2 h]
      rintro rfl
      exact hd.1 (List.mem_map.2 ⟨_, h, rfl⟩)

theorem typeKey_tagged {t : AType} (h : Tagged t) : typeKey t = .ok t.name := by
  cases t <;> first | rfl | exact h.elim | (simp only [Tagged] at h; simp [typeKey, fullName, h, AType.name])

/-! ## The data -/

theorem forall2_left {α β : Type} {R : α → β → Prop} {xs : List α} {ys : List β} (h : List.Forall₂ R xs ys) : ∀ x ∈ xs, ∃ y ∈ ys, R x y := by
  induction h with
  | nil => simp
  | cons h _ ih =>
    intro x hx
    rcases List.mem_cons.1 hx with rfl | hx
    · exact ⟨_, by simp, h⟩
    · obtain ⟨y, hy, hr⟩ := ih x hx
      exact ⟨y, by simp [hy], hr⟩

/-- C105: what `makeData` gives for a type conforms to the type, if the members of unions are not arrays, maps or types with a namespace.
Without this condition see `array_violation` and `namespace_violation`. -/
theorem makeData_conf_partial {g : Rng} {env : Env} (hn : ∀ n fs, env.fields? n = some fs → (fs.map Field.name).Nodup)
    {m : Nat} {t : AType} {n n' : Nat} {v : Val} (ht : AllTagged env t) (h : makeData g env m t n = .ok (v, n')) : Conf strict env t v := by
  induction m generalizing t n n' v with
  | zero => cases h
  | succ m ih =>
    cases t with
    | null => cases h; exact .null
    | boolean =>
      simp only [makeData] at h
      split at h
      · cases h
      · cases h; exact .boolean _
    | int =>
      simp only [makeData] at h
      cases h
      have := randint_mem g (-2147483648) 2147483647 n (by decide)
      exact .int ⟨by simpa using this.1, by have := this.2; show _ < (2 : Int) ^ 31; omega⟩
    | long =>
      simp only [makeData] at h
      cases h
      have := randint_mem g (-9223372036854775808) 9223372036854775807 n (by decide)
      exact .long ⟨by simpa using this.1, by have := this.2; show _ < (2 : Int) ^ 63; omega⟩
    | float => cases h; exact .float _
    | double => cases h; exact .double _
    | bytes =>
      simp only [makeData] at h
      cases h
      exact .bytes ⟨_, rfl, fun c hc => (byteChars_spec g 10 n).2 c (by simpa using hc)⟩
    | fixed nm k =>
      simp only [makeData] at h
      cases h
      exact .fixed ⟨_, rfl, fun c hc => (byteChars_spec g k n).2 c (by simpa using hc), by simp [(byteChars_spec g k n).1]⟩
    | string =>
      simp only [makeData] at h
      split at h
      · cases h
      · cases h; exact .string _
    | enum nm syms =>
      simp only [makeData] at h
      split at h
      · cases h
      · next s a hs => cases h; exact .enum (choice_mem hs)
    | array t =>
      simp only [makeData] at h
      split at h
      · cases h
      · next xs a hs =>
        cases h
        refine .array fun x hx => ?_
        obtain ⟨a, b, hab⟩ := (several_spec hs).2 x hx
        exact ih (ht.part (.array t)) hab
    | map t =>
      simp only [makeData] at h
      split at h
      · cases h
      · next d a hs =>
        cases h
        obtain ⟨h1, h2⟩ := dictOf_aux d [] (by simp [PyDict.WF, PyDict.keys])
        refine .map h1 fun k x hx => ?_
        rcases h2 _ hx with hx | hx
        · cases hx
        obtain ⟨a, b, hab⟩ := (several_spec hs).2 _ hx
        simp only [mapItem] at hab
        split at hab
        · cases hab
        · split at hab
          · cases hab
          · next hf => cases hab; exact ih (ht.part (.map t)) hf
    | record nm =>
      simp only [makeData] at h
      split at h
      · cases h
      · next fs hfs =>
        split at h
        · cases h
        · next d a hs =>
          cases h
          obtain ⟨h1, h2⟩ := eachField_spec hs
          have hnd : (d.map Prod.fst).Nodup := by rw [h1]; exact hn nm fs hfs
          rw [dictOf_id hnd]
          have hx : ∀ f ∈ fs, ∃ x, PyDict.get? d f.name = some x ∧ Conf strict env f.type x := fun f hf => by
            obtain ⟨kv, hkv, hk, a, b, hab⟩ := forall2_left h2 f hf
            exact ⟨kv.2, get?_of_mem hnd (by rw [← hk]; exact hkv), ih (ht.part (.field hfs hf)) hab⟩
          obtain ⟨x, hx⟩ := choose_fields (hn nm fs hfs) hx
          refine .record x hfs hnd (fun k hk => ?_) (fun f hf => (hx f hf).1) (fun f hf => (hx f hf).2)
          have : k ∈ fs.map Field.name := h1 ▸ hk
          obtain ⟨f, hf, rfl⟩ := List.mem_map.1 this
          exact ⟨f, hf, rfl⟩
    | union ts =>
      simp only [makeData] at h
      split at h
      · cases h
      · next t a hc =>
        have hm := choice_mem hc
        split at h
        · cases h; exact .unionNull hm
        · next hne =>
          split at h
          · cases h
          · next x b hx =>
            rw [typeKey_tagged (ht ts t .self hm)] at h
            cases h
            exact .union hm hne (ih (ht.part (.union hm)) hx)

/-- What is made ends in a value, if the type is not made of itself, and no sooner than the recursion is as deep as the type. -/
theorem makeData_ok_partial (g : Rng) {env : Env} {t : AType} (n : Nat) (ht : AllTagged env t) (hc : Complete env t) (rank : AType → Nat)
    (hr : ∀ u v, Reaches env t u → Part env v u → rank v < rank u) {m : Nat} (hm : rank t < m) : ∃ r, makeData g env m t n = .ok r := by
  induction m generalizing t n with
  | zero => omega
  | succ m ih =>
    have step : ∀ u, Part env u t → ∀ n, ∃ r, makeData g env m u n = .ok r := fun u hu n => by
      have := hr t u .self hu
      exact ih n (ht.part hu) (hc.part hu) (fun a b ha hb => hr a b (.of_part hu ha) hb) (by omega)
    cases t with
    | null => exact ⟨_, rfl⟩
    | boolean => obtain ⟨x, hx⟩ := choice_ok g (xs := [true, false]) n (by simp); simp only [makeData, hx]; exact ⟨_, rfl⟩
    | int => exact ⟨_, rfl⟩
    | long => exact ⟨_, rfl⟩
    | float => exact ⟨_, rfl⟩
    | double => exact ⟨_, rfl⟩
    | bytes => exact ⟨_, rfl⟩
    | fixed nm k => exact ⟨_, rfl⟩
    | string => obtain ⟨x, a, hx, _⟩ := textChars_spec g 10 n; simp only [makeData, hx]; exact ⟨_, rfl⟩
    | enum nm syms => obtain ⟨x, hx⟩ := choice_ok g n (hc.enum nm syms .self); simp only [makeData, hx]; exact ⟨_, rfl⟩
    | array t =>
      obtain ⟨r, hx⟩ := several_ok (step t (.array t)) (randint g 0 10 n).1.toNat (randint g 0 10 n).2
      simp only [makeData, hx]; exact ⟨_, rfl⟩
    | map t =>
      have hf : ∀ n, ∃ r, mapItem g (makeData g env m t) n = .ok r := fun n => by
        obtain ⟨k, a, hk, _⟩ := textChars_spec g 10 n
        obtain ⟨r, hr⟩ := step t (.map t) a
        simp only [mapItem, hk, hr]; exact ⟨_, rfl⟩
      obtain ⟨r, hx⟩ := several_ok hf (randint g 0 10 n).1.toNat (randint g 0 10 n).2
      simp only [makeData, hx]; exact ⟨_, rfl⟩
    | record nm =>
      obtain ⟨fs, hfs⟩ := Option.isSome_iff_exists.1 (hc.record nm .self)
      obtain ⟨r, hx⟩ := eachField_ok (f := makeData g env m) (fun f hf => step f.type (.field hfs hf)) n
      simp only [makeData, hfs, hx]; exact ⟨_, rfl⟩
    | union ts =>
      obtain ⟨u, hu⟩ := choice_ok g n (hc.union ts .self)
      have hm' := choice_mem hu
      obtain ⟨r, hx⟩ := step u (.union hm') (n + 1)
      have hk := typeKey_tagged (ht ts u .self hm')
      simp only [makeData, hu]
      split
      · exact ⟨_, rfl⟩
      · simp only [hx, hk]; exact ⟨_, rfl⟩

/-- The only other outcome for such types is that the recursion is too deep. -/
theorem makeData_error_partial {g : Rng} {env : Env} {m : Nat} {t : AType} {n : Nat} {e : Err} (ht : AllTagged env t) (hc : Complete env t)
    (h : makeData g env m t n = .error e) : e = .py "RecursionError" := by
  induction m generalizing t n with
  | zero => cases h; rfl
  | succ m ih =>
    have step : ∀ u, Part env u t → ∀ n, makeData g env m u n = .error e → e = .py "RecursionError" := fun u hu n h =>
      ih (ht.part hu) (hc.part hu) h
    cases t with
    | null => cases h
    | boolean => obtain ⟨x, hx⟩ := choice_ok g (xs := [true, false]) n (by simp); simp only [makeData, hx] at h; cases h
    | int => cases h
    | long => cases h
    | float => cases h
    | double => cases h
    | bytes => cases h
    | fixed nm k => cases h
    | string => obtain ⟨x, a, hx, _⟩ := textChars_spec g 10 n; simp only [makeData, hx] at h; cases h
    | enum nm syms => obtain ⟨x, hx⟩ := choice_ok g n (hc.enum nm syms .self); simp only [makeData, hx] at h; cases h
    | array t =>
      simp only [makeData] at h
      split at h
      · next e' he => cases h; obtain ⟨a, ha⟩ := several_error he; exact step t (.array t) a ha
      · cases h
    | map t =>
      simp only [makeData] at h
      split at h
      · next e' he =>
        cases h
        obtain ⟨a, ha⟩ := several_error he
        obtain ⟨k, b, hk, _⟩ := textChars_spec g 10 a
        simp only [mapItem, hk] at ha
        split at ha
        · next hb => cases ha; exact step t (.map t) b hb
        · cases ha
      · cases h
    | record nm =>
      obtain ⟨fs, hfs⟩ := Option.isSome_iff_exists.1 (hc.record nm .self)
      simp only [makeData, hfs] at h
      split at h
      · next e' he => cases h; obtain ⟨f, hf, a, ha⟩ := eachField_error he; exact step f.type (.field hfs hf) a ha
      · cases h
    | union ts =>
      obtain ⟨u, hu⟩ := choice_ok g n (hc.union ts .self)
      have hm' := choice_mem hu
      have hk := typeKey_tagged (ht ts u .self hm')
      simp only [makeData, hu] at h
      split at h
      · cases h
      · split at h
        · next e' he => cases h; exact step _ (.union hm') (n + 1) he
        · simp only [hk] at h; cases h

/-- Text has ten characters of the ranges of the script. -/
theorem string_spec {g : Rng} {env : Env} {m n n' : Nat} {v : Val} (h : makeData g env m .string n = .ok (v, n')) :
    ∃ s, v = .str s ∧ s.length = 10 ∧ ∀ c ∈ s.toList, InRange c := by
  cases m with
  | zero => cases h
  | succ m =>
    obtain ⟨cs, a, hc, hl, hm⟩ := textChars_spec g 10 n
    simp only [makeData, hc] at h
    cases h
    exact ⟨_, rfl, by simp [hl], by simpa using hm⟩

/-- Bytes are ten. -/
theorem bytes_spec {g : Rng} {env : Env} {m n n' : Nat} {v : Val} (h : makeData g env m .bytes n = .ok (v, n')) :
    ∃ s, v = .str s ∧ s.length = 10 := by
  cases m with
  | zero => cases h
  | succ m =>
    simp only [makeData] at h
    cases h
    exact ⟨_, rfl, by simp [(byteChars_spec g 10 n).1]⟩

/-- Arrays have ten items at most. -/
theorem array_spec {g : Rng} {env : Env} {m n n' : Nat} {t : AType} {v : Val} (h : makeData g env m (.array t) n = .ok (v, n')) :
    ∃ xs, v = .arr xs ∧ xs.length = g.draw n % 11 := by
  cases m with
  | zero => cases h
  | succ m =>
    simp only [makeData] at h
    split at h
    · cases h
    · next xs a hs =>
      cases h
      refine ⟨xs, rfl, ?_⟩
      rw [(several_spec hs).1]
      simp only [randint, Int.zero_add, Int.toNat_natCast]
      rfl

/-- Every integer can be drawn. -/
theorem int_drawn (g : Rng) (env : Env) (m n : Nat) {i : Int} (h : strict.int i) :
    makeData { g with draw := fun _ => (i + 2 ^ 31).toNat } env (m + 1) .int n = .ok (.int i, n + 1) := by
  obtain ⟨h1, h2⟩ := h
  have h1' : -2147483648 ≤ i := by simpa using h1
  have h2' : i < 2147483648 := by simpa using h2
  simp only [makeData, randint]
  rw [show ((2147483647 : Int) - -2147483648 + 1).toNat = 4294967296 by decide, Nat.mod_eq_of_lt (by omega)]
  refine congrArg (fun j => Except.ok (Val.int j, n + 1)) ?_
  omega

@[inherit_doc int_drawn]
theorem long_drawn (g : Rng) (env : Env) (m n : Nat) {i : Int} (h : strict.long i) :
    makeData { g with draw := fun _ => (i + 2 ^ 63).toNat } env (m + 1) .long n = .ok (.int i, n + 1) := by
  obtain ⟨h1, h2⟩ := h
  have h1' : -9223372036854775808 ≤ i := by simpa using h1
  have h2' : i < 9223372036854775808 := by simpa using h2
  simp only [makeData, randint]
  rw [show ((9223372036854775807 : Int) - -9223372036854775808 + 1).toNat = 18446744073709551616 by decide, Nat.mod_eq_of_lt (by omega)]
  refine congrArg (fun j => Except.ok (Val.int j, n + 1)) ?_
  omega

/-- Every symbol of an enumeration can be drawn. -/
theorem enum_drawn (g : Rng) (env : Env) (m n : Nat) (nm : Name) {syms : List String} {s : String} (h : s ∈ syms) :
    ∃ k, makeData { g with draw := fun _ => k } env (m + 1) (.enum nm syms) n = .ok (.str s, n + 1) := by
  obtain ⟨k, hk, rfl⟩ := List.getElem_of_mem h
  exact ⟨k, by simp only [makeData, choice, Nat.mod_eq_of_lt hk, List.getElem?_eq_getElem hk]⟩

/-- Both truth values can be drawn. -/
theorem boolean_drawn (g : Rng) (env : Env) (m n : Nat) (b : Bool) :
    ∃ k, makeData { g with draw := fun _ => k } env (m + 1) .boolean n = .ok (.bool b, n + 1) := by
  cases b
  · exact ⟨1, rfl⟩
  · exact ⟨0, rfl⟩

/-! ## Violations -/

/-- A union of which the member is an array or a map: no data, whatever is drawn. -/
theorem array_violation (g : Rng) (env : Env) (m n : Nat) (t : AType) :
    (∃ e, makeData g env m (.union [.array t]) n = .error e) ∧ ∃ e, makeData g env m (.union [.map t]) n = .error e := by
  cases m with
  | zero => exact ⟨⟨_, rfl⟩, _, rfl⟩
  | succ m =>
    constructor
    all_goals
      simp only [makeData, choice, List.length_singleton, Nat.mod_one, List.getElem?_cons_zero]
      split
      · exact ⟨_, rfl⟩
      · exact ⟨_, rfl⟩

/-- Data of types with a namespace are tagged by a name that is not the name of the type. -/
theorem namespace_violation (g : Rng) (n : Nat) :
    (∃ x n', makeData g [] 2 (.union [.fixed ⟨"a", "F"⟩ 0]) n = .ok (x, n')) ∧
    ∀ x n', makeData g [] 2 (.union [.fixed ⟨"a", "F"⟩ 0]) n = .ok (x, n') → ¬ Conf strict [] (.union [.fixed ⟨"a", "F"⟩ 0]) x := by
  have h : makeData g [] 2 (.union [.fixed ⟨"a", "F"⟩ 0]) n = .ok (.dict [("a.F", .str "")], n + 1) := by
    simp only [makeData, choice, List.length_singleton, Nat.mod_one, List.getElem?_cons_zero, byteChars, typeKey]
    rfl
  refine ⟨⟨_, _, h⟩, fun x n' hx => ?_⟩
  rw [h] at hx
  cases hx
  intro hc
  generalize hd : Val.dict [("a.F", Val.str "")] = d at hc
  cases hc with
  | unionNull h => cases hd
  | unionNullTag h => exact h
  | union hm _ _ =>
    simp only [List.mem_singleton] at hm
    subst hm
    simp only [AType.name, Val.dict.injEq, List.cons.injEq, Prod.mk.injEq] at hd
    exact absurd hd.1.1 (by decide)

/-- A record with an optional part of its own type. -/
def chainEnv : Env := [(⟨"", "R"⟩, [{ name := "next", type := .union [.null, .record ⟨"", "R"⟩], default := none }])]

/-- Data of such a type need not end. -/
theorem endless_violation (g : Rng) (m n : Nat) (hg : ∀ n, g.draw n = 1) :
    makeData g chainEnv m (.record ⟨"", "R"⟩) n = .error (.py "RecursionError") := by
  have key : ∀ m n, makeData g chainEnv m (.record ⟨"", "R"⟩) n = .error (.py "RecursionError") ∧
      makeData g chainEnv m (.union [.null, .record ⟨"", "R"⟩]) n = .error (.py "RecursionError") := by
    intro m
    induction m with
    | zero => exact fun n => ⟨rfl, rfl⟩
    | succ m ih =>
      intro n
      constructor
      · have : chainEnv.fields? ⟨"", "R"⟩ = some [{ name := "next", type := .union [.null, .record ⟨"", "R"⟩], default := none }] := rfl
        simp only [makeData, this, eachField, (ih n).2]
      · simp only [makeData, choice, hg, List.length_cons, List.length_nil]
        simp only [show 1 % (0 + 1 + 1) = 1 from rfl, List.getElem?_cons_succ, List.getElem?_cons_zero, (ih (n + 1)).1]
  exact (key m n).1

/-! ## Non-vacuity -/

theorem chain_tagged : AllTagged chainEnv (.record ⟨"", "R"⟩) := by
  have key : ∀ t, Reaches chainEnv (.record ⟨"", "R"⟩) t → t = .record ⟨"", "R"⟩ ∨ t = .union [.null, .record ⟨"", "R"⟩] ∨ t = .null := by
    intro t h
    induction h with
    | self => exact .inl rfl
    | part _ hp ih =>
      rcases ih with rfl | rfl | rfl
      · cases hp with
        | field hf hm => cases hf; simp only [List.mem_singleton] at hm; subst hm; exact .inr (.inl rfl)
      · cases hp with
        | union hm => simp only [List.mem_cons, List.not_mem_nil, or_false] at hm; rcases hm with rfl | rfl <;> simp
      · cases hp
  intro ts u h hu
  rcases key _ h with h | h | h
  · cases h
  · cases h
    simp only [List.mem_cons, List.not_mem_nil, or_false] at hu
    rcases hu with rfl | rfl
    · trivial
    · rfl
  · cases h

/-- Draws that alternate, as an example. -/
def someRng : Rng := ⟨fun n => n + 1, fun _ => .fin 0⟩

example : makeData someRng chainEnv 4 (.record ⟨"", "R"⟩) 0 =
    .ok (.dict [("next", .dict [("R", .dict [("next", .null)])])], 2) := by decide +kernel

example : Conf strict chainEnv (.record ⟨"", "R"⟩) (.dict [("next", .dict [("R", .dict [("next", .null)])])]) :=
  makeData_conf_partial (g := someRng) (m := 4) (n := 0) (n' := 2) (fun n fs h => by
    simp only [chainEnv, Env.fields?, PyDict.get?] at h
    split at h
    · cases h; decide
    · cases h) chain_tagged (by decide +kernel)

end Verif.Scripts
