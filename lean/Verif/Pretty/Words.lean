import Verif.Pretty.Order
import Verif.Pretty.DocLimits

/-!
# Which words can be written

`Words E e` says, node by node, what the words of a PFA expression must look like to be written in PrettyPFA: names are names of the
language, strings have no character 0, numbers are read as they are printed.  With the conditions of `Say` this is enough
(`can_mini`): so the text of the expression exists and is read as the expression.
-/

namespace Verif.Pretty
open Avro Ast Reader Lr Pretty.Lex

variable {E : Lex.Env} {st : St}

/-- A string that can be written. -/
def StrOk (s : String) : Prop := Char.ofNat 0 ∉ s.toList

/-- A word that can stand before a colon: any string that can be written. -/
def KeyOk (s : String) : Prop := isName s = true ∨ StrOk s

/-- The unary operators. -/
def unaries : List String := ["u-", "~", "!"]
/-- The binary operators. -/
def binaries : List String := ["||", "^^", "&&", "==", "!=", "<", "<=", ">", ">=", "|", "^", "&", "+", "-", "*", "/", "//", "%", "%%", "**"]

/-- The names of a type can be written. -/
inductive WordT : Val → Prop where
  | name {s} (h : isName s = true) : WordT (.str s)
  | array {t} (h : WordT t) : WordT (.dict [("type", .str "array"), ("items", t)])
  | map {t} (h : WordT t) : WordT (.dict [("type", .str "map"), ("values", t)])
  | union {ts} (h : ∀ t ∈ ts, WordT t) : WordT (.arr ts)
  | fixed {n : Int} {name} (hn : isName name = true) : WordT (.dict [("type", .str "fixed"), ("size", .int n), ("name", .str name)])
  | fixedNs {n : Int} {name ns} (hn : isName (ns ++ "." ++ name) = true) :
      WordT (.dict [("type", .str "fixed"), ("size", .int n), ("name", .str name), ("namespace", .str ns)])
  | enum {syms : List String} {name} (hs : ∀ s ∈ syms, isName s = true) (hn : isName name = true) :
      WordT (.dict [("type", .str "enum"), ("symbols", .arr (syms.map .str)), ("name", .str name)])
  | enumNs {syms : List String} {name ns} (hs : ∀ s ∈ syms, isName s = true) (hn : isName (ns ++ "." ++ name) = true) :
      WordT (.dict [("type", .str "enum"), ("symbols", .arr (syms.map .str)), ("name", .str name), ("namespace", .str ns)])
  | record {fs : List (String × Val)} {name} (hn : isName name = true) (hk : ∀ f ∈ fs, KeyOk f.1) (h : ∀ f ∈ fs, WordT f.2) :
      WordT (.dict [("type", .str "record"), ("name", .str name), ("fields", .arr (fs.map fun f => .dict [("name", .str f.1), ("type", f.2)]))])
  | recordNs {fs : List (String × Val)} {name ns} (hn : isName (ns ++ "." ++ name) = true) (hk : ∀ f ∈ fs, KeyOk f.1) (h : ∀ f ∈ fs, WordT f.2) :
      WordT (.dict [("type", .str "record"), ("name", .str name), ("fields", .arr (fs.map fun f => .dict [("name", .str f.1), ("type", f.2)])),
        ("namespace", .str ns)])

/-- The words and numbers of JSON can be written. -/
inductive WordJ (E : Lex.Env) : Val → Prop where
  | null : WordJ E .null
  | bool (b) : WordJ E (.bool b)
  | int (i) : WordJ E (.int i)
  | flt {f} (h : floatOk E f) : WordJ E (.flt f)
  | str {s} (h : StrOk s) : WordJ E (.str s)
  | arr {xs} (h : ∀ x ∈ xs, WordJ E x) : WordJ E (.arr xs)
  | dict {d : List (String × Val)} (hk : ∀ kv ∈ d, KeyOk kv.1) (h : ∀ kv ∈ d, WordJ E kv.2) : WordJ E (.dict d)

/-- The names of variables: names of the language, each once. -/
def Vars (vs : List (String × X)) : Prop := (∀ kv ∈ vs, isName kv.1 = true) ∧ PyDict.WF vs

/-- The words of a node, apart from its parts. -/
def word (E : Lex.Env) : X → Prop
  | .fcnDef ps r _ => (∀ p ∈ ps, KeyOk p.1 ∧ WordT p.2) ∧ WordT r
  | .fcnRef n => isName n = true
  | .fcnRefFill n f => isName n = true ∧ ∀ kv ∈ f, KeyOk kv.1
  | .call n as => isName n = true ∨ (as.length = 1 ∧ n ∈ unaries ∨ as.length = 2 ∧ n ∈ binaries) ∧ ∀ a ∈ as, isExpr a = true
  | .ref n => isName n = true
  | .litFloat v => ∀ f, v = .flt f → floatOk E f
  | .litDouble v => ∀ f, v = .flt f → floatOk E f
  | .litString s => StrOk s
  | .literal t v => WordT t ∧ WordJ E v
  | .newObject fs t => WordT t ∧ ∀ kv ∈ fs, KeyOk kv.1
  | .newArray _ t => WordT t
  | .let_ vs => Vars vs
  | .setVar vs => Vars vs
  | .attrTo x _ r => (∀ n, x ≠ .ref n) → ∀ ps t b, r ≠ .fcnDef ps t b
  | .cellGet c _ => isName c = true
  | .cellTo c _ _ => isName c = true
  | .poolGet c _ => isName c = true
  | .poolTo c _ _ _ => isName c = true
  | .while_ _ b => b ≠ []
  | .doUntil b _ => b ≠ []
  | .for_ i _ s _ => Vars i ∧ Vars s
  | .foreach n _ _ _ => KeyOk n
  | .forkeyval k v _ _ => KeyOk k ∧ KeyOk v
  | .castCase t n _ => KeyOk n ∧ WordT t
  | .castBlock _ cs _ => cs ≠ []
  | .upcast _ t => WordT t
  | .ifNotNull xs _ _ => ∀ kv ∈ xs, KeyOk kv.1
  | .pack xs => ∀ kv ∈ xs, KeyOk kv.1
  | .unpack _ f _ _ => ∀ kv ∈ f, KeyOk kv.1 ∧ StrOk kv.2
  | .doc c => StrOk c
  | .error m _ => StrOk m
  | .try_ xs f => xs ≠ [] ∧ ∀ l, f = some l → ∀ s, .str s ∈ l → StrOk s
  | .log _ ns => ∀ s, ns = some s → StrOk s
  | _ => True

/-- Every node of the expression has words that can be written. -/
def Words (E : Lex.Env) (e : X) : Prop := ∀ x, Part x e → word E x

theorem Words.child {e x : X} (h : Words E e) (hx : Child x e) : Words E x := fun y hy => h y (hy.trans (.step (.refl _) hx))

/-! ## Small facts -/

theorem keyOk_of {n : String} (h : KeyOk n) : keyOk n = true := by
  rcases h with h | h
  · simp [keyOk, h]
  · simp only [keyOk, Bool.or_eq_true, Bool.not_eq_true']
    exact .inr (by simpa using (show Char.ofNat 0 ∉ n.toList from h))

theorem name_plain {n : String} (h : isName n = true) : n ≠ "do" ∧ unOf n = none ∧ binOf n = none := by
  have hu : ∀ m ∈ "do" :: unaries ++ binaries, isName m = false := by decide +kernel
  have hn : ∀ m ∈ "do" :: unaries ++ binaries, n ≠ m := fun m hm e => by
    subst e; rw [hu n hm] at h; exact absurd h (by simp)
  refine ⟨hn _ (by simp), ?_, ?_⟩
  · simp [unOf, hn "u-" (by decide), hn "~" (by decide), hn "!" (by decide)]
  · have hb : ∀ o ∈ bins, o.name ∈ "do" :: unaries ++ binaries := by decide +kernel
    simp only [binOf, List.find?_eq_none]
    intro o ho
    simpa using (hn _ (hb o ho)).symm

theorem callOk_name {n : String} {as : List Mini} (h : isName n = true) (ha : as.all isA = true) : callOk n as = true := by
  obtain ⟨h1, h2, h3⟩ := name_plain h
  have ha' := ha
  simp only [callOk, h1, if_false, h2, h3]
  match as with
  | [] => simp [h]
  | [a] => simp [h] at ha ⊢; exact ha
  | [a, b] => simp [h] at ha ⊢; exact ha
  | a :: b :: c :: l => simp [h] at ha ⊢; exact ha

theorem isE_isA {m : Mini} (h : isE m = true) : isA m = true := by cases m <;> simp_all [isE, isA]

theorem all_isE_isA {ms : List Mini} (h : ms.all isE = true) : ms.all isA = true := by
  rw [List.all_eq_true] at h ⊢
  exact fun m hm => isE_isA (h m hm)

theorem cans_iff {ms : List Mini} : Cans E ms ↔ ∀ m ∈ ms, Can E m := by
  induction ms with
  | nil => simp [Cans]
  | cons m ms ih => simp [Cans, ih]

theorem canN_iff {ps : List (String × Mini)} : CanN E ps ↔ ∀ p ∈ ps, keyOk p.1 = true ∧ isA p.2 = true ∧ Can E p.2 := by
  induction ps with
  | nil => simp [CanN]
  | cons p ps ih => obtain ⟨n, m⟩ := p; simp [CanN, ih, and_assoc]

/-- An expression is written as an expression. -/
theorem isE_mini {x : X} (h : isExpr x = true) : isE (mini x) = true := by
  cases x <;> first
    | (simp [isExpr] at h; done)
    | rfl
    | skip
  case litInt v => cases v <;> rfl
  case litLong v => cases v <;> rfl
  case litFloat v => cases v <;> rfl
  case litDouble v => cases v <;> rfl
  case attrGet x p => cases x <;> rfl
  case attrTo x p r => cases x <;> rfl
  case cellGet c p => cases p <;> rfl
  case cellTo c p r => cases p <;> simp only [mini] <;> (try split) <;> rfl
  case poolTo c p r i => simp only [mini]; split <;> rfl

/-- A case is written as a case, and nothing else is. -/
theorem isA_mini {x : X} (h : isArg x = true) : isA (mini x) = true := by
  by_cases hx : isExpr x = true
  · exact isE_isA (isE_mini hx)
  · cases x <;> first | rfl | (simp [isExpr] at hx; done) | (simp [isArg] at h; done)

theorem isC_mini {x : X} (h : isCase x = true) : isC (mini x) = true := by
  cases x <;> first | rfl | (simp [isCase] at h; done)

theorem all_mini {p : X → Bool} {q : Mini → Bool} (hq : ∀ x, p x = true → q (mini x) = true) {es : List X} (h : es.all p = true) : (minis es).all q = true := by
  rw [minis_eq, List.all_map]
  rw [List.all_eq_true] at h ⊢
  exact fun x hx => hq x (h x hx)

theorem cans_mini {es : List X} (h : ∀ x ∈ es, Can E (mini x)) : Cans E (minis es) := by
  rw [cans_iff, minis_eq]
  intro m hm
  obtain ⟨x, hx, rfl⟩ := List.mem_map.1 hm
  exact h x hx

theorem miniN_eq (es : List (String × X)) : miniN es = es.map fun kv => (kv.1, mini kv.2) := by
  induction es with
  | nil => rfl
  | cons kv es ih => obtain ⟨k, e⟩ := kv; simp [miniN, ih]

theorem fillMinis_eq (es : List (String × X)) : fillMinis es = es.map fun kv => .param kv.1 (mini kv.2) := by
  induction es with
  | nil => rfl
  | cons kv es ih => obtain ⟨k, e⟩ := kv; simp [fillMinis, ih]

theorem canN_mini {es : List (String × X)} (h : ∀ k x, (k, x) ∈ es → Can E (mini x)) (hk : ∀ kv ∈ es, KeyOk kv.1) (ha : allN isExpr es = true) :
    CanN E (miniN es) := by
  rw [canN_iff, miniN_eq]
  intro m hm
  obtain ⟨⟨k, x⟩, hx, rfl⟩ := List.mem_map.1 hm
  refine ⟨keyOk_of (hk _ hx), ?_, h k x hx⟩
  rw [allN, List.all_eq_true] at ha
  exact isE_isA (isE_mini (ha _ hx))

theorem fills_can {es : List (String × X)} (h : ∀ k x, (k, x) ∈ es → Can E (mini x)) (hk : ∀ kv ∈ es, KeyOk kv.1) (ha : allN isArg es = true) :
    Cans E (fillMinis es) ∧ (fillMinis es).all isA = true := by
  rw [cans_iff, fillMinis_eq, List.all_eq_true]
  rw [allN, List.all_eq_true] at ha
  refine ⟨?_, ?_⟩ <;> intro m hm <;> obtain ⟨⟨k, x⟩, hx, rfl⟩ := List.mem_map.1 hm
  · simp only [Can]
    exact ⟨keyOk_of (hk _ hx), isA_mini (ha _ hx), h k x hx⟩
  · rfl

theorem allN_arg {es : List (String × X)} (h : allN isExpr es = true) : allN isArg es = true := by
  rw [allN, List.all_eq_true] at h ⊢
  intro kv hkv
  have := h kv hkv
  generalize kv.2 = x at this
  cases x <;> simp_all [isExpr, isArg]

theorem namesOk_mini {es : List (String × X)} (h : Vars es) (ha : allN isExpr es = true) (hne : es.isEmpty = false) : namesOk (miniN es) = true := by
  rw [miniN_eq]
  rw [allN, List.all_eq_true] at ha
  simp only [namesOk, Bool.and_eq_true, Bool.not_eq_true', List.all_eq_true, decide_eq_true_eq, List.map_map]
  refine ⟨⟨by cases es <;> simp_all, ?_⟩, ?_⟩
  · intro m hm
    obtain ⟨⟨k, x⟩, hx, rfl⟩ := List.mem_map.1 hm
    exact ⟨h.1 _ hx, isE_mini (ha _ hx)⟩
  · exact h.2

theorem vars_keys {es : List (String × X)} (h : Vars es) : ∀ kv ∈ es, KeyOk kv.1 := fun kv hkv => .inl (h.1 kv hkv)

/-- A block. -/
theorem can_do {es : List X} (h : ∀ x ∈ es, Can E (mini x)) (ha : es.all isExpr = true) (hne : es ≠ []) : Can E (.call "do" (minis es)) := by
  simp only [Can]
  refine ⟨?_, cans_mini h⟩
  have := all_mini (q := isE) (fun _ => isE_mini) ha
  cases es with
  | nil => exact absurd rfl hne
  | cons e es => simp only [callOk, if_true, minis] at this ⊢; simpa using this

/-- An `else`. -/
theorem can_else {es : List X} (h : ∀ x ∈ es, Can E (mini x)) (ha : es.all isExpr = true) :
    CanO E (if es.isEmpty then none else some (.call "do" (minis es))) := by
  cases es with
  | nil => trivial
  | cons e es => exact ⟨rfl, can_do h ha (by simp)⟩

/-! ## Types and JSON -/

theorem typeMini_isE {t : Val} (h : WordT t) : isE (typeMini t) = true := by cases h <;> simp [typeMini, isE]

theorem syms_eq (ss : List String) : symMinis (ss.map .str) = ss.map .dotName := by
  induction ss with
  | nil => rfl
  | cons s ss ih => simp [symMinis, ih]

theorem fields_eq (fs : List (String × Val)) : fieldMinis (fs.map fun f => .dict [("name", .str f.1), ("type", f.2)]) = fs.map fun f => .param f.1 (typeMini f.2) := by
  induction fs with
  | nil => rfl
  | cons s ss ih => simp [fieldMinis, ih]

theorem types_eq (ts : List Val) : typeMinis ts = ts.map typeMini := by
  induction ts with
  | nil => rfl
  | cons t ts ih => simp [typeMinis, ih]

theorem names_can {ss : List String} (h : ∀ s ∈ ss, isName s = true) : Cans E (ss.map .dotName) ∧ (ss.map Mini.dotName).all isA = true := by
  rw [cans_iff, List.all_eq_true]
  refine ⟨?_, ?_⟩ <;> intro m hm <;> obtain ⟨s, hs, rfl⟩ := List.mem_map.1 hm
  · simp only [Can]; exact h s hs
  · rfl

theorem fields_can {fs : List (String × Val)} (h : ∀ f ∈ fs, KeyOk f.1 ∧ isA (typeMini f.2) = true ∧ Can E (typeMini f.2)) :
    Cans E (fs.map fun f => .param f.1 (typeMini f.2)) ∧ (fs.map fun f => Mini.param f.1 (typeMini f.2)).all isA = true := by
  rw [cans_iff, List.all_eq_true]
  refine ⟨?_, ?_⟩ <;> intro m hm <;> obtain ⟨s, hs, rfl⟩ := List.mem_map.1 hm
  · simp only [Can]; exact ⟨keyOk_of (h s hs).1, (h s hs).2⟩
  · rfl

/-- A type whose names can be written can be written. -/
theorem can_type {t : Val} (h : WordT t) : Can E (typeMini t) := by
  induction h with
  | name h => simpa [typeMini, Can] using h
  | array h ih =>
    have e := typeMini_isE h
    simp only [typeMini, Can, Cans, and_true]
    exact ⟨callOk_name (by decide +kernel) (by simp [isE_isA e]), ih⟩
  | map h ih =>
    have e := typeMini_isE h
    simp only [typeMini, Can, Cans, and_true]
    exact ⟨callOk_name (by decide +kernel) (by simp [isE_isA e]), ih⟩
  | union h ih =>
    simp only [typeMini, Can, types_eq]
    refine ⟨callOk_name (by decide +kernel) ?_, ?_⟩
    · rw [List.all_map, List.all_eq_true]
      exact fun x hx => isE_isA (typeMini_isE (h x hx))
    · rw [cans_iff]
      intro m hm
      obtain ⟨x, hx, rfl⟩ := List.mem_map.1 hm
      exact ih x hx
  | fixed hn =>
    simp only [typeMini, Can, Cans, and_true, NumOk, true_and]
    exact ⟨callOk_name (by decide +kernel) rfl, hn⟩
  | fixedNs hn =>
    simp only [typeMini, Can, Cans, and_true, NumOk, true_and]
    exact ⟨callOk_name (by decide +kernel) rfl, hn⟩
  | enum hs hn =>
    simp only [typeMini, Can, Cans, and_true, syms_eq]
    exact ⟨callOk_name (by decide +kernel) rfl, ⟨(names_can (E := E) hs).2, (names_can hs).1⟩, hn⟩
  | enumNs hs hn =>
    simp only [typeMini, Can, Cans, and_true, syms_eq]
    exact ⟨callOk_name (by decide +kernel) rfl, ⟨(names_can (E := E) hs).2, (names_can hs).1⟩, hn⟩
  | record hn hk h ih =>
    have hf := fields_can (E := E) fun f hf => ⟨hk f hf, isE_isA (typeMini_isE (h f hf)), ih f hf⟩
    simp only [typeMini, Can, Cans, fields_eq]
    exact ⟨callOk_name (by decide +kernel) (by simp only [List.all_cons, hf.2]; rfl), hn, hf.1⟩
  | recordNs hn hk h ih =>
    have hf := fields_can (E := E) fun f hf => ⟨hk f hf, isE_isA (typeMini_isE (h f hf)), ih f hf⟩
    simp only [typeMini, Can, Cans, fields_eq]
    exact ⟨callOk_name (by decide +kernel) (by simp only [List.all_cons, hf.2]; rfl), hn, hf.1⟩

theorem jsonMini_isA (v : Val) : isA (jsonMini v) = true := by cases v <;> rfl

theorem jsons_eq (xs : List Val) : jsonMinis xs = xs.map jsonMini := by
  induction xs with
  | nil => rfl
  | cons t ts ih => simp [jsonMinis, ih]

theorem pairs_eq (d : List (String × Val)) : pairMinis d = d.map fun kv => .param kv.1 (jsonMini kv.2) := by
  induction d with
  | nil => rfl
  | cons kv d ih => obtain ⟨k, v⟩ := kv; simp [pairMinis, ih]

/-- JSON whose words can be written can be written. -/
theorem can_json {v : Val} (h : WordJ E v) : Can E (jsonMini v) := by
  induction h with
  | null => simp only [jsonMini, Can]; decide +kernel
  | bool b => cases b <;> simp only [jsonMini, Can] <;> decide +kernel
  | int i => simp [jsonMini, Can, NumOk]
  | flt h => simpa [jsonMini, Can, NumOk] using h
  | str h => simp only [jsonMini, Can]; exact h
  | arr h ih =>
    simp only [jsonMini, Can, jsons_eq]
    refine ⟨?_, ?_⟩
    · rw [List.all_map, List.all_eq_true]
      exact fun x _ => jsonMini_isA x
    · rw [cans_iff]
      intro m hm
      obtain ⟨x, hx, rfl⟩ := List.mem_map.1 hm
      exact ih x hx
  | dict hk h ih =>
    simp only [jsonMini, Can, pairs_eq]
    refine ⟨?_, ?_⟩
    · rw [List.all_map, List.all_eq_true]
      exact fun x _ => rfl
    · rw [cans_iff]
      intro m hm
      obtain ⟨x, hx, rfl⟩ := List.mem_map.1 hm
      simp only [Can]
      exact ⟨keyOk_of (hk x hx), jsonMini_isA _, ih x hx⟩

/-- A literal through `json`. -/
theorem can_lit {type : String} {v : Val} (ht : isName type = true) (hv : WordJ E v) : Can E (litMini type v) := by
  simp only [litMini, Can, Cans, and_true]
  exact ⟨callOk_name (by decide +kernel) (by simp only [List.all_cons, List.all_nil, jsonMini_isA]; rfl), ht, can_json hv⟩

/-- The text of bytes has letters, digits and `+/=` only. -/
theorem b64_strOk (bs : List Nat) : StrOk (String.ofList (b64encode bs)) := by
  have h1 : ∀ n, Reader.char64 n ≠ Char.ofNat 0 := by
    intro n
    have h : ∀ k, k < 123 → 43 ≤ k → Char.ofNat k ≠ Char.ofNat 0 := by decide +kernel
    simp only [Reader.char64]
    apply h <;> repeat' split
    all_goals omega
  have h2 : ('=' : Char) ≠ Char.ofNat 0 := by decide
  have : ∀ bs, Char.ofNat 0 ∉ b64encode bs := by
    intro bs
    induction bs using b64encode.induct <;> simp_all [b64encode, Ne.symm]
  simpa [StrOk] using this bs

/-! ## Expressions -/

/-- A call with a name of the language. -/
theorem can_call {n : String} {ms : List Mini} (h : isName n = true) (ha : ms.all isA = true) (hc : Cans E ms) : Can E (.call n ms) := by
  simp only [Can]; exact ⟨callOk_name h ha, hc⟩

theorem bins_of {n : String} (h : n ∈ binaries) : n ≠ "do" ∧ ∃ o, binOf n = some o := by
  have : ∀ m ∈ binaries, m ≠ "do" ∧ (binOf m).isSome = true := by decide +kernel
  exact ⟨(this n h).1, Option.isSome_iff_exists.1 (this n h).2⟩

theorem uns_of {n : String} (h : n ∈ unaries) : n ≠ "do" ∧ ∃ o, unOf n = some o := by
  have : ∀ m ∈ unaries, m ≠ "do" ∧ (unOf m).isSome = true := by decide +kernel
  exact ⟨(this n h).1, Option.isSome_iff_exists.1 (this n h).2⟩

theorem can_conds {its : List X} (h : ∀ x ∈ its, ∃ p t, x = .if_ p t [] ∧ isExpr p = true ∧ Can E (mini p) ∧ Can E (.call "do" (minis t))) :
    CanP E (condMinis its) := by
  induction its with
  | nil => trivial
  | cons x its ih =>
    obtain ⟨p, t, rfl, h1, h2, h3⟩ := h x (by simp)
    simp only [condMinis, CanP]
    exact ⟨isE_mini h1, h2, rfl, h3, ih fun y hy => h y (by simp [hy])⟩

theorem can_filters {l : List Val} (h : ∀ v ∈ l, (∃ s, v = .str s) ∨ ∃ i, v = .int i) (hs : ∀ s, .str s ∈ l → StrOk s) :
    (l.map filterMini).all isE = true ∧ Cans E (l.map filterMini) := by
  rw [cans_iff, List.all_eq_true]
  refine ⟨?_, ?_⟩ <;> intro m hm <;> obtain ⟨v, hv, rfl⟩ := List.mem_map.1 hm <;> rcases h v hv with ⟨s, rfl⟩ | ⟨i, rfl⟩
  · rfl
  · rfl
  · simp only [filterMini, Can]; exact hs s hv
  · simp [filterMini, Can, NumOk]

theorem isExpr_of {r : X} (ha : isArg r = true) (hf : isFcn r = false) : isExpr r = true := by
  cases r <;> simp_all [isFcn, isArg, isExpr]

theorem can_mini_size : ∀ (n : Nat) (e : X), sizeOf e < n → Say st e → Words E e → Can E (mini e)
  | 0, _, h, _, _ => absurd h (Nat.not_lt_zero _)
  | n + 1, e, hs, h, hw => by
    have ih : ∀ x, Child x e → Can E (mini x) := fun x hx =>
      can_mini_size n x (Nat.lt_of_lt_of_le (Child.size hx) (Nat.lt_succ_iff.1 hs)) (h.child hx) (hw.child hx)
    have hword := hw e (.refl e)
    obtain ⟨hmade, hsay⟩ := h e (.refl e)
    cases e with
    | fcnDef ps r b =>
      simp only [word] at hword
      simp only [made, Bool.and_eq_true, Bool.not_eq_true'] at hmade
      simp only [mini, Can]
      refine ⟨?_, typeMini_isE hword.2, can_type hword.2, ?_, all_mini (fun _ => isE_mini) hmade.1, cans_mini fun x hx => ih x (.fcnDef hx)⟩
      · rw [canN_iff]
        intro m hm
        obtain ⟨p, hp, rfl⟩ := List.mem_map.1 hm
        exact ⟨keyOk_of (hword.1 p hp).1, isE_isA (typeMini_isE (hword.1 p hp).2), can_type (hword.1 p hp).2⟩
      · cases b <;> simp_all [minis]
    | fcnRef m => simpa [mini, Can, word] using hword
    | fcnRefFill m f =>
      simp only [word] at hword
      simp only [made, Bool.and_eq_true, Bool.not_eq_true'] at hmade
      have := fills_can (E := E) (es := f) (fun k x hx => ih x (.fcnRefFill hx)) hword.2 hmade.1
      rw [mini]
      exact can_call hword.1 this.2 this.1
    | callUser f as =>
      simp only [made, Bool.and_eq_true] at hmade
      rw [mini]
      refine can_call (by decide +kernel) ?_ ?_
      · simp only [List.all_cons, isE_isA (isE_mini hmade.1), all_isE_isA (all_mini (fun _ => isE_mini) hmade.2)]; rfl
      · simp only [Cans]; exact ⟨ih f .callUser_name, cans_mini fun x hx => ih x (.callUser_arg hx)⟩
    | call m as =>
      have hc := cans_mini (E := E) (es := as) fun x hx => ih x (.call hx)
      rw [mini]
      simp only [made] at hmade
      simp only [word] at hword
      rcases hword with hn | ⟨hn, ha⟩
      · exact can_call hn (all_mini (fun _ => isA_mini) hmade) hc
      · simp only [Can]
        refine ⟨?_, hc⟩
        rcases hn with ⟨hl, hn⟩ | ⟨hl, hn⟩
        · obtain ⟨h1, o, h2⟩ := uns_of hn
          match as, hl with
          | [a], _ =>
            simp only [callOk, h1, if_false, minis, h2]
            exact isE_mini (ha a (by simp))
        · obtain ⟨h1, o, h2⟩ := bins_of hn
          match as, hl with
          | [a, b], _ =>
            simp only [callOk, h1, if_false, minis, h2, isE_mini (ha a (by simp)), isE_mini (ha b (by simp))]
            rfl
    | ref m => simpa [mini, Can, word] using hword
    | litNull => simp only [mini, Can]; decide +kernel
    | litBool b => cases b <;> simp only [mini, Can] <;> decide +kernel
    | litInt v =>
      cases v with
      | int i => simp [mini, Can, NumOk]
      | bool b => exact can_lit (by decide +kernel) (.bool b)
      | _ => simp [made, pyInt?] at hmade
    | litLong v =>
      cases v with
      | int i => exact can_call (by decide +kernel) rfl (by simp [Cans, Can, NumOk])
      | bool b => exact can_lit (by decide +kernel) (.bool b)
      | _ => simp [made, pyInt?] at hmade
    | litFloat v =>
      simp only [word] at hword
      cases v with
      | flt f => exact can_call (by decide +kernel) rfl (by simpa [Cans, Can, NumOk] using hword f rfl)
      | int i => exact can_lit (by decide +kernel) (.int i)
      | bool b => exact can_lit (by decide +kernel) (.bool b)
      | _ => simp [made, pyNum?] at hmade
    | litDouble v =>
      simp only [word] at hword
      cases v with
      | flt f => simpa [mini, Can, NumOk] using hword f rfl
      | int i => exact can_lit (by decide +kernel) (.int i)
      | bool b => exact can_lit (by decide +kernel) (.bool b)
      | _ => simp [made, pyNum?] at hmade
    | litString t => simp only [mini, Can]; exact hword
    | litBase64 bs => exact can_call (by decide +kernel) rfl (by simp only [Cans, Can, and_true]; exact b64_strOk bs)
    | literal t v =>
      simp only [word] at hword
      rw [mini]
      refine can_call (by decide +kernel) ?_ ?_
      · simp only [List.all_cons, List.all_nil, isE_isA (typeMini_isE hword.1), jsonMini_isA]; rfl
      · simp only [Cans, and_true]; exact ⟨can_type hword.1, can_json hword.2⟩
    | newObject fs t =>
      simp only [word] at hword
      simp only [made] at hmade
      have hf := fills_can (E := E) (es := fs) (fun k x hx => ih x (.newObject hx)) hword.2 (allN_arg hmade)
      rw [mini]
      refine can_call (by decide +kernel) ?_ ?_
      · simp only [List.all_cons, isE_isA (typeMini_isE hword.1), hf.2]; rfl
      · simp only [Cans]; exact ⟨can_type hword.1, hf.1⟩
    | newArray is t =>
      simp only [word] at hword
      simp only [made] at hmade
      rw [mini]
      refine can_call (by decide +kernel) ?_ ?_
      · simp only [List.all_cons, isE_isA (typeMini_isE hword), all_isE_isA (all_mini (fun _ => isE_mini) hmade)]; rfl
      · simp only [Cans]; exact ⟨can_type hword, cans_mini fun x hx => ih x (.newArray hx)⟩
    | do_ b =>
      simp only [made, Bool.and_eq_true, Bool.not_eq_true'] at hmade
      exact can_do (fun x hx => ih x (.do_ hx)) hmade.1 (by rintro rfl; simp at hmade)
    | let_ vs =>
      simp only [word] at hword
      simp only [made, Bool.and_eq_true, Bool.not_eq_true'] at hmade
      simp only [mini, Can]
      exact ⟨namesOk_mini hword hmade.1 hmade.2, canN_mini (fun k x hx => ih x (.let_ hx)) (vars_keys hword) hmade.1⟩
    | setVar vs =>
      simp only [word] at hword
      simp only [made, Bool.and_eq_true, Bool.not_eq_true'] at hmade
      simp only [mini, Can]
      exact ⟨namesOk_mini hword hmade.1 hmade.2, canN_mini (fun k x hx => ih x (.setVar hx)) (vars_keys hword) hmade.1⟩
    | attrGet x p =>
      simp only [made, Bool.and_eq_true, Bool.not_eq_true'] at hmade
      have hp := cans_mini (E := E) (es := p) fun x hx => ih x (.attrGet_path hx)
      have ha := all_isE_isA (all_mini (fun _ => isE_mini) hmade.1.2)
      have hx := ih x .attrGet_expr
      by_cases hr : ∃ m, x = .ref m
      · obtain ⟨m, rfl⟩ := hr
        simp only [mini, Can] at hx ⊢
        exact ⟨hx, ha, hp⟩
      · rw [mini]
        · simp only [Can]; exact ⟨isE_mini hmade.1.1, hx, ha, hp⟩
        · intro m hm; exact hr ⟨m, hm⟩
    | attrTo x p r =>
      simp only [made, Bool.and_eq_true, Bool.not_eq_true'] at hmade
      have hp := cans_mini (E := E) (es := p) fun x hx => ih x (.attrTo_path hx)
      have ha := all_isE_isA (all_mini (fun _ => isE_mini) hmade.1.1.2)
      have hx := ih x .attrTo_expr
      have h1 := ih r .attrTo_to
      by_cases hr : ∃ m, x = .ref m
      · obtain ⟨m, rfl⟩ := hr
        simp only [mini, Can, CanO] at hx ⊢
        refine ⟨hx, ha, hp, h1, isA_mini hmade.1.2, fun hf => ⟨isE_mini (isExpr_of hmade.1.2 (by simpa using hf)), trivial⟩, trivial⟩
      · rw [mini]
        · have he : isE (mini r) = true := by
            have hf := hword (fun m hm => hr ⟨m, hm⟩)
            by_cases hx : isExpr r = true
            · exact isE_mini hx
            · have := hmade.1.2
              cases r <;> first | rfl | (simp [isExpr] at hx; done) | (simp [isArg] at this; done) | exact absurd rfl (hf _ _ _)
          simp only [Can]; exact ⟨isE_mini hmade.1.1.1, hx, ha, hp, he, h1⟩
        · intro m hm; exact hr ⟨m, hm⟩
    | cellGet c p =>
      simp only [word] at hword
      simp only [made] at hmade
      have hp := cans_mini (E := E) (es := p) fun x hx => ih x (.cellGet hx)
      have ha := all_isE_isA (all_mini (fun _ => isE_mini) hmade)
      cases p with
      | nil => simpa [mini, Can] using hword
      | cons x p => simp only [mini, Can]; exact ⟨hword, ha, hp⟩
    | cellTo c p r =>
      simp only [word] at hword
      simp only [made, Bool.and_eq_true] at hmade
      have hp := cans_mini (E := E) (es := p) fun x hx => ih x (.cellTo_path hx)
      have ha := all_isE_isA (all_mini (fun _ => isE_mini) hmade.1)
      have h1 := ih r .cellTo_to
      cases p with
      | nil =>
        rw [mini]
        split
        · simp only [Can, CanO]
          exact ⟨hword, ha, hp, h1, isA_mini hmade.2, fun hf => by simp at hf, trivial⟩
        · rename_i hf
          have he := isE_mini (isExpr_of hmade.2 (by simpa using hf))
          simp only [Can, CanN, and_true]
          exact ⟨by simp [namesOk, hword, he], keyOk_of (.inl hword), isE_isA he, h1⟩
      | cons x p =>
        simp only [mini, Can, CanO]
        refine ⟨hword, ha, hp, h1, isA_mini hmade.2, fun hf => ⟨isE_mini (isExpr_of hmade.2 (by simpa using hf)), trivial⟩, trivial⟩
    | poolGet c p =>
      simp only [word] at hword
      simp only [made, Bool.and_eq_true] at hmade
      simp only [mini, Can]
      exact ⟨hword, all_isE_isA (all_mini (fun _ => isE_mini) hmade.1), cans_mini fun x hx => ih x (.poolGet hx)⟩
    | poolTo c p r i =>
      simp only [word] at hword
      simp only [made, Bool.and_eq_true] at hmade
      have hp := cans_mini (E := E) (es := p) fun x hx => ih x (.poolTo_path hx)
      have ha := all_isE_isA (all_mini (fun _ => isE_mini) hmade.1.1.1)
      have h1 := ih r .poolTo_to
      have h2 := ih i .poolTo_init
      rw [mini]
      split
      · simp only [Can, CanO]
        exact ⟨hword, ha, hp, h1, isA_mini hmade.1.1.2, fun hf => by simp at hf, isE_mini hmade.1.2, h2⟩
      · rename_i hf
        simp only [Can, CanO]
        exact ⟨hword, ha, hp, h1, isA_mini hmade.1.1.2, fun _ => ⟨isE_mini (isExpr_of hmade.1.1.2 (by simpa using hf)), trivial⟩, trivial⟩
    | poolDel c d => exact hsay.elim
    | if_ p t e =>
      simp only [made, Bool.and_eq_true, Bool.not_eq_true'] at hmade
      simp only [mini, Can, CanP, and_true]
      refine ⟨by simp, ⟨isE_mini hmade.1.1.1, ih p .if_pred, rfl, ?_⟩, can_else (fun x hx => ih x (.if_else hx)) hmade.1.2, ?_⟩
      · exact (can_do (E := E) (fun x hx => ih x (.if_then hx)) hmade.1.1.2 (by rintro rfl; simp at hmade))
      · intro m hm
        split at hm
        · cases hm
        · cases hm; rfl
    | cond its e =>
      simp only [made, Bool.and_eq_true, Bool.not_eq_true'] at hmade
      simp only [say] at hsay
      simp only [mini, Can]
      refine ⟨?_, ?_, can_else (fun x hx => ih x (.cond_else hx)) hmade.1.2, ?_⟩
      · match its, hsay with
        | a :: l, hsay => obtain ⟨p, t, rfl⟩ := hsay.2 a (by simp); simp [condMinis]
      · refine can_conds fun x hx => ?_
        obtain ⟨p, t, rfl⟩ := hsay.2 x hx
        have hs' : Say st (.if_ p t []) := h.child (.cond_if hx)
        have hw' : Words E (.if_ p t []) := hw.child (.cond_if hx)
        have hz : ∀ y, Child y (.if_ p t []) → Can E (mini y) := fun y hy =>
          can_mini_size n y (by have := Child.size hy; have := Child.size (Child.cond_if (e := e) hx); omega) (hs'.child hy) (hw'.child hy)
        have hm := (hs' _ (.refl _)).1
        simp only [made, Bool.and_eq_true, Bool.not_eq_true'] at hm
        exact ⟨p, t, rfl, hm.1.1.1, hz p .if_pred, can_do (fun y hy => hz y (.if_then hy)) hm.1.1.2 (by rintro rfl; simp at hm)⟩
      · intro m hm
        split at hm
        · cases hm
        · cases hm; rfl
    | while_ p b =>
      simp only [made, Bool.and_eq_true] at hmade
      have hd := can_do (E := E) (es := b) (fun x hx => ih x (.while_body hx)) hmade.2 hword
      rw [mini, Can]
      exact ⟨isE_mini hmade.1, ih p .while_pred, rfl, hd⟩
    | doUntil b p =>
      simp only [made, Bool.and_eq_true] at hmade
      have hd := can_do (E := E) (es := b) (fun x hx => ih x (.doUntil_body hx)) hmade.1 hword
      rw [mini, Can]
      exact ⟨isE_mini hmade.2, ih p .doUntil_pred, rfl, hd⟩
    | for_ i p s b =>
      simp only [word] at hword
      simp only [made, Bool.and_eq_true, Bool.not_eq_true'] at hmade
      obtain ⟨⟨⟨⟨⟨⟨m1, m2⟩, m3⟩, m4⟩, m5⟩, m6⟩, m7⟩ := hmade
      have hd := can_do (E := E) (es := b) (fun x hx => ih x (.for_body hx)) m4 (by rintro rfl; simp at m7)
      rw [mini, Can]
      exact ⟨namesOk_mini hword.1 m1 m5, canN_mini (fun k x hx => ih x (.for_init hx)) (vars_keys hword.1) m1, isE_mini m2, ih p .for_pred,
        namesOk_mini hword.2 m3 m6, canN_mini (fun k x hx => ih x (.for_step hx)) (vars_keys hword.2) m3, rfl, hd⟩
    | foreach m a b q =>
      simp only [made, Bool.and_eq_true, Bool.not_eq_true'] at hmade
      have hd := can_do (E := E) (es := b) (fun x hx => ih x (.foreach_body hx)) hmade.1.2 (by rintro rfl; simp at hmade)
      rw [mini, Can]
      exact ⟨keyOk_of hword, isE_isA (isE_mini hmade.1.1), ih a .foreach_array, rfl, hd⟩
    | forkeyval k v m b =>
      simp only [word] at hword
      simp only [made, Bool.and_eq_true, Bool.not_eq_true'] at hmade
      have hd := can_do (E := E) (es := b) (fun x hx => ih x (.forkeyval_body hx)) hmade.1.2 (by rintro rfl; simp at hmade)
      rw [mini, Can]
      exact ⟨keyOk_of hword.1, keyOk_of hword.2, isE_isA (isE_mini hmade.1.1), ih m .forkeyval_map, rfl, hd⟩
    | castCase t m b =>
      simp only [word] at hword
      simp only [made, Bool.and_eq_true, Bool.not_eq_true'] at hmade
      have hd := can_do (E := E) (es := b) (fun x hx => ih x (.castCase hx)) hmade.1 (by rintro rfl; simp at hmade)
      rw [mini, Can]
      exact ⟨keyOk_of hword.1, isE_isA (typeMini_isE hword.2), can_type hword.2, rfl, hd⟩
    | castBlock x cs q =>
      simp only [word] at hword
      simp only [made, Bool.and_eq_true] at hmade
      rw [mini, Can]
      refine ⟨isE_mini hmade.1, ih x .castBlock_expr, ?_, all_mini (fun _ => isC_mini) hmade.2, cans_mini fun x hx => ih x (.castBlock_case hx)⟩
      cases cs <;> simp_all [minis]
    | upcast x t =>
      simp only [word] at hword
      simp only [made] at hmade
      rw [mini]
      refine can_call (by decide +kernel) ?_ ?_
      · simp only [List.all_cons, List.all_nil, isE_isA (typeMini_isE hword), isE_isA (isE_mini hmade)]; rfl
      · simp only [Cans, and_true]; exact ⟨can_type hword, ih x .upcast⟩
    | ifNotNull xs t e =>
      simp only [word] at hword
      simp only [made, Bool.and_eq_true, Bool.not_eq_true'] at hmade
      obtain ⟨⟨⟨⟨m1, m2⟩, m3⟩, m4⟩, m5⟩ := hmade
      have hd := can_do (E := E) (es := t) (fun x hx => ih x (.ifNotNull_then hx)) m2 (by rintro rfl; simp at m5)
      rw [mini, Can]
      exact ⟨canN_mini (fun k x hx => ih x (.ifNotNull_expr hx)) hword m1, rfl, hd, can_else (fun x hx => ih x (.ifNotNull_else hx)) m3⟩
    | pack xs =>
      simp only [word] at hword
      simp only [made, Bool.and_eq_true] at hmade
      have hf := fills_can (E := E) (es := xs) (fun k x hx => ih x (.pack hx)) hword (allN_arg hmade.1)
      rw [mini]
      exact can_call (by decide +kernel) hf.2 hf.1
    | unpack b f t e =>
      simp only [word] at hword
      simp only [made, Bool.and_eq_true, Bool.not_eq_true'] at hmade
      obtain ⟨⟨⟨⟨m1, m2⟩, m3⟩, m4⟩, m5⟩ := hmade
      have hd := can_do (E := E) (es := t) (fun x hx => ih x (.unpack_then hx)) m2 (by rintro rfl; simp at m5)
      rw [mini, Can]
      refine ⟨isE_mini m1, ih b .unpack_bytes, ?_, rfl, hd, can_else (fun x hx => ih x (.unpack_else hx)) m3⟩
      rw [canN_iff]
      intro m hm
      obtain ⟨kv, hkv, rfl⟩ := List.mem_map.1 hm
      refine ⟨keyOk_of (hword kv hkv).1, rfl, ?_⟩
      simp only [Can]; exact (hword kv hkv).2
    | doc c => exact can_call (by decide +kernel) rfl (by simp only [Cans, Can, and_true]; exact hword)
    | error m c =>
      simp only [word] at hword
      cases c with
      | none => exact can_call (by decide +kernel) rfl (by simp only [Option.map_none, optMini, Cans, Can, and_true]; exact hword)
      | some i =>
        refine can_call (by decide +kernel) rfl ?_
        simp only [Option.map_some, optMini, Cans, Can, and_true, NumOk]
        exact ⟨hword, by decide +kernel, rfl⟩
    | try_ xs f =>
      simp only [word] at hword
      simp only [say] at hsay
      simp only [made, Bool.and_eq_true] at hmade
      have hd := can_do (E := E) (es := xs) (fun x hx => ih x (.try_ hx)) hmade.1 hword.1
      rw [mini, Can]
      refine ⟨rfl, hd, ?_, fun _ => ?_⟩
      · cases f with
        | none => trivial
        | some l => exact can_filters (hsay l rfl) (hword.2 l rfl)
      · cases xs with
        | nil => exact absurd rfl hword.1
        | cons x xs => simp [isDo, minis]
    | log xs ns =>
      simp only [word] at hword
      simp only [made] at hmade
      have hc := cans_mini (E := E) (es := xs) fun x hx => ih x (.log hx)
      have ha := all_isE_isA (all_mini (fun _ => isE_mini) hmade)
      rw [mini]
      refine can_call (by decide +kernel) ?_ ?_
      · rw [List.all_append, ha]
        cases ns <;> rfl
      · rw [cans_iff] at hc ⊢
        intro m hm
        rcases List.mem_append.1 hm with hm | hm
        · exact hc m hm
        · cases ns with
          | none => simp [optMini] at hm
          | some s =>
            simp only [Option.map_some, optMini, List.mem_singleton] at hm
            subst hm
            simp only [Can]
            exact ⟨by decide +kernel, rfl, hword s rfl⟩

/-- An expression that can be said, with words that can be written, can be written. -/
theorem can_mini {e : X} (h : Say st e) (hw : Words E e) : Can E (mini e) := can_mini_size _ e (Nat.lt_succ_self _) h hw

/-- **The text of expressions is read as the expressions**, when they can be said and their words can be written. -/
theorem text_means_partial {es : List X} (hne : es ≠ []) (hx : es.all isExpr = true) (hs : ∀ e ∈ es, Say st e) (hw : ∀ e ∈ es, Words E e) :
    Reads E st (textOf E (minis es)) (.ok es) :=
  written_means_partial hne hs (all_mini (fun _ => isE_mini) hx) (cans_mini fun e he => can_mini (hs e he) (hw e he))

/-! ## Documents -/

/-- Configurations whose words can be written. -/
structure WordDoc (E : Lex.Env) (c : Config) : Prop where
  name : isName c.name = true
  input : WordT c.input
  output : WordT c.output
  exprs : ∀ e, e ∈ c.begin_ ∨ e ∈ c.action ∨ e ∈ c.end_ ∨ (∃ m, c.merge = some m ∧ e ∈ m) → Words E e
  fcns : ∀ kv ∈ c.fcns, isName kv.1 = true ∧ Words E kv.2
  cells : ∀ kv ∈ c.cells, isName kv.1 = true ∧ WordT kv.2.type ∧ StrOk kv.2.source ∧ ∀ v, kv.2.init = .text v → WordJ E v
  pools : ∀ kv ∈ c.pools, isName kv.1 = true ∧ WordT kv.2.type ∧ StrOk kv.2.source ∧ WordJ E (.dict kv.2.init)
  zero : ∀ v, c.zero = some v → WordJ E v
  doc : ∀ s, c.doc = some s → StrOk s
  metadata : ∀ kv ∈ c.metadata, KeyOk kv.1 ∧ StrOk kv.2
  options : WordJ E (.dict c.options)

theorem exprs_canC {es : List X} (hx : es.all isExpr = true) (hc : ∀ e ∈ es, Can E (mini e)) : CanC E (exprList es) := by
  simp only [exprList, CanC, minis_eq, List.map_map]
  rw [List.all_eq_true] at hx
  refine ⟨?_, ?_⟩
  · intro o ho
    obtain ⟨x, hx', rfl⟩ := List.mem_map.1 ho
    exact ⟨isE_mini (hx x hx'), hc x hx'⟩
  · intro o ho o' ho'
    obtain ⟨x, _, rfl⟩ := List.mem_map.1 ho
    obtain ⟨y, _, rfl⟩ := List.mem_map.1 ho'
    trivial

theorem json_canC {v : Val} (h : WordJ E v) : CanC E (.one (jsonMini v)) :=
  ⟨by cases v <;> first | exact .inl rfl | exact .inr ⟨_, by rw [jsonMini]⟩, can_json h⟩

theorem type_canC {t : Val} (h : WordT t) : CanC E (.one (typeMini t)) := ⟨.inl (typeMini_isE h), can_type h⟩

theorem type_noParam {t : Val} (h : WordT t) : (typeMini t).isParam = false := by cases h <;> simp [typeMini, Mini.isParam]

theorem cell_canObj {n : String} {t v : Val} {sh ro : Bool} {so : String} (hn : isName n = true) (ht : WordT t) (hv : WordJ E v) (hs : StrOk so) :
    CanObj E (.cell n (typeMini t) (jsonMini v) sh ro so) := by
  simp only [CanObj]
  refine ⟨hn, isE_isA (typeMini_isE ht), type_noParam ht, can_type ht, hs, can_json hv, ?_⟩
  cases hv <;> simp [jsonMini]

theorem doc_canC {c : Config} (h : SayDoc st c) (hw : WordDoc E c) : ∀ s ∈ sections c, CanC E s.2 := by
  intro s hs
  have hm := h.made
  simp only [Config.made, Bool.and_eq_true] at hm
  obtain ⟨⟨⟨⟨⟨⟨⟨⟨⟨hmeth, m1⟩, m2⟩, m3⟩, mf⟩, m4⟩, -⟩, -⟩, -⟩, -⟩ := hm
  have ho : ∀ {α : Type} {k : String} {f : α → Content} {o : Option α}, s ∈ optSec k f o → ∃ a, o = some a ∧ s.2 = f a := by
    intro α k f o h
    cases o with
    | none => cases h
    | some a => rw [optSec] at h; rw [List.mem_singleton.1 h]; exact ⟨a, rfl, rfl⟩
  unfold sections fixedSecs at hs
  simp only [List.mem_append, List.mem_cons, List.not_mem_nil, or_false] at hs
  rcases hs with (rfl | rfl | rfl | rfl | rfl | rfl | rfl | rfl | rfl | rfl | rfl | rfl) | hs | hs | hs | hs | hs
  · exact ⟨.inl rfl, by simpa [Can] using hw.name⟩
  · refine ⟨.inl rfl, ?_⟩
    simp only [Can]
    rcases of_decide_eq_true hmeth with e | e | e <;> rw [e] <;> decide +kernel
  · exact type_canC hw.input
  · exact type_canC hw.output
  · exact exprs_canC m1 fun e he => can_mini (h.exprs e (.inl he)) (hw.exprs e (.inl he))
  · exact exprs_canC m2 fun e he => can_mini (h.exprs e (.inr (.inl he))) (hw.exprs e (.inr (.inl he)))
  · exact exprs_canC m3 fun e he => can_mini (h.exprs e (.inr (.inr (.inl he)))) (hw.exprs e (.inr (.inr (.inl he))))
  · rw [List.all_eq_true] at mf
    have hf : ∀ kv ∈ c.fcns, ∃ ps r b, kv.2 = .fcnDef ps r b := by
      intro kv hkv
      have := mf kv hkv
      revert this
      cases kv.2 <;> simp [Reader.isFcn]
    refine ⟨?_, ?_⟩
    · intro o ho
      obtain ⟨kv, hkv, rfl⟩ := List.mem_map.1 ho
      obtain ⟨ps, r, b, e⟩ := hf kv hkv
      have hc := can_mini (h.fcns.2 kv hkv) (hw.fcns kv hkv).2
      rw [e, mini] at hc
      rw [fcnObj, e]
      exact ⟨(hw.fcns kv hkv).1, hc⟩
    · intro o ho o' ho'
      obtain ⟨kv, hkv, rfl⟩ := List.mem_map.1 ho
      obtain ⟨kv', hkv', rfl⟩ := List.mem_map.1 ho'
      obtain ⟨ps, r, b, e⟩ := hf kv hkv
      obtain ⟨ps', r', b', e'⟩ := hf kv' hkv'
      rw [fcnObj, e, fcnObj, e']
      trivial
  · refine ⟨?_, ?_⟩
    · intro o ho
      obtain ⟨kv, hkv, rfl⟩ := List.mem_map.1 ho
      obtain ⟨-, ⟨v, hv, -⟩, -⟩ := h.cells.2 kv hkv
      obtain ⟨h1, h2, h3, h4⟩ := hw.cells kv hkv
      rw [cellObj, hv]
      exact cell_canObj h1 h2 (h4 v hv) h3
    · intro o ho o' ho'
      obtain ⟨kv, hkv, rfl⟩ := List.mem_map.1 ho
      obtain ⟨kv', hkv', rfl⟩ := List.mem_map.1 ho'
      trivial
  · refine ⟨?_, ?_⟩
    · intro o ho
      obtain ⟨kv, hkv, rfl⟩ := List.mem_map.1 ho
      obtain ⟨h1, h2, h3, h4⟩ := hw.pools kv hkv
      exact cell_canObj h1 h2 h4 h3
    · intro o ho o' ho'
      obtain ⟨kv, hkv, rfl⟩ := List.mem_map.1 ho
      obtain ⟨kv', hkv', rfl⟩ := List.mem_map.1 ho'
      trivial
  · refine json_canC (.dict ?_ ?_) <;> intro kv hkv <;> obtain ⟨x, hx, rfl⟩ := List.mem_map.1 hkv
    · exact (hw.metadata x hx).1
    · exact .str (hw.metadata x hx).2
  · exact json_canC hw.options
  · obtain ⟨a, h1, h2⟩ := ho hs
    rw [h2]; exact json_canC (hw.zero a h1)
  · obtain ⟨a, h1, h2⟩ := ho hs
    rw [h2]
    rw [h1] at m4
    exact exprs_canC m4 fun e he => can_mini (h.exprs e (.inr (.inr (.inr ⟨a, h1, he⟩)))) (hw.exprs e (.inr (.inr (.inr ⟨a, h1, he⟩))))
  · obtain ⟨a, h1, h2⟩ := ho hs
    obtain ⟨i, rfl⟩ := h.randseed a h1
    rw [h2]; exact ⟨.inl rfl, by simp [Can, NumOk]⟩
  · obtain ⟨a, h1, h2⟩ := ho hs
    rw [h2]; exact ⟨.inl rfl, by simp only [Can]; exact hw.doc a h1⟩
  · obtain ⟨a, h1, h2⟩ := ho hs
    obtain ⟨i, rfl⟩ := h.version a h1
    rw [h2]; exact ⟨.inl rfl, by simp [Can, NumOk]⟩

/-- **A document that can be said, with words that can be written, is read from its text as it was.** -/
theorem document_means_partial {c : Config} (fresh : String) (h : SayDoc st c) (hw : WordDoc E c) : DReads E st fresh (docText E c) (.ok c) :=
  document_written_partial fresh h (doc_canC h hw)

/-! ## The samples meet the conditions -/

theorem words_step {e : X} (h : word E e) (hc : ∀ c, Child c e → Words E c) : Words E e := by
  intro x hx
  cases hx with
  | refl => exact h
  | step hx hy => exact hc _ hy x hx

theorem sample_words : Words sampleEnv sample := by
  have hm : WordT (.dict [("type", .str "map"), ("values", .str "int")]) := .map (.name (by decide +kernel))
  have hf : floatOk sampleEnv (.fin 2⁻¹) := by
    rw [show (2⁻¹ : ℚ) = 1 / 2 from by norm_num]; exact ⟨['0'], ['.', '5'], by decide +kernel, by decide, rfl⟩
  have nm : ∀ s ∈ ["x", "y", "z", "xs", "c", "p", "a.map", "u.f", "k", "l"], isName s = true := by decide +kernel
  unfold sample
  repeat' first
    | (rename_i h; cases h)
    | (refine words_step (by first | trivial | (simp [word, Vars, KeyOk, StrOk, unaries, binaries, isExpr, hm, hf, nm, PyDict.WF, PyDict.keys]; done)) ?_; intro c hc; cases hc)

theorem sampleDoc_words : WordDoc sampleEnv sampleDoc := by
  have ti : WordT (.str "int") := .name (by decide +kernel)
  have ts : WordT (.str "string") := .name (by decide +kernel)
  have nm : ∀ s ∈ ["x", "c", "p", "u.inc", "inc", "tally", "tallyOne", "tallyTwo"], isName s = true := by decide +kernel
  refine ⟨by decide +kernel, .array ti, ti, ?_, ?_, ?_, ?_, ?_, ?_, ?_, ?_⟩
  · intro e he
    simp only [sampleDoc, List.mem_cons, List.not_mem_nil, or_false, false_or, Option.some.injEq, exists_eq_left'] at he
    rcases he with rfl | (rfl | rfl) | rfl
    all_goals
      repeat' first
        | (rename_i h; cases h)
        | (refine words_step (by first | trivial | (simp [word, unaries, binaries, isExpr, nm]; done)) ?_; intro c hc; cases hc)
  · intro kv hkv
    simp only [sampleDoc, List.mem_singleton] at hkv
    subst hkv
    refine ⟨nm _ (by simp), ?_⟩
    repeat' first
      | (rename_i h; cases h)
      | (refine words_step (by first | trivial | (simp [word, unaries, binaries, isExpr, nm, KeyOk, ti]; done)) ?_; intro c hc; cases hc)
  · intro kv hkv
    simp only [sampleDoc, List.mem_singleton] at hkv
    subst hkv
    refine ⟨nm _ (by simp), ti, by unfold StrOk; decide +kernel, fun v hv => ?_⟩
    cases hv; exact .int _
  · intro kv hkv
    simp only [sampleDoc, List.mem_singleton] at hkv
    subst hkv
    refine ⟨nm _ (by simp), ts, by unfold StrOk; decide +kernel, .dict ?_ ?_⟩ <;> intro kv hkv <;> rw [List.mem_singleton.1 hkv]
    · exact .inr (by unfold StrOk; decide +kernel)
    · exact .str (by unfold StrOk; decide +kernel)
  · intro v hv; cases hv; exact .int _
  · intro s hs; cases hs; unfold StrOk; decide +kernel
  · intro kv hkv
    simp only [sampleDoc, List.mem_singleton] at hkv
    subst hkv
    exact ⟨.inr (by unfold StrOk; decide +kernel), by unfold StrOk; decide +kernel⟩
  · refine .dict ?_ ?_ <;> intro kv hkv <;> simp only [sampleDoc, List.mem_singleton] at hkv <;> subst hkv
    · exact .inr (by unfold StrOk; decide +kernel)
    · exact .int _

example : Reads sampleEnv sampleSt (textOf sampleEnv (minis [sample])) (.ok [sample]) :=
  text_means_partial (by simp) rfl (fun e he => by rw [List.mem_singleton.1 he]; exact sample_ok) (fun e he => by rw [List.mem_singleton.1 he]; exact sample_words)

example : DReads sampleEnv docSt "Engine_1" (docText sampleEnv sampleDoc) (.ok sampleDoc) := document_means_partial "Engine_1" sampleDoc_say sampleDoc_words

end Verif.Pretty
