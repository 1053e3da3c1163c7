import Verif.Inspector.Memory
/-! # Documents kept in memory by the inspector: theorems (C109) -/

namespace Verif.Inspector.Memory
open Avro

variable {C : Type}

/-! ## Facts about dicts -/

theorem set_set {ν : Type} (d : PyDict String ν) (k : String) (v w : ν) : PyDict.set (PyDict.set d k v) k w = PyDict.set d k w := by
  induction d with
  | nil => simp [PyDict.set]
  | cons kv d ih =>
    obtain ⟨k0, v0⟩ := kv
    by_cases h : k0 = k <;> simp [PyDict.set, h, ih]

theorem set_get {ν : Type} {d : PyDict String ν} {k : String} {v : ν} (h : PyDict.get? d k = some v) : PyDict.set d k v = d := by
  induction d with
  | nil => simp at h
  | cons kv d ih =>
    obtain ⟨k0, v0⟩ := kv
    by_cases h' : k0 = k
    · simp_all [PyDict.set, PyDict.get?]
    · simp [PyDict.set, PyDict.get?, h'] at h ⊢
      exact ih h

theorem del_set_new {ν : Type} {d : PyDict String ν} {k j : String} {v w : ν} (hkj : k ≠ j) (h : PyDict.get? d k = none)
    (hj : (PyDict.get? d j).isSome) : PyDict.del (PyDict.set (PyDict.set d k v) j w) k = PyDict.set d j w := by
  induction d with
  | nil => simp at hj
  | cons kv d ih =>
    obtain ⟨k0, v0⟩ := kv
    simp only [PyDict.get?_cons] at h hj
    by_cases h1 : k0 = k
    · simp [h1] at h
    · rw [if_neg h1] at h
      by_cases h2 : k0 = j
      · subst h2
        simp only [PyDict.set, if_neg h1, if_true, PyDict.del]
        congr 1
        clear ih hj
        induction d with
        | nil => simp [PyDict.set, PyDict.del]
        | cons kv d ih =>
          obtain ⟨k1, v1⟩ := kv
          simp only [PyDict.get?_cons] at h
          by_cases h3 : k1 = k
          · simp [h3] at h
          · rw [if_neg h3] at h
            simp [PyDict.set, PyDict.del, h3, ih h]
      · rw [if_neg h2] at hj
        simp [PyDict.set, PyDict.del, h1, h2, ih h hj]

/-! ## What each command does to the names

`doc st n` is the document that the name `n` stands for: the independent reading of the state. -/

/-- The document of a name. -/
def doc (st : St C) (n : String) : Option Val := (PyDict.get? st.mem n).map Slot.obj

/-- The JSON value in a file. -/
def held (st : St C) (p : String) : Option Val := (PyDict.get? st.disk p).join

theorem readFile_ok {e : Err} {st : St C} {p : String} {v : Val} : readFile e st.disk p = .ok v ↔ held st p = some v := by
  unfold readFile held
  rcases h : PyDict.get? st.disk p with _ | _ | w <;> simp

/-- `load p as n` succeeds exactly when the file holds JSON; then `n` stands for it, and nothing else has changed. -/
theorem load_spec (st : St C) (p n : String) :
    (∀ v, held st p = some v → ∃ st', load st [.file p, .word "as", .word n] = .ok st' ∧ doc st' n = some v ∧
      (∀ m, m ≠ n → PyDict.get? st'.mem m = PyDict.get? st.mem m) ∧ st'.disk = st.disk) ∧
    (held st p = none → ∃ e, load st [.file p, .word "as", .word n] = .error e) := by
  constructor
  · intro v h
    refine ⟨{ st with mem := PyDict.set st.mem n ⟨v, none⟩ }, ?_, by simp [doc], fun m hm => PyDict.get?_set_ne _ _ (Ne.symm hm), rfl⟩
    simp [load, Arg.path?, (readFile_ok (e := insp)).2 h]
  · intro h
    rcases hr : readFile insp st.disk p with e | v
    · exact ⟨e, by simp [load, Arg.path?, hr]⟩
    · rw [readFile_ok.1 hr] at h; simp at h

/-- `rename a as b` for two different names: `b` stands for the document of `a`, `a` for nothing, the others for what they stood for. -/
theorem rename_spec_partial {st : St C} (hw : PyDict.WF st.mem) {a b : String} (hab : a ≠ b) {s : Slot C} (ha : PyDict.get? st.mem a = some s) :
    ∃ st', rename st [.word a, .word "as", .word b] = .ok st' ∧ PyDict.get? st'.mem b = some s ∧ PyDict.get? st'.mem a = none ∧
      (∀ m, m ≠ a → m ≠ b → PyDict.get? st'.mem m = PyDict.get? st.mem m) ∧ st'.disk = st.disk := by
  have hw' : PyDict.WF (PyDict.set st.mem b s) := PyDict.set_nodup hw b s
  refine ⟨{ st with mem := PyDict.del (PyDict.set st.mem b s) a }, by simp [rename, ha], ?_, ?_, ?_, rfl⟩
  · simp [PyDict.get?_del hw', hab]
  · simp [PyDict.get?_del hw']
  · intro m h1 h2
    simp [PyDict.get?_del hw', Ne.symm h1, PyDict.get?_set_ne _ _ (Ne.symm h2)]

/-- `rename a as a` loses the document: no name stands for it any more. -/
theorem rename_same_violation {st : St C} (hw : PyDict.WF st.mem) {a : String} {s : Slot C} (ha : PyDict.get? st.mem a = some s) :
    ∃ st', rename st [.word a, .word "as", .word a] = .ok st' ∧ PyDict.get? st'.mem a = none := by
  refine ⟨{ st with mem := PyDict.del (PyDict.set st.mem a s) a }, by simp [rename, ha], ?_⟩
  simp [PyDict.get?_del (PyDict.set_nodup hw a s)]

/-- A name that is not in memory can be neither renamed, nor dropped, nor saved. -/
theorem unknown_name (env : Env C) {st : St C} {a : String} (ha : PyDict.get? st.mem a = none) (hh : a ≠ "help") (b : String) :
    rename st [.word a, .word "as", .word b] = .error insp ∧ drop st [.word a] = .error insp ∧
      save env st [.word a, .word "to", .file b] = .error insp := by
  refine ⟨by simp [rename, ha], ?_, by simp [save, Arg.path?, ha]⟩
  unfold drop
  split <;> simp_all

/-- `drop a` removes that name only. -/
theorem drop_spec {st : St C} (hw : PyDict.WF st.mem) {a : String} {s : Slot C} (ha : PyDict.get? st.mem a = some s) (hh : a ≠ "help") :
    ∃ st', drop st [.word a] = .ok st' ∧ PyDict.get? st'.mem a = none ∧ (∀ m, m ≠ a → PyDict.get? st'.mem m = PyDict.get? st.mem m) ∧
      st'.disk = st.disk := by
  refine ⟨{ st with mem := PyDict.del st.mem a }, ?_, ?_, ?_, rfl⟩
  · unfold drop
    split <;> simp_all
  · simp [PyDict.get?_del hw]
  · intro m hm
    simp [PyDict.get?_del hw, Ne.symm hm]

/-- A document called `help` cannot be dropped. -/
theorem drop_help_violation (st : St C) : drop st [.word "help"] = .ok st := by simp [drop]

/-- What was saved can be loaded again, under any name and after any commands that leave the file alone. -/
theorem save_load {env : Env C} {st : St C} {n p : String} {v : Val} (hn : doc st n = some v) (hp : env.writable p = true) (m : String) :
    ∃ st', save env st [.word n, .word "to", .file p] = .ok st' ∧ st'.mem = st.mem ∧ (∀ q, q ≠ p → held st' q = held st q) ∧
      ∀ st2 : St C, held st2 p = held st' p → ∃ st3, load st2 [.file p, .word "as", .word m] = .ok st3 ∧ doc st3 m = some v := by
  unfold doc at hn
  rcases hs : PyDict.get? st.mem n with _ | s
  · simp [hs] at hn
  · simp only [hs, Option.map_some, Option.some.injEq] at hn
    subst hn
    refine ⟨{ st with disk := PyDict.set st.disk p (some s.obj) }, by simp [save, Arg.path?, hs, hp], rfl, ?_, ?_⟩
    · intro q hq
      simp [held, PyDict.get?_set_ne _ _ (Ne.symm hq)]
    · intro st2 h2
      obtain ⟨st3, h3, h4, _⟩ := (load_spec st2 p m).1 s.obj (by rw [h2]; simp [held])
      exact ⟨st3, h3, h4⟩

/-- A file that cannot be written is an InspectorError. -/
theorem save_unwritable {env : Env C} {st : St C} {n p : String} (hp : env.writable p = false) :
    save env st [.word n, .word "to", .file p] = .error insp := by
  rcases hs : PyDict.get? st.mem n with _ | s <;> simp [save, Arg.path?, hs, hp]

/-! ## The option -/

/-- An argument that is no option. -/
def Arg.plain : Arg → Bool
  | .option _ _ => false
  | _ => true

theorem popOptions_plain : ∀ (r : List Arg), (∀ a ∈ r, a.plain = true) → ∀ cur, popOptions r cur = .ok (cur, r.reverse)
  | [], _, _ => rfl
  | .word _ :: _, _, _ => rfl
  | .file _ :: _, _, _ => rfl
  | .other :: _, _, _ => rfl
  | .option _ _ :: _, h, _ => by simpa [Arg.plain] using h _ (List.mem_cons_self ..)

theorem popOptions_cells {r : List Arg} (hr : ∀ a ∈ r, a.plain = true) : ∀ (vs : List Val) (cur : Val),
    popOptions (vs.map (fun v => Arg.option "cell" (some v)) ++ r) cur = .ok ((vs.getLast?).getD cur, r.reverse)
  | [], cur => by simpa using popOptions_plain r hr cur
  | v :: vs, cur => by
    simp only [List.map_cons, List.cons_append, popOptions, if_true]
    rw [popOptions_cells hr vs v]
    cases vs with
    | nil => simp
    | cons w ws => simp [List.getLast?_cons_cons, List.getLast?_eq_some_getLast (List.cons_ne_nil w ws)]

/-- `cell=` may be given several times at the end: the first one counts, and `true` when there is none. -/
theorem options_first {ws : List Arg} (hw : ∀ a ∈ ws, a.plain = true) (bs : List Bool) :
    options (ws ++ bs.map (fun b => Arg.option "cell" (some (.bool b)))) = .ok ((bs.head?).getD true, ws) := by
  have h := popOptions_cells (r := ws.reverse) (fun a ha => hw a (by simpa using ha)) (bs.reverse.map Val.bool) (.bool true)
  have e : (ws ++ bs.map (fun b => Arg.option "cell" (some (.bool b)))).reverse
      = (bs.reverse.map Val.bool).map (fun v => Arg.option "cell" (some v)) ++ ws.reverse := by
    simp [List.map_reverse, Function.comp_def]
  unfold options
  rw [e, h]
  rcases bs with _ | ⟨b, bs⟩ <;> simp

/-- Any other option is refused. -/
theorem options_other (ws : List Arg) {k : String} (hk : k ≠ "cell") (v : Option Val) : options (ws ++ [.option k v]) = .error insp := by
  simp [options, popOptions, hk]

/-- A value that is no boolean is refused. -/
theorem options_not_bool {ws : List Arg} (hw : ∀ a ∈ ws, a.plain = true) {v : Val} (hv : ∀ b, v ≠ .bool b) :
    options (ws ++ [.option "cell" (some v)]) = .error insp := by
  have h := popOptions_cells (r := ws.reverse) (fun a ha => hw a (by simpa using ha)) [v] (.bool true)
  simp only [List.map_cons, List.map_nil, List.singleton_append, List.getLast?_singleton, Option.getD_some, List.reverse_reverse] at h
  unfold options
  rw [List.reverse_append, List.reverse_singleton, List.singleton_append, h]
  cases v <;> simp_all

/-! ## Which part is meant -/

/-- The entry of a section, when it is there and is not null: stated on the JSON value. -/
def Entry (d : List (String × Val)) (sec name : String) (v : Val) : Prop :=
  ∃ e, PyDict.get? d sec = some (.dict e) ∧ PyDict.get? e name = some v ∧ v ≠ .null

theorem item_iff (d : List (String × Val)) (sec name : String) (v : Val) : item d sec name = some v ↔ Entry d sec name v := by
  unfold item Entry
  constructor
  · intro h
    split at h
    · next e he =>
      split at h
      · simp at h
      · next hn => exact ⟨e, he, h, fun hv => hn (hv ▸ h)⟩
    · simp at h
  · rintro ⟨e, he, h, hv⟩
    rw [he]
    simp only
    rw [h]
    split
    · next h' => simp at h'; exact absurd h' hv
    · rfl

/-- With `cell=true` the cell is meant, and the pool only when there is no such cell; with `cell=false` the other way round. -/
theorem choose_spec (cell : Bool) (d : List (String × Val)) (x sec : String) (v : Val) :
    choose cell d x = some (sec, v) ↔
      (sec = (if cell then "cells" else "pools") ∧ Entry d sec x v) ∨
      (sec = (if cell then "pools" else "cells") ∧ Entry d sec x v ∧ ∀ w, ¬ Entry d (if cell then "cells" else "pools") x w) := by
  unfold choose
  simp only
  rcases h1 : item d (if cell = true then "cells" else "pools") x with _ | v1
  · have hn : ∀ w, ¬ Entry d (if cell = true then "cells" else "pools") x w := fun w hw => by
      rw [(item_iff _ _ _ _).2 hw] at h1; simp at h1
    rcases h2 : item d (if cell = true then "pools" else "cells") x with _ | v2
    · simp only [reduceCtorEq, false_iff, not_or, not_and]
      refine ⟨fun hs he => hn _ (hs ▸ he), fun hs he => ?_⟩
      rw [hs, ← item_iff, h2] at he; simp at he
    · simp only [Option.some.injEq, Prod.mk.injEq]
      constructor
      · rintro ⟨rfl, rfl⟩
        exact .inr ⟨rfl, (item_iff _ _ _ _).1 h2, hn⟩
      · rintro (⟨rfl, he⟩ | ⟨rfl, he, _⟩)
        · exact absurd he (hn _)
        · rw [← item_iff, h2] at he
          exact ⟨rfl, by simpa using he⟩
  · simp only [Option.some.injEq, Prod.mk.injEq]
    constructor
    · rintro ⟨rfl, rfl⟩
      exact .inl ⟨rfl, (item_iff _ _ _ _).1 h1⟩
    · rintro (⟨rfl, he⟩ | ⟨_, _, hn⟩)
      · rw [← item_iff, h1] at he
        exact ⟨rfl, by simpa using he⟩
      · exact absurd ((item_iff _ _ _ _).1 h1) (hn _)

theorem put_entry {d : List (String × Val)} {sec x : String} {v w : Val} (h : Entry d sec x v) (hw : w ≠ .null) : Entry (put d sec x w) sec x w := by
  obtain ⟨e, he, _, _⟩ := h
  exact ⟨PyDict.set e x w, by simp [put, he], by simp, hw⟩

theorem put_entry_ne {d : List (String × Val)} {sec sec' x : String} {w u : Val} (hs : sec ≠ sec') (y : String) :
    Entry (put d sec x w) sec' y u ↔ Entry d sec' y u := by
  unfold Entry put
  split
  · simp [PyDict.get?_set_ne _ _ hs]
  · rfl

theorem put_other {d : List (String × Val)} {sec x : String} {w : Val} {k : String} (hk : k ≠ sec) : PyDict.get? (put d sec x w) k = PyDict.get? d k := by
  unfold put
  split
  · exact PyDict.get?_set_ne _ _ (Ne.symm hk)
  · rfl

theorem put_put {d : List (String × Val)} {sec x : String} {v w u : Val} (h : Entry d sec x v) : put (put d sec x w) sec x u = put d sec x u := by
  obtain ⟨e, he, _, _⟩ := h
  simp [put, he, set_set]

theorem put_same {d : List (String × Val)} {sec x : String} {v : Val} (h : Entry d sec x v) : put d sec x v = d := by
  obtain ⟨e, he, hx, _⟩ := h
  simp [put, he, set_get hx, set_get he]

theorem choose_entry {cell : Bool} {d : List (String × Val)} {x sec : String} {v : Val} (h : choose cell d x = some (sec, v)) : Entry d sec x v := by
  rcases (choose_spec cell d x sec v).1 h with ⟨_, h⟩ | ⟨_, h, _⟩ <;> exact h

/-- What was changed is what is found again. -/
theorem choose_put {cell : Bool} {d : List (String × Val)} {x sec : String} {v w : Val} (h : choose cell d x = some (sec, v)) (hw : w ≠ .null) :
    choose cell (put d sec x w) x = some (sec, w) := by
  have he := choose_entry h
  rcases (choose_spec cell d x sec v).1 h with ⟨hs, _⟩ | ⟨hs, _, hn⟩
  · exact (choose_spec ..).2 (.inl ⟨hs, put_entry he hw⟩)
  · refine (choose_spec ..).2 (.inr ⟨hs, put_entry he hw, fun u hu => hn u ?_⟩)
    refine (put_entry_ne ?_ x).1 hu
    subst hs
    cases cell <;> decide

/-! ## Externalize and internalize -/

theorem options_none {ws : List Arg} (hw : ∀ a ∈ ws, a.plain = true) : options ws = .ok (true, ws) := by
  simpa using options_first hw []

theorem externalize_words (env : Env C) (st : St C) (n x f : String) (bs : List Bool) :
    externalize env st ([.word n, .word x, .word f] ++ bs.map (fun b => Arg.option "cell" (some (.bool b)))) =
      match PyDict.get? st.mem n with
      | none => .error insp
      | some s => match extern ((bs.head?).getD true) x f s.obj with
        | .error e => .error e
        | .ok (obj, v) =>
          if env.writable f then .ok ⟨PyDict.set st.mem n { s with obj := obj }, PyDict.set st.disk f (some v)⟩ else .error (.py "OSError") := by
  have h := options_first (ws := [.word n, .word x, .word f]) (by simp [Arg.plain]) bs
  unfold externalize
  split
  · next e => simp at e
  · rw [h]
    rfl

theorem internalize_words (env : Env C) (st : St C) (n x : String) (bs : List Bool) :
    internalize env st ([.word n, .word x] ++ bs.map (fun b => Arg.option "cell" (some (.bool b)))) =
      match PyDict.get? st.mem n with
      | none => .error insp
      | some s => match intern (fetchInit env st.disk) ((bs.head?).getD true) x s.obj with
        | .error e => .error e
        | .ok obj => .ok { st with mem := PyDict.set st.mem n { s with obj := obj } } := by
  have h := options_first (ws := [.word n, .word x]) (by simp [Arg.plain]) bs
  unfold internalize
  split
  · next e => simp at e
  · rw [h]
    rfl

/-- An embedded part: it names no source, or the source `embedded`. -/
def Embedded (o : List (String × Val)) : Prop := PyDict.get? o "source" = none ∨ PyDict.get? o "source" = some (.str "embedded")

theorem sourceIs_embedded (o : List (String × Val)) : sourceIs o "embedded" = true ↔ Embedded o := by
  unfold sourceIs Embedded
  split <;> simp_all

theorem sourceIs_json (o : List (String × Val)) : sourceIs o "json" = true ↔ PyDict.get? o "source" = some (.str "json") := by
  unfold sourceIs
  split <;> simp_all

/-- What `externalize` leaves: the value is in the file, the part refers to it, and every other key of the part, every other part and every other
section is as it was. -/
theorem extern_spec {cell : Bool} {d : List (String × Val)} {x sec f : String} {o : List (String × Val)}
    (hc : choose cell d x = some (sec, .dict o)) (ho : Embedded o) :
    ∃ d' o', extern cell x f (.dict d) = .ok (.dict d', (PyDict.get? o "init").getD .null) ∧ Entry d' sec x (.dict o') ∧
      PyDict.get? o' "source" = some (.str "json") ∧ PyDict.get? o' "init" = some (.str f) ∧
      (∀ k, k ≠ "source" → k ≠ "init" → PyDict.get? o' k = PyDict.get? o k) ∧
      (∀ k, k ≠ sec → PyDict.get? d' k = PyDict.get? d k) ∧
      (∀ y, y ≠ x → ∀ v, Entry d' sec y v ↔ Entry d sec y v) := by
  refine ⟨_, PyDict.set (PyDict.set o "source" (.str "json")) "init" (.str f), by simp only [extern, hc, (sourceIs_embedded o).2 ho, if_true],
    put_entry (choose_entry hc) (by simp), ?_, by simp, ?_, fun k hk => put_other hk, ?_⟩
  · rw [PyDict.get?_set_ne _ _ (by decide)]; simp
  · intro k h1 h2
    rw [PyDict.get?_set_ne _ _ (Ne.symm h2), PyDict.get?_set_ne _ _ (Ne.symm h1)]
  · intro y hy v
    obtain ⟨e, he, _, _⟩ := choose_entry hc
    simp [Entry, put, he, PyDict.get?_set_ne _ _ (Ne.symm hy)]

/-- A part that is not embedded cannot be externalized, and one that is not in a JSON file cannot be internalized. -/
theorem wrong_source {cell : Bool} {d : List (String × Val)} {x sec : String} {o : List (String × Val)}
    (hc : choose cell d x = some (sec, .dict o)) (f : String) (get : String → Res Val) :
    (¬ Embedded o → extern cell x f (.dict d) = .error insp) ∧
    (PyDict.get? o "source" ≠ some (.str "json") → intern get cell x (.dict d) = .error insp) := by
  refine ⟨fun h => ?_, fun h => ?_⟩
  · have : sourceIs o "embedded" = false := by rw [← Bool.not_eq_true, sourceIs_embedded]; exact h
    simp [extern, hc, this]
  · have : sourceIs o "json" = false := by rw [← Bool.not_eq_true, sourceIs_json]; exact h
    simp [intern, hc, this]

/-- `externalize` followed by `internalize` restores every document exactly, also after other commands that leave the file and this document alone:
for a part with a value for `init` and no key `source`. -/
theorem externalize_internalize_partial {env : Env C} {st : St C} {n x f sec : String} {d o : List (String × Val)} {v : Val} {s : Slot C} (bs : List Bool)
    (hs : PyDict.get? st.mem n = some s) (hd : s.obj = .dict d) (hc : choose ((bs.head?).getD true) d x = some (sec, .dict o))
    (hsrc : PyDict.get? o "source" = none) (hi : PyDict.get? o "init" = some v) (hw : env.writable f = true) (hu : env.isUrl f = false) :
    ∃ st1, externalize env st ([.word n, .word x, .word f] ++ bs.map (fun b => Arg.option "cell" (some (.bool b)))) = .ok st1 ∧ held st1 f = some v ∧
      (∀ q, q ≠ f → held st1 q = held st q) ∧ (∀ m, m ≠ n → PyDict.get? st1.mem m = PyDict.get? st.mem m) ∧
      ∀ st2 : St C, PyDict.get? st2.mem n = PyDict.get? st1.mem n → held st2 f = held st1 f →
        ∃ st3, internalize env st2 ([.word n, .word x] ++ bs.map (fun b => Arg.option "cell" (some (.bool b)))) = .ok st3 ∧
          PyDict.get? st3.mem n = some s ∧ (∀ m, m ≠ n → PyDict.get? st3.mem m = PyDict.get? st2.mem m) ∧ st3.disk = st2.disk := by
  set o1 := PyDict.set (PyDict.set o "source" (.str "json")) "init" (.str f) with ho1
  have hE := choose_entry hc
  have hext : extern ((bs.head?).getD true) x f s.obj = .ok (.dict (put d sec x (.dict o1)), v) := by
    rw [hd]
    simp only [extern, hc, (sourceIs_embedded o).2 (.inl hsrc), if_true, hi, Option.getD_some]
    rfl
  refine ⟨⟨PyDict.set st.mem n { s with obj := .dict (put d sec x (.dict o1)) }, PyDict.set st.disk f (some v)⟩, ?_, by simp [held], ?_, ?_, ?_⟩
  · rw [externalize_words]
    simp [hs, hext, hw]
  · intro q hq
    simp [held, PyDict.get?_set_ne _ _ (Ne.symm hq)]
  · intro m hm
    exact PyDict.get?_set_ne _ _ (Ne.symm hm)
  · intro st2 h2 hf
    have h2' : PyDict.get? st2.mem n = some { s with obj := .dict (put d sec x (.dict o1)) } := by rw [h2]; simp
    have hf' : held st2 f = some v := by rw [hf]; simp [held]
    have hfetch : fetchInit env st2.disk f = .ok v := by
      simp only [fetchInit, hu]
      exact readFile_ok.2 hf'
    have hsrc1 : PyDict.get? o1 "source" = some (.str "json") := by
      rw [ho1, PyDict.get?_set_ne _ _ (by decide)]; simp
    have hinit1 : PyDict.get? o1 "init" = some (.str f) := by simp [ho1]
    have hback : PyDict.set (PyDict.del o1 "source") "init" v = o := by
      rw [ho1, del_set_new (by decide) hsrc (by simp [hi]), set_set, set_get hi]
    have hint : intern (fetchInit env st2.disk) ((bs.head?).getD true) x (.dict (put d sec x (.dict o1))) = .ok s.obj := by
      simp only [intern, choose_put hc (w := .dict o1) (by simp), (sourceIs_json o1).2 hsrc1, if_true, hinit1, hfetch, hback]
      rw [put_put hE, put_same hE, hd]
    refine ⟨{ st2 with mem := PyDict.set st2.mem n s }, ?_, by simp, fun m hm => PyDict.get?_set_ne _ _ (Ne.symm hm), rfl⟩
    rw [internalize_words]
    simp [h2', hint]

/-! ## The engine configuration that is shown -/

/-- What is remembered about a document is what `jsonToAst` says of it now. -/
def Fresh (env : Env C) (st : St C) : Prop := ∀ n s c, PyDict.get? st.mem n = some s → s.cfg = some c → env.parse s.obj = .ok c

/-- Then what is shown is what `jsonToAst` says, errors included. -/
theorem view_true {env : Env C} {st : St C} (hf : Fresh env st) {n : String} {v : Val} (hn : doc st n = some v) :
    (view env st n).map Prod.fst = env.parse v := by
  unfold doc at hn
  rcases hs : PyDict.get? st.mem n with _ | s
  · simp [hs] at hn
  · simp only [hs, Option.map_some, Option.some.injEq] at hn
    subst hn
    unfold view
    rw [hs]
    simp only
    rcases hc : s.cfg with _ | c
    · rcases hp : env.parse s.obj with e | c <;> simp [Except.map]
    · simp [Except.map, hf n s c hs hc]

/-- Looking at a document changes no document. -/
theorem view_doc {env : Env C} {st st' : St C} {n : String} {c : C} (h : view env st n = .ok (c, st')) (m : String) :
    doc st' m = doc st m ∧ st'.disk = st.disk := by
  unfold view at h
  split at h
  · simp at h
  · next s hs =>
    split at h
    · simp only [Except.ok.injEq, Prod.mk.injEq] at h
      rw [← h.2]; exact ⟨rfl, rfl⟩
    · split at h
      · simp only [Except.ok.injEq, Prod.mk.injEq] at h
        rw [← h.2]
        refine ⟨?_, rfl⟩
        by_cases hm : n = m
        · subst hm; simp [doc, hs]
        · simp [doc, PyDict.get?_set_ne _ _ hm]
      · simp at h

theorem fresh_set {env : Env C} {st : St C} (hf : Fresh env st) {n : String} {s : Slot C} (hs : ∀ c, s.cfg = some c → env.parse s.obj = .ok c)
    {disk : PyDict String (Option Val)} : Fresh env ⟨PyDict.set st.mem n s, disk⟩ := by
  intro m t c hm hc
  rw [PyDict.get?_set] at hm
  split at hm
  · simp only [Option.some.injEq] at hm
    subst hm
    exact hs c hc
  · exact hf m t c hm hc

theorem fresh_del {env : Env C} {st : St C} (hw : PyDict.WF st.mem) (hf : Fresh env st) {n : String} {disk : PyDict String (Option Val)} :
    Fresh env ⟨PyDict.del st.mem n, disk⟩ := by
  intro m t c hm hc
  rw [PyDict.get?_del hw] at hm
  split at hm
  · simp at hm
  · exact hf m t c hm hc

/-- The names in memory are distinct, whatever was typed. -/
theorem exec_wf {env : Env C} {st st' : St C} {c : Cmd} (hw : PyDict.WF st.mem) (h : exec env st c = .ok st') : PyDict.WF st'.mem := by
  cases c with
  | load a =>
    simp only [exec, load] at h
    split at h
    · simp at h; exact h ▸ hw
    · split at h
      · split at h
        · simp only [Except.ok.injEq] at h; rw [← h]; exact PyDict.set_nodup hw _ _
        · simp at h
      · simp at h
    · simp at h
  | rename a =>
    simp only [exec, rename] at h
    split at h
    · simp at h; exact h ▸ hw
    · split at h
      · simp at h
      · simp only [Except.ok.injEq] at h; rw [← h]; exact PyDict.del_nodup (PyDict.set_nodup hw _ _) _
    · simp at h
  | drop a =>
    simp only [exec, drop] at h
    split at h
    · simp at h; exact h ▸ hw
    · split at h
      · simp at h
      · simp only [Except.ok.injEq] at h; rw [← h]; exact PyDict.del_nodup hw _
    · simp at h
  | save a =>
    simp only [exec, save] at h
    split at h
    · simp at h; exact h ▸ hw
    · split at h
      · split at h
        · simp at h
        · split at h
          · simp only [Except.ok.injEq] at h; rw [← h]; exact hw
          · simp at h
      · simp at h
    · simp at h
  | externalize a =>
    simp only [exec, externalize] at h
    split at h
    · simp at h; exact h ▸ hw
    · split at h
      · simp at h
      · split at h
        · simp at h
        · split at h
          · simp at h
          · split at h
            · simp only [Except.ok.injEq] at h; rw [← h]; exact PyDict.set_nodup hw _ _
            · simp at h
      · simp at h
  | internalize a =>
    simp only [exec, internalize] at h
    split at h
    · simp at h; exact h ▸ hw
    · split at h
      · simp at h
      · split at h
        · simp at h
        · split at h
          · simp at h
          · simp only [Except.ok.injEq] at h; rw [← h]; exact PyDict.set_nodup hw _ _
      · simp at h
  | view n =>
    simp only [exec, view] at h
    split at h
    · next c' st1 hv =>
      simp only [Except.ok.injEq] at h
      subst h
      split at hv
      · simp at hv
      · split at hv
        · simp at hv; exact hv.2 ▸ hw
        · split at hv
          · simp only [Except.ok.injEq, Prod.mk.injEq] at hv; rw [← hv.2]; exact PyDict.set_nodup hw _ _
          · simp at hv
    · simp at h
  | change n v =>
    simp only [exec, change] at h
    split at h
    · simp at h
    · simp only [Except.ok.injEq] at h; rw [← h]; exact PyDict.set_nodup hw _ _

/-- The commands that change a document without forgetting what was remembered of it. -/
def Cmd.moves : Cmd → Bool
  | .externalize _ => true
  | .internalize _ => true
  | _ => false

theorem exec_fresh {env : Env C} {st st' : St C} {c : Cmd} (hw : PyDict.WF st.mem) (hf : Fresh env st) (hc : c.moves = false)
    (h : exec env st c = .ok st') : Fresh env st' := by
  cases c with
  | load a =>
    simp only [exec, load] at h
    split at h
    · simp at h; exact h ▸ hf
    · split at h
      · split at h
        · simp only [Except.ok.injEq] at h; rw [← h]; exact fresh_set hf (by simp)
        · simp at h
      · simp at h
    · simp at h
  | rename a =>
    simp only [exec, rename] at h
    split at h
    · simp at h; exact h ▸ hf
    · split at h
      · simp at h
      · next s hs =>
        simp only [Except.ok.injEq] at h; rw [← h]
        exact fresh_del (st := ⟨PyDict.set st.mem _ s, st.disk⟩) (PyDict.set_nodup hw _ _) (fresh_set hf (fun c hc => hf _ s c hs hc))
    · simp at h
  | drop a =>
    simp only [exec, drop] at h
    split at h
    · simp at h; exact h ▸ hf
    · split at h
      · simp at h
      · simp only [Except.ok.injEq] at h; rw [← h]; exact fresh_del hw hf
    · simp at h
  | save a =>
    simp only [exec, save] at h
    split at h
    · simp at h; exact h ▸ hf
    · split at h
      · split at h
        · simp at h
        · split at h
          · simp only [Except.ok.injEq] at h; rw [← h]; exact hf
          · simp at h
      · simp at h
    · simp at h
  | externalize a => simp [Cmd.moves] at hc
  | internalize a => simp [Cmd.moves] at hc
  | view n =>
    simp only [exec, view] at h
    split at h
    · next c' st1 hv =>
      simp only [Except.ok.injEq] at h
      subst h
      split at hv
      · simp at hv
      · split at hv
        · simp at hv; exact hv.2 ▸ hf
        · split at hv
          · next c0 hp =>
            simp only [Except.ok.injEq, Prod.mk.injEq] at hv; rw [← hv.2]
            exact fresh_set hf (fun c hc => by simp at hc; exact hc ▸ hp)
          · simp at hv
    · simp at h
  | change n v =>
    simp only [exec, change] at h
    split at h
    · simp at h
    · simp only [Except.ok.injEq] at h; rw [← h]; exact fresh_set hf (by simp)

theorem session_fresh {env : Env C} : ∀ (cs : List Cmd) (st : St C), PyDict.WF st.mem → Fresh env st → (∀ c ∈ cs, c.moves = false) →
    PyDict.WF (session env st cs).mem ∧ Fresh env (session env st cs)
  | [], _, hw, hf, _ => ⟨hw, hf⟩
  | c :: cs, st, hw, hf, hc => by
    simp only [session]
    rcases h : exec env st c with e | st'
    · exact session_fresh cs st hw hf (fun c h => hc c (List.mem_cons_of_mem _ h))
    · exact session_fresh cs st' (exec_wf hw h) (exec_fresh hw hf (hc c (List.mem_cons_self ..)) h) (fun c h => hc c (List.mem_cons_of_mem _ h))

/-- In a session that starts with nothing in memory and neither externalizes nor internalizes, what is shown of a document is what the document is. -/
theorem shown_current_partial {env : Env C} (disk : PyDict String (Option Val)) {cs : List Cmd} (hc : ∀ c ∈ cs, c.moves = false) {n : String} {v : Val}
    (hn : doc (session env ⟨[], disk⟩ cs) n = some v) : (view env (session env ⟨[], disk⟩ cs) n).map Prod.fst = env.parse v :=
  view_true (session_fresh cs ⟨[], disk⟩ List.nodup_nil (by intro n s c h; simp at h) hc).2 hn

/-- A document with one cell, held in a file. -/
def exDoc : Val := .dict [("name", .str "e"), ("cells", .dict [("c", .dict [("type", .str "int"), ("init", .int 3)])]),
  ("pools", .dict [("p", .dict [("type", .str "int"), ("source", .str "embedded"), ("init", .dict [("a", .int 1)])])])]

/-- An environment in which a configuration is the document itself. -/
def exEnv : Env Val := ⟨fun v => .ok v, fun _ => true, fun _ => false, fun _ => .error (.py "URLError")⟩

/-- The document looked at before it is externalized is shown as it was before. -/
def exLines : List Cmd := [.load [.file "/e.pfa", .word "as", .word "e"], .view "e", .externalize [.word "e", .word "c", .word "c.json"]]

/-- After `externalize`, what is shown is not what the document is. -/
theorem shown_stale_violation : ∃ v, doc (session exEnv ⟨[], [("/e.pfa", some exDoc)]⟩ exLines) "e" = some v ∧
    (view exEnv (session exEnv ⟨[], [("/e.pfa", some exDoc)]⟩ exLines) "e").map Prod.fst = .ok exDoc ∧ v ≠ exDoc := by
  refine ⟨_, rfl, rfl, ?_⟩
  intro h
  have h' := congrArg (fun v => match v with | .dict ((_, _) :: (_, .dict ((_, .dict o) :: _)) :: _) => o.length | _ => 0) h
  revert h'
  decide +kernel

/-- Non-vacuity of `externalize_internalize_partial` and of `choose_spec`: a cell, with the option given twice. -/
example : choose (([true, false].head?).getD true) [("cells", .dict [("c", .dict [("type", .str "int"), ("init", .int 3)])]), ("pools", .dict [("c", .str "x")])] "c"
    = some ("cells", .dict [("type", .str "int"), ("init", .int 3)]) := rfl

/-- Non-vacuity of `externalize_internalize_partial`: the cell of the document, with the file left alone in between. -/
example : ∃ st1, externalize exEnv ⟨[("e", ⟨exDoc, none⟩)], []⟩ [.word "e", .word "c", .word "c.json"] = .ok st1 ∧ held st1 "c.json" = some (.int 3) := by
  obtain ⟨st1, h1, h2, _⟩ := externalize_internalize_partial (env := exEnv) (st := ⟨[("e", ⟨exDoc, none⟩)], []⟩) (n := "e") (x := "c") (f := "c.json")
    (sec := "cells") [] rfl rfl rfl rfl rfl rfl rfl
  exact ⟨st1, h1, h2⟩

/-- Non-vacuity of `save_load`, `rename_spec_partial` and `drop_spec`. -/
example : doc (session exEnv ⟨[], [("/e.pfa", some exDoc)]⟩ [.load [.file "/e.pfa", .word "as", .word "e"], .rename [.word "e", .word "as", .word "f"],
    .save [.word "f", .word "to", .file "/f.pfa"], .drop [.word "f"], .load [.file "/f.pfa", .word "as", .word "g"]]) "g" = some exDoc := rfl

/-- A pool that says `embedded` loses that key. -/
theorem embedded_lost_violation :
    (match externalize exEnv ⟨[("e", ⟨exDoc, none⟩)], []⟩ [.word "e", .word "p", .word "p.json"] with
    | .ok st => match internalize exEnv st [.word "e", .word "p"] with
      | .ok st => doc st "e"
      | _ => none
    | _ => none) = some (.dict [("name", .str "e"), ("cells", .dict [("c", .dict [("type", .str "int"), ("init", .int 3)])]),
  ("pools", .dict [("p", .dict [("type", .str "int"), ("init", .dict [("a", .int 1)])])])]) := rfl

/-! ## The number of arguments -/

/-- A command with a lambda for `k` arguments, declared for exactly `k`: it runs on exactly `k` words, and fewer are an InspectorError. -/
theorem simple_run {k : Nat} {args : List Arg} (hh : ∀ s, args ≠ [.word s] ∨ s ≠ "help") {xs : List String} (hx : args.mapM Arg.path? = some xs) :
    (simple (some k) (some k) (some k) args = .ok (some xs) ↔ xs.length = k) ∧ (xs.length < k → simple (some k) (some k) (some k) args = .error insp) := by
  have e : simple (some k) (some k) (some k) args = if xs.length < k then .error insp else if xs.length ≠ k then .error (.py "TypeError") else .ok (some xs) := by
    unfold simple
    split
    · have := hh "help"; simp at this
    · rw [hx]
      by_cases h : xs.length < k <;> simp [h]
  rw [e]
  constructor
  · by_cases h : xs.length < k
    · simp [h]; omega
    · rw [if_neg h]
      by_cases h2 : xs.length = k <;> simp [h2]
  · intro h; simp [h]

/-- Too many arguments are never an InspectorError but a TypeError of Python: the second test compares the wrong way round. -/
theorem simple_many_violation {k : Nat} {args : List Arg} {xs : List String} (hx : args.mapM Arg.path? = some xs) (hk : k < xs.length)
    (hh : ∀ s, args ≠ [.word s] ∨ s ≠ "help") : simple (some k) (some k) (some k) args = .error (.py "TypeError") := by
  unfold simple
  split
  · have := hh "help"; simp at this
  · rw [hx]
    have h1 : ¬ xs.length < k := by omega
    have h2 : xs.length ≠ k := by omega
    simp [h1, h2]

/-- Non-vacuity: `cd a b`. -/
example : simple (some 1) (some 1) (some 1) [.word "a", .word "b"] = .error (.py "TypeError") :=
  simple_many_violation (xs := ["a", "b"]) rfl (by decide) (by simp)

end Verif.Inspector.Memory
