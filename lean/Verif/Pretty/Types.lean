import Verif.Pretty.Say

/-! # Types and JSON written in PrettyPFA are read back -/

namespace Verif.Pretty
open Avro Ast Reader

/-! ## Names with dots -/

theorem words_ne_nil (cs : List Char) : words cs ≠ [] := by
  cases cs with
  | nil => simp [words]
  | cons c cs =>
    unfold words
    split
    · simp
    · split <;> simp

theorem words_nodot {cs : List Char} (h : '.' ∉ cs) : words cs = [cs] := by
  induction cs with
  | nil => rfl
  | cons c cs ih =>
    simp only [List.mem_cons, not_or] at h
    unfold words
    rw [if_neg (fun e => h.1 e.symm), ih h.2]

theorem words_append (a b : List Char) (h : '.' ∉ b) : words (a ++ '.' :: b) = words a ++ [b] := by
  induction a with
  | nil => simp [words, words_nodot h]
  | cons c a ih =>
    rw [List.cons_append, words, words]
    split
    · rw [ih]; rfl
    · rw [ih]
      cases hw : words a with
      | nil => exact absurd hw (words_ne_nil a)
      | cons w ws => rfl

theorem join_words (cs : List Char) : join ((words cs).map String.ofList) = String.ofList cs := by
  induction cs with
  | nil => rfl
  | cons c cs ih =>
    rw [words]
    split
    · next h =>
      subst h
      cases hw : words cs with
      | nil => exact absurd hw (words_ne_nil cs)
      | cons w ws =>
        rw [hw] at ih
        simp only [List.map_cons] at ih ⊢
        rw [join, ih]
        · apply String.ext; simp
        · simp
    · cases hw : words cs with
      | nil => exact absurd hw (words_ne_nil cs)
      | cons w ws =>
        rw [hw] at ih
        simp only [List.map_cons] at ih ⊢
        cases ws with
        | nil =>
          simp only [List.map_nil, join] at ih ⊢
          have : w = cs := by simpa using congrArg String.toList ih
          rw [this]
        | cons v vs =>
          simp only [List.map_cons, join] at ih ⊢
          have := congrArg String.toList ih
          simp only [String.toList_append, String.toList_ofList] at this
          apply String.ext
          simp [← this]

theorem split_nodot {s : String} (h : NoDot s) : split s = (none, s) := by
  unfold split; rw [if_neg h]

theorem split_dot {ns name : String} (h : NoDot name) : split (ns ++ "." ++ name) = (some ns, name) := by
  have e : (ns ++ "." ++ name).toList = ns.toList ++ '.' :: name.toList := by simp
  unfold split pieces
  rw [e, if_pos (by simp), words_append _ _ h]
  simp [join_words]

theorem base_nodot {s : String} (h : NoDot s) : base s = s := by
  simp [base, pieces, words_nodot h]

theorem path_nodot {s : String} (h : NoDot s) : path s = [] := by
  simp [path, pieces, words_nodot h]

/-! ## Dictionaries -/

theorem foldl_set {α : Type} (l : List (String × α)) : ∀ d : List (String × α), PyDict.WF (d ++ l) →
    l.foldl (fun d kv => PyDict.set d kv.1 kv.2) d = d ++ l := by
  induction l with
  | nil => intro d _; simp
  | cons kv l ih =>
    intro d h
    have hs : PyDict.set d kv.1 kv.2 = d ++ [kv] := by
      have hk : kv.1 ∉ PyDict.keys d := by
        simp only [PyDict.WF, PyDict.keys, List.map_append, List.map_cons, List.nodup_append] at h
        intro hm
        exact h.2.2 _ hm _ (by simp) rfl
      clear h ih
      induction d with
      | nil => simp [PyDict.set]
      | cons x d ih =>
        simp only [PyDict.keys, List.map_cons, List.mem_cons, not_or] at hk
        rw [PyDict.set, if_neg (fun e => hk.1 e.symm), ih hk.2]; rfl
    rw [List.foldl_cons, hs, ih _ (by simpa using h)]
    simp

theorem asDict_wf {α : Type} {l : List (String × α)} (h : PyDict.WF l) : asDict l = l := by
  unfold asDict PyDict.update
  rw [foldl_set l [] (by simpa using h)]; rfl

/-! ## JSON -/

theorem json_back {v : Val} (h : GoodJ v) : asJson (jsonMini v) = .ok v := by
  induction h with
  | null => rfl
  | bool b => cases b <;> rfl
  | int i => rfl
  | flt f => rfl
  | str s => rfl
  | @arr xs _ ih =>
    have : jsonL (jsonMinis xs) = .ok xs := by
      induction xs with
      | nil => rfl
      | cons x xs ihx =>
        simp only [jsonMinis, jsonL, ih x (by simp), andThen, ihx (fun y hy => by rename_i a; exact a y (by simp [hy])) (fun y hy => ih y (by simp [hy]))]
    simp [jsonMini, asJson, this, andThen]
  | @dict d hd _ ih =>
    have : jsonB (pairMinis d) = .ok d := by
      clear hd
      induction d with
      | nil => rfl
      | cons kv d ihx =>
        obtain ⟨k, w⟩ := kv
        have h1 : asJson (jsonMini w) = .ok w := ih (k, w) (by simp)
        simp only [pairMinis, jsonB, h1, andThen, ihx (fun y hy => by rename_i a; exact a y (by simp [hy])) (fun y hy => ih y (by simp [hy]))]
    simp [jsonMini, asJson, this, andThen, asDict_wf hd]

/-! ## Types -/

section
variable {st : St}

theorem dotNames_sym (ss : List String) : dotNames (symMinis (ss.map .str)) = some ss := by
  induction ss with
  | nil => rfl
  | cons s ss ih => simp [symMinis, dotNames, ih]

theorem seq_ok {α β : Type} {f : β → Res α} {g : β → α} {l : List β} (h : ∀ b ∈ l, f b = .ok (g b)) : seq (l.map f) = .ok (l.map g) := by
  induction l with
  | nil => rfl
  | cons b l ih => simp [seq, h b (by simp), ih (fun x hx => h x (by simp [hx]))]

theorem typeL_eq (ms : List Mini) : typeL st ms = ms.map (asType st) := by
  induction ms with
  | nil => rfl
  | cons m ms ih => simp [typeL, ih]

theorem typeMinis_eq (ts : List Val) : typeMinis ts = ts.map typeMini := by
  induction ts with
  | nil => rfl
  | cons m ms ih => simp [typeMinis, ih]

theorem fields_back {fs : List (String × Val)} (h : ∀ f ∈ fs, asType st (typeMini f.2) = .ok f.2) :
    fieldL st (fieldMinis (fs.map fun f => .dict [("name", .str f.1), ("type", f.2)])) = .ok fs := by
  induction fs with
  | nil => rfl
  | cons f fs ih =>
    simp only [List.map_cons, fieldMinis, fieldL, h f (by simp), andThen, ih (fun x hx => h x (by simp [hx]))]

theorem fields_filter (fs : List (String × Val)) :
    (fieldMinis (fs.map fun f => .dict [("name", .str f.1), ("type", f.2)])).filter (fun m => !m.isParam) = [] := by
  induction fs with
  | nil => rfl
  | cons f fs ih =>
    simp only [List.map_cons, fieldMinis]
    rw [List.filter_cons_of_neg (by simp [Mini.isParam]), ih]

theorem get?_none {s : String} (h : s ∉ PyDict.keys st.aliases) : PyDict.get? st.aliases s = none := (PyDict.get?_eq_none_iff _ _).2 h

theorem typeMini_pair (a b k : String) (t : Val) : typeMini (.dict [(a, .str k), (b, t)]) = .call k [typeMini t] := by
  cases t <;> simp [typeMini]

/-- A type that can be written is read back. -/
theorem type_back {t : Val} (h : GoodT st t) : asType st (typeMini t) = .ok t := by
  induction h with
  | name h => simp [typeMini, asType, get?_none h]
  | array _ ih => simp [typeMini_pair, asType, callType, typeL, ih, andThen]
  | map _ ih => simp [typeMini_pair, asType, callType, typeL, ih, andThen]
  | @union ts h2 h ih =>
    have : seq (typeL st (typeMinis ts)) = .ok ts := by
      rw [typeL_eq, typeMinis_eq, List.map_map]
      have := seq_ok (f := asType st ∘ typeMini) (g := id) (l := ts) (fun t ht => ih t ht)
      simpa using this
    have hl : ¬ (typeL st (typeMinis ts)).length < 2 := by rw [typeL_eq, typeMinis_eq]; simpa using h2
    simp [typeMini, asType, callType, this, andThen, hl]
  | fixed hn hd => simp [typeMini, asType, callType, fixedType, split_nodot hd, withName, not_le.2 hn]
  | fixedNs hn hd => simp [typeMini, asType, callType, fixedType, split_dot hd, withName, not_le.2 hn]
  | enum hd => simp [typeMini, asType, callType, enumType, dotNames_sym, split_nodot hd, withName]
  | enumNs hd => simp [typeMini, asType, callType, enumType, dotNames_sym, split_dot hd, withName]
  | record hd h ih =>
    simp only [typeMini, asType, callType, recordType, fieldL, fields_back ih, andThen]
    rw [List.filter_cons_of_pos (by simp [Mini.isParam]), fields_filter]
    simp [nameOf, split_nodot hd, withName, andThen, field]
  | recordNs hd h ih =>
    simp only [typeMini, asType, callType, recordType, fieldL, fields_back ih, andThen]
    rw [List.filter_cons_of_pos (by simp [Mini.isParam]), fields_filter]
    simp [nameOf, split_dot hd, withName, andThen, field]

end
end Verif.Pretty
