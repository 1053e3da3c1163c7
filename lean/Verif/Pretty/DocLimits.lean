import Verif.Pretty.DocText
import Verif.Pretty.Order

/-!
# What holds of all PrettyPFA documents, and what goes wrong

The order of sections does not matter; the sections `input`, `output` and `action` are needed; aliases are seen after they are defined.  Headings after `\r\n` are refused,
and of two sections with one heading the later wins.
-/

namespace Verif.Pretty
open Avro Ast Reader Lr Pretty.Lex

variable {E : Lex.Env} {st : St} {fresh : String}

theorem given_eq {α : Type} {d d' : List (String × Content)} {k : String} {f : Content → Res α} (h : ∀ k, PyDict.get? d k = PyDict.get? d' k) : given d k f = given d' k f := by
  unfold given; rw [h]

/-- **The order of sections does not matter**, only what is found under each heading. -/
theorem document_order {d d' : List (String × Content)} (h : ∀ k, PyDict.get? d k = PyDict.get? d' k) : document st fresh d = document st fresh d' := by
  have hb : ∀ st n me i o cs ps, bodies st d n me i o cs ps = bodies st d' n me i o cs ps := by
    intro st n me i o cs ps
    unfold bodies
    simp only [given_eq h]
  unfold document
  simp only [given_eq h, hb]

theorem given_found {α : Type} {d : List (String × Content)} {k : String} {f : Content → Res α} {a : α} (h : given d k f = .ok (some a)) : ∃ c, PyDict.get? d k = some c ∧ f c = .ok a := by
  unfold given at h
  split at h
  · injection h with h; cases h
  · next c hc =>
    obtain ⟨b, h1, h2⟩ := then_inv h
    injection h2 with h2
    injection h2 with h2
    exact ⟨c, hc, h2 ▸ h1⟩

theorem given_missing {α : Type} {d : List (String × Content)} {k : String} {f : Content → Res α} (h : given d k f = .ok none) : PyDict.get? d k = none := by
  unfold given at h
  split at h
  · next hc => exact hc
  · obtain ⟨b, _, h2⟩ := then_inv h
    injection h2 with h2
    cases h2

theorem assemble_parts {p : Parts} {c : Config} (h : assemble p = .ok c) : p.name = some c.name ∧ p.method = c.method ∧ p.input = some c.input ∧ p.output = some c.output ∧
    p.begin_ = c.begin_ ∧ p.action = some c.action ∧ p.end_ = c.end_ ∧ p.fcns = c.fcns ∧ p.zero = c.zero ∧ p.merge = c.merge ∧ p.cells = c.cells ∧ p.pools = c.pools ∧
    p.randseed = c.randseed ∧ p.doc = c.doc ∧ p.version = c.version := by
  unfold assemble at h
  split at h
  · next h1 h2 h3 h4 h5 h6 =>
    unfold mkConfig at h
    split at h
    · injection h with h
      subst h
      exact ⟨h1, rfl, h2, h3, rfl, h4, rfl, rfl, rfl, rfl, rfl, rfl, rfl, rfl, rfl⟩
    · cases h
  · cases h

/-- **What a document becomes**: the three sections that are needed, the defaults of the others, and what their contents mean. -/
theorem document_parts {d : List (String × Content)} {c : Config} (h : document st fresh d = .ok c) :
    (PyDict.get? d "name" = none ∧ c.name = fresh ∨ ∃ k, PyDict.get? d "name" = some k ∧ nameAttr k = .ok (some c.name)) ∧
    (PyDict.get? d "method" = none ∧ c.method = "map" ∨ ∃ k, PyDict.get? d "method" = some k ∧ methodSec k = .ok c.method) ∧
    ∃ st', (PyDict.get? d "types" = none ∧ st' = st ∨ ∃ l, PyDict.get? d "types" = some (.list l) ∧ typesSec st l = .ok st') ∧
      (∃ k, PyDict.get? d "input" = some k ∧ typeSec st' k = .ok c.input) ∧ (∃ k, PyDict.get? d "output" = some k ∧ typeSec st' k = .ok c.output) ∧
      (PyDict.get? d "cells" = none ∧ c.cells = [] ∨ ∃ k, PyDict.get? d "cells" = some k ∧ cellsSec st' k = .ok c.cells) ∧
      (PyDict.get? d "pools" = none ∧ c.pools = [] ∨ ∃ k, PyDict.get? d "pools" = some k ∧ poolsSec st' k = .ok c.pools) ∧
      ∃ fs, (PyDict.get? d "fcns" = none ∧ fs = [] ∨ ∃ k, PyDict.get? d "fcns" = some k ∧ fcnNames k = .ok fs) ∧
        ∃ s, s = { st' with functionNames := st'.functionNames ++ fs, cellNames := PyDict.keys c.cells, poolNames := PyDict.keys c.pools } ∧
          (∃ k, PyDict.get? d "action" = some k ∧ exprsSec s k = .ok c.action) ∧
          (PyDict.get? d "begin" = none ∧ c.begin_ = [] ∨ ∃ k, PyDict.get? d "begin" = some k ∧ exprsSec s k = .ok c.begin_) ∧
          (PyDict.get? d "end" = none ∧ c.end_ = [] ∨ ∃ k, PyDict.get? d "end" = some k ∧ exprsSec s k = .ok c.end_) ∧
          (PyDict.get? d "fcns" = none ∧ c.fcns = [] ∨ ∃ k, PyDict.get? d "fcns" = some k ∧ fcnsSec s k = .ok c.fcns) ∧
          (PyDict.get? d "zero" = none ∧ c.zero = none ∨ ∃ k v, PyDict.get? d "zero" = some k ∧ jsonSec k = .ok v ∧ c.zero = some v) ∧
          (PyDict.get? d "merge" = none ∧ c.merge = none ∨ ∃ k v, PyDict.get? d "merge" = some k ∧ exprsSec s k = .ok v ∧ c.merge = some v) ∧
          (PyDict.get? d "randseed" = none ∧ c.randseed = none ∨ ∃ k v, PyDict.get? d "randseed" = some k ∧ intSec k = .ok v ∧ c.randseed = some v) ∧
          (PyDict.get? d "doc" = none ∧ c.doc = none ∨ ∃ k v, PyDict.get? d "doc" = some k ∧ textSec k = .ok v ∧ c.doc = some v) ∧
          (PyDict.get? d "version" = none ∧ c.version = none ∨ ∃ k v, PyDict.get? d "version" = some k ∧ intSec k = .ok v ∧ c.version = some v) := by
  have dflt : ∀ {α : Type} {k : String} {f : Content → Res α} {o : Option α} {a b : α}, given d k f = .ok o → o.getD b = a →
      (PyDict.get? d k = none ∧ a = b ∨ ∃ c, PyDict.get? d k = some c ∧ f c = .ok a) := by
    intro α k f o a b h1 h2
    cases o with
    | none => exact .inl ⟨given_missing h1, h2.symm⟩
    | some x => obtain ⟨c, h3, h4⟩ := given_found h1; exact .inr ⟨c, h3, h2 ▸ h4⟩
  have opt : ∀ {α : Type} {k : String} {f : Content → Res α} {o o' : Option α}, given d k f = .ok o → o = o' →
      (PyDict.get? d k = none ∧ o' = none ∨ ∃ c v, PyDict.get? d k = some c ∧ f c = .ok v ∧ o' = some v) := by
    intro α k f o o' h1 h2
    subst h2
    cases o with
    | none => exact .inl ⟨given_missing h1, rfl⟩
    | some x => obtain ⟨c, h3, h4⟩ := given_found h1; exact .inr ⟨c, x, h3, h4, rfl⟩
  have must : ∀ {α : Type} {k : String} {f : Content → Res α} {o : Option α} {a : α}, given d k f = .ok o → o = some a → ∃ c, PyDict.get? d k = some c ∧ f c = .ok a := by
    intro α k f o a h1 h2
    subst h2
    exact given_found h1
  unfold document at h
  obtain ⟨n, hn, h⟩ := then_inv h
  obtain ⟨me, hme, h⟩ := then_inv h
  obtain ⟨ty, hty, h⟩ := then_inv h
  obtain ⟨i, hi, h⟩ := then_inv h
  obtain ⟨o, ho, h⟩ := then_inv h
  obtain ⟨cs, hcs, h⟩ := then_inv h
  obtain ⟨ps, hps, h⟩ := then_inv h
  obtain ⟨fs, hfs, h⟩ := then_inv h
  unfold bodies at h
  obtain ⟨b, hb, h⟩ := then_inv h
  obtain ⟨a, ha, h⟩ := then_inv h
  obtain ⟨e, he, h⟩ := then_inv h
  obtain ⟨f, hf, h⟩ := then_inv h
  obtain ⟨z, hz, h⟩ := then_inv h
  obtain ⟨m, hm, h⟩ := then_inv h
  obtain ⟨r, hr, h⟩ := then_inv h
  obtain ⟨t, ht, h⟩ := then_inv h
  obtain ⟨v, hv, h⟩ := then_inv h
  obtain ⟨md, hmd, h⟩ := then_inv h
  obtain ⟨op, hop, h⟩ := then_inv h
  obtain ⟨g1, g2, g3, g4, g5, g6, g7, g8, g9, g10, g11, g12, g13, g14, g15⟩ := assemble_parts h
  simp only at g1 g2 g3 g4 g5 g6 g7 g8 g9 g10 g11 g12 g13 g14 g15
  refine ⟨?_, dflt hme g2, ty.getD st, ?_, must hi g3, must ho g4, dflt hcs g11, dflt hps g12, fs.getD [], dflt hfs rfl, inside (ty.getD st) fs cs ps, ?_, must ha g6, dflt hb g5,
    dflt he g7, dflt hf g8, opt hz g9, opt hm g10, opt hr g13, opt ht g14, opt hv g15⟩
  · rcases dflt hn g1 with ⟨h1, h2⟩ | h1
    · injection h2 with h2
      exact .inl ⟨h1, h2⟩
    · exact .inr h1
  · rcases dflt (b := st) hty rfl with h1 | ⟨k, h1, h2⟩
    · exact .inl h1
    · cases k with
      | one m => cases h2
      | list l => exact .inr ⟨l, h1, h2⟩
  · rw [← g11, ← g12]; rfl

/-! ## Names of types -/

/-- **The name of a type is seen after its definition.** -/
theorem alias_seen {a : String} {m : Mini} {t : Val} (h : asType st m = .ok t) :
    ∃ st', Obj.defType st (.mini (.assign [(a, m)] false)) = .ok st' ∧ asType st' (.dotName a) = .ok t ∧
      ∀ b, b ≠ a → asType st' (.dotName b) = asType st (.dotName b) := by
  refine ⟨withAlias st a t, ?_, ?_, ?_⟩
  · simp [Obj.defType, h, andThen]
  · simp [asType, withAlias, PyDict.get?_set_self]
  · intro b hb
    simp [asType, withAlias, PyDict.get?_set_ne _ _ (Ne.symm hb)]

/-- A type before its definition is a name that nobody has defined. -/
theorem alias_before_violation {a : String} {m : Mini} {b : String} (h : PyDict.get? st.aliases a = none) :
    ∃ st', Obj.defType st (.mini (.assign [(b, .dotName a)] false)) = .ok st' ∧
      asType (withAlias st' a (.str "int")) (.dotName b) = (if b = a then .ok (.str "int") else .ok (.str a)) := by
  refine ⟨withAlias st b (.str a), ?_, ?_⟩
  · simp [Obj.defType, asType, h, andThen]
  · by_cases hb : b = a
    · subst hb
      simp [asType, withAlias, PyDict.get?_set_self]
    · rw [if_neg hb]
      simp [asType, withAlias, PyDict.get?_set_ne _ _ (Ne.symm hb), PyDict.get?_set_self]

/-! ## What goes wrong -/

/-- A heading after `\r\n` keeps these characters, and is refused. -/
theorem crlf_heading_violation {n : List Char} (hn : n ≠ []) (h : ∀ c ∈ n, c.isLower = true) (rest : List Char) (c : Content) :
    headerAt ('\r' :: '\n' :: n ++ ':' :: rest) = some (headTok ('\r' :: '\n' :: n), 1, rest) ∧ mkSection (headTok ('\r' :: '\n' :: n)).str c = .error pretty := by
  constructor
  · cases n with
    | nil => exact absurd rfl hn
    | cons x n =>
      have hc := lower_notNl (h x (by simp))
      have h1 : ('\r' :: '\n' :: (x :: n) ++ ':' :: rest).takeWhile isNl = ['\r', '\n'] := by
        simp [isNl, hc.1, hc.2]
      have h2 : newlines ('\r' :: '\n' :: x :: (n ++ ':' :: rest)) = (1, x :: (n ++ ':' :: rest)) := by
        have h0 : newlines (x :: (n ++ ':' :: rest)) = (0, x :: (n ++ ':' :: rest)) := by
          cases hr : n ++ ':' :: rest <;> simp [newlines, hc.1, hc.2]
        simp [newlines, h0]
      have h3 := lexHead_written hn h rest
      unfold headerAt
      rw [h1]
      simp only [List.cons_append] at h2 h3 ⊢
      rw [h2, h3]
      simp
  · have hk : (headTok ('\r' :: '\n' :: n)).str ∉ headings := by
      intro hm
      have := (headings_lower _ hm).2 '\r' (by simp [headTok, Tok.str])
      revert this; decide
    rw [mkSection, if_neg hk]

/-- Any word of small letters with a colon at the beginning of a line is taken for a heading, and refused if it is none. -/
theorem word_heading_violation {n : String} (hn : n.toList ≠ []) (h : ∀ c ∈ n.toList, c.isLower = true) (hk : n ∉ headings) (rest : List Char) (c : Content) :
    headerAt ('\n' :: n.toList ++ ':' :: rest) = some (⟨.header, .str n, by decide⟩, 1, rest) ∧ mkSection n c = .error pretty := by
  refine ⟨?_, by rw [mkSection, if_neg hk]⟩
  rw [headerAt_written hn h]
  simp [headTok, String.ofList_toList]

/-- Of two sections with the same heading the later wins. -/
theorem later_section_violation {d : List (String × Content)} {n : String} (c : Content) :
    ∃ d', dsem st fresh .sectionsMore [.secs d, .sec n c] = .ok (.secs d') ∧ PyDict.get? d' n = some c ∧ ∀ k, k ≠ n → PyDict.get? d' k = PyDict.get? d k := by
  refine ⟨PyDict.update d [(n, c)], rfl, ?_, ?_⟩
  · simp [PyDict.update, PyDict.get?_set_self]
  · intro k hk
    simp [PyDict.update, PyDict.get?_set_ne _ _ (Ne.symm hk)]

/-- A name in quotes is an AttributeError. -/
theorem name_string_violation {d : List (String × Content)} {s : String} (h : PyDict.get? d "name" = some (.one (.string s))) : document st fresh d = .error noAttr := by
  unfold document
  have : given d "name" nameAttr = .error noAttr := by simp [given, h, nameAttr, andThen]
  rw [this]; rfl

/-- Cells, pools and functions that are no lists are a TypeError, as is an expression among the functions. -/
theorem no_list_violation (m : Mini) (l : List Obj) : cellsSec st (.one m) = .error badType ∧ poolsSec st (.one m) = .error badType ∧ fcnsSec st (.one m) = .error badType ∧
    fcnsSec st (.list (.mini m :: l)) = .error badType := ⟨rfl, rfl, rfl, rfl⟩

/-- The initial value of a cell is the JSON that is written, whatever the source is said to be. -/
theorem source_text_violation {n so : String} {t i : Mini} {t' v : Val} {sh ro : Bool} (ht : asType st t = .ok t') (hi : asJson i = .ok v) (hf : (sh && ro) = false) :
    Obj.asCell st (.cell n t i sh ro so) = .ok (n, ⟨t', .text v, sh, ro, so⟩) := by
  simp [Obj.asCell, ht, hi, andThen, mkCell, hf]

/-! ## A document that is written and read back -/

/-- A program that knows the function `+`. -/
def docSt : St := { functionNames := ["+"], cellNames := [], poolNames := [], aliases := [], ppfa := fun _ => .error pretty, pfa := fun _ => .error pretty, toFloat := fun _ => .error pretty }

/-- A folding engine with functions, cells and pools. -/
def sampleDoc : Config where
  name := "Counter"
  method := "fold"
  input := .dict [("type", .str "array"), ("items", .str "int")]
  output := .str "int"
  begin_ := [.cellTo "c" [] (.litInt (.int 0))]
  action := [.cellTo "c" [] (.fcnRef "u.inc"), .call "+" [.ref "tally", .call "u.inc" [.cellGet "c" []]]]
  end_ := []
  fcns := [("inc", .fcnDef [("x", .str "int")] (.str "int") [.call "+" [.ref "x", .litInt (.int 1)]])]
  zero := some (.int 0)
  merge := some [.call "+" [.ref "tallyOne", .ref "tallyTwo"]]
  cells := [("c", ⟨.str "int", .text (.int 7), false, true, "embedded"⟩)]
  pools := [("p", ⟨.str "string", [("a", .str "b")], true, false, "embedded"⟩)]
  randseed := some (.int 12345)
  doc := some "counts"
  version := none
  metadata := [("author", "nobody")]
  options := [("timeout", .int 1000)]

theorem say_step {e : X} (h1 : made e = true) (h2 : say (stOf docSt sampleDoc) e) (hc : ∀ c, Child c e → Say (stOf docSt sampleDoc) c) : Say (stOf docSt sampleDoc) e := by
  intro x hx
  cases hx with
  | refl => exact ⟨h1, h2⟩
  | step hx hy => exact hc _ hy x hx

theorem sampleDoc_say : SayDoc docSt sampleDoc := by
  have ti : GoodT docSt (.str "int") := .name (by simp [docSt, PyDict.keys])
  have ts : GoodT docSt (.str "string") := .name (by simp [docSt, PyDict.keys])
  have ti' : GoodT (stOf docSt sampleDoc) (.str "int") := .name (by simp [stOf, docSt, PyDict.keys])
  refine ⟨by decide +kernel, .array ti, ti, ?_, ⟨by decide +kernel, ?_⟩, ⟨by decide +kernel, ?_⟩, ⟨by decide +kernel, ?_⟩, ?_, ?_, ?_, by decide +kernel, ?_⟩
  · intro e he
    simp only [sampleDoc, List.mem_cons, List.not_mem_nil, or_false, false_or, Option.some.injEq, exists_eq_left'] at he
    rcases he with rfl | (rfl | rfl) | rfl
    all_goals
      repeat' first
        | (rename_i h; cases h)
        | (refine say_step (by decide +kernel) (by simp [say, stOf, sampleDoc, docSt, NoDot, valueNames, formNames, PyDict.WF, PyDict.keys]) ?_; intro c hc; cases hc)
  · intro kv hkv
    simp only [sampleDoc, List.mem_singleton] at hkv
    subst hkv
    repeat' first
      | (rename_i h; cases h)
      | (refine say_step (by decide +kernel) (by simp [say, stOf, sampleDoc, docSt, NoDot, valueNames, formNames, PyDict.WF, PyDict.keys]; try exact ti') ?_; intro c hc; cases hc)
  · intro kv hkv
    simp only [sampleDoc, List.mem_singleton] at hkv
    subst hkv
    exact ⟨ti, ⟨_, rfl, .int _⟩, rfl⟩
  · intro kv hkv
    simp only [sampleDoc, List.mem_singleton] at hkv
    subst hkv
    refine ⟨ts, .dict (by decide +kernel) ?_, rfl⟩
    intro kv hkv
    rw [List.mem_singleton.1 hkv]
    exact .str _
  · intro v hv; cases hv; exact .int _
  · intro v hv; cases hv; exact ⟨_, rfl⟩
  · intro v hv; cases hv
  · refine .dict (by decide +kernel) ?_
    intro kv hkv
    simp only [sampleDoc, List.mem_singleton] at hkv
    subst hkv
    exact .int _

theorem sampleDoc_sections : sections sampleDoc = [("name", .one (.dotName "Counter")), ("method", .one (.dotName "fold")), ("input", .one (.call "array" [.dotName "int"])),
    ("output", .one (.dotName "int")), ("begin", .list [.mini (.assign [("c", .number (.int 0))] false)]),
    ("action", .list [.mini (.to_ "c" [] false (.dotName "u.inc") none), .mini (.call "+" [.dotName "tally", .call "u.inc" [.dotName "c"]])]), ("end", .list []),
    ("fcns", .list [.fcn "inc" [("x", .dotName "int")] (.dotName "int") [.call "+" [.dotName "x", .number (.int 1)]]]),
    ("cells", .list [.cell "c" (.dotName "int") (.number (.int 7)) false true "embedded"]),
    ("pools", .list [.cell "p" (.dotName "string") (.block [.param "a" (.string "b")]) true false "embedded"]),
    ("metadata", .one (.block [.param "author" (.string "nobody")])), ("options", .one (.block [.param "timeout" (.number (.int 1000))])),
    ("zero", .one (.number (.int 0))), ("merge", .list [.mini (.call "+" [.dotName "tallyOne", .dotName "tallyTwo"])]),
    ("randseed", .one (.number (.int 12345))), ("doc", .one (.string "counts"))] := rfl

theorem sampleDoc_can : ∀ s ∈ sections sampleDoc, CanC sampleEnv s.2 := by
  rw [sampleDoc_sections]
  intro s hs
  simp only [List.mem_cons, List.not_mem_nil, or_false] at hs
  rcases hs with rfl | rfl | rfl | rfl | rfl | rfl | rfl | rfl | rfl | rfl | rfl | rfl | rfl | rfl | rfl | rfl
  all_goals
    simp only [CanC, CanObj, Can, Cans, CanN, CanP, CanO, NumOk, List.forall_mem_cons, List.forall_mem_nil, sameKind, and_true, true_and, true_or, forall_const]
  all_goals
    repeat' first
      | with_reducible refine And.intro ?_ ?_
      | decide +kernel
      | (refine .inl ?_; decide +kernel)
      | trivial
      | (intro m hm; cases hm; done)
      | (intro m hm; cases hm; decide +kernel)

/-- So the text of the document is read as the document. -/
example : DReads sampleEnv docSt "Engine_1" (docText sampleEnv sampleDoc) (.ok sampleDoc) := document_written_partial "Engine_1" sampleDoc_say sampleDoc_can

end Verif.Pretty
