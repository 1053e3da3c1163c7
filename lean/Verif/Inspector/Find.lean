import Verif.Inspector.Completed
import Verif.Inspector.Changed
import Verif.Producer.Search
import Verif.Inspector.Memory
/-! # Counting, indexing and finding matches in the inspector (C110)

Models the methods `action` of `CountCommand`, `IndexCommand` and `FindCommand` in `titus/inspector/jsongadget.py` 195-223, 262-305 and 348-433, with
`count`, `indexes` and `get` of `titus/producer/tools.py` (`Verif.Producer.Search`, `Verif.Producer.Access`), the patterns of
`Verif.Inspector.Pattern` and `extaction` of `titus/inspector/defs.py`.

Simplifications.  What `look` prints of a match is in `Verif.Producer.Look`; here a match is the value with its `inlineDepth`.  The lines printed
before an exception are left out.  `less` is not modelled. -/

namespace Verif.Inspector
open Avro Producer

/-! ## Model -/

/-- One hexadecimal digit. -/
def hexDigit (n : Nat) : Char := "0123456789abcdef".toList.getD (n % 16) '0'

/-- `\uXXXX` -/
def unicode (n : Nat) : List Char := ['\\', 'u', hexDigit (n / 4096), hexDigit (n / 256), hexDigit (n / 16), hexDigit n]

/-- One character in `json.dumps` of a string (`ensure_ascii`). -/
def escape (c : Char) : List Char :=
  if c = '"' then ['\\', '"']
  else if c = '\\' then ['\\', '\\']
  else if c = '\n' then ['\\', 'n']
  else if c = '\r' then ['\\', 'r']
  else if c = '\t' then ['\\', 't']
  else if c.toNat = 8 then ['\\', 'b']
  else if c.toNat = 12 then ['\\', 'f']
  else if 32 ≤ c.toNat ∧ c.toNat ≤ 126 then [c]
  else if c.toNat < 65536 then unicode c.toNat
  else unicode (55296 + (c.toNat - 65536) / 1024) ++ unicode (56320 + (c.toNat - 65536) % 1024)

/-- `json.dumps(i)` of a string. -/
def dumpKey (k : List Char) : List Char := '"' :: (k.flatMap escape ++ ['"'])

/-- `display`, 290-297 and 393-400. -/
def display : Ix → List Char
  | .key k => if ' ' ∈ k.toList then dumpKey k.toList else k.toList
  | .pos i => Lib.Num.fmt 10 i

/-- `", ".join(display(i) for i in index) + "]"` -/
def bracketed : List Ix → List Char
  | [] => [']']
  | [i] => display i ++ [']']
  | i :: is => display i ++ [',', ' '] ++ bracketed is

/-- `json count <name>[…] <pattern>`, 195-223: the number that is printed. -/
def countIn (items : List Ix) (pat : Src) (doc : Val) : Res Nat := match extaction doc items with
  | .error e => .error e
  | .ok node => match regex (parse pat) with
    | .error e => .error e
    | .ok p => count p node

/-- `json index <name>[…] <pattern>`, 262-305: the lines after the first one. -/
def indexIn (items : List Ix) (pat : Src) (doc : Val) : Res (List (List Char)) := match extaction doc items with
  | .error e => .error e
  | .ok node => match regex (parse pat) with
    | .error e => .error e
    | .ok p => match indexes p node with
      | .error e => .error e
      | .ok [] => .ok ["    (none)".toList]
      | .ok is => .ok (is.map fun i => "    [".toList ++ bracketed i)

/-- The `inlineDepth` for `look`; `none` for `json.dumps`: 409-416. -/
def inlineDepth (v : Val) : Option Nat :=
  if !depthGreaterThan v 0 then none
  else if !depthGreaterThan v 1 then some 0
  else if !depthGreaterThan v 2 then some 1
  else some 2

/-- The loop of `json find`, 404-419: the heading of each match, the match and how it is shown. -/
def findAll (node : Val) : List (List Ix) → Res (List (List Char × Val × Option Nat))
  | [] => .ok []
  | i :: is => match get node i with
    | .error e => .error e
    | .ok m => match findAll node is with
      | .error e => .error e
      | .ok r => .ok (("At index [".toList ++ bracketed i ++ [':'], m, inlineDepth m) :: r)

/-- `json find <name>[…] <pattern>`, 376-420. -/
def findIn (items : List Ix) (pat : Src) (doc : Val) : Res (List (List Char × Val × Option Nat)) := match extaction doc items with
  | .error e => .error e
  | .ok node => match regex (parse pat) with
    | .error e => .error e
    | .ok p => match indexes p node with
      | .error e => .error e
      | .ok is => findAll node is

/-- The options of `json find`, 355-364, from the last to the first: `maxDepth` and `indexWidth`. -/
def findOptions : List (String × Option Val) → Val × Val → Res (Val × Val)
  | [], o => .ok o
  | (k, v) :: r, o =>
    if k = "maxDepth" then match v with
      | some v => findOptions r (v, o.2)
      | none => .error (.py "InspectorError")
    else if k = "indexWidth" then match v with
      | some v => findOptions r (o.1, v)
      | none => .error (.py "InspectorError")
    else .error indexErr

/-- `isinstance(x, int) and x > 0`; a boolean is an int. -/
def positive : Val → Option Int
  | .int i => if 0 < i then some i else none
  | .bool true => some 1
  | _ => none

/-- The options checked, 366-370. -/
def findLimits (opts : List (String × Option Val)) : Res (Int × Int) := match findOptions opts.reverse (.int 3, .int 30) with
  | .error e => .error e
  | .ok (m, w) => match positive m with
    | none => .error (.py "InspectorError")
    | some m => match positive w with
      | none => .error (.py "InspectorError")
      | some w => .ok (m, w)

/-! ## What is printed can be typed -/

/-- A key that is printed as it is read: a word, or text with a blank, of printable ASCII characters other than quotation marks and backslashes. -/
def Printed (k : String) : Prop := (∃ c cs, k.toList = c :: cs ∧ c.isAlpha = true ∧ ∀ x ∈ cs, wordChar x = true) ∨
  (' ' ∈ k.toList ∧ ∀ x ∈ k.toList, x ≠ '"' ∧ x ≠ '\\' ∧ 32 ≤ x.toNat ∧ x.toNat ≤ 126)

theorem escape_plain {c : Char} (h1 : c ≠ '"') (h2 : c ≠ '\\') (h3 : 32 ≤ c.toNat) (h4 : c.toNat ≤ 126) : escape c = [c] := by
  have e1 : c ≠ '\n' := by rintro rfl; revert h3; decide
  have e2 : c ≠ '\r' := by rintro rfl; revert h3; decide
  have e3 : c ≠ '\t' := by rintro rfl; revert h3; decide
  have e4 : c.toNat ≠ 8 := by omega
  have e5 : c.toNat ≠ 12 := by omega
  simp [escape, h1, h2, e1, e2, e3, e4, e5, h3, h4]

theorem dumpKey_plain {k : List Char} (h : ∀ x ∈ k, x ≠ '"' ∧ x ≠ '\\' ∧ 32 ≤ x.toNat ∧ x.toNat ≤ 126) : dumpKey k = '"' :: k ++ ['"'] := by
  have : k.flatMap escape = k := by
    induction k with
    | nil => rfl
    | cons c k ih =>
      obtain ⟨a, b, d, e⟩ := h c (by simp)
      rw [List.flatMap_cons, escape_plain a b d e, ih fun x hx => h x (by simp [hx])]
      rfl
  simp [dumpKey, this]

theorem Printed.spec {k : String} (h : Printed k) : Plain k ∧ '\\' ∉ k.toList ∧ display (.key k) = quote k.toList := by
  rcases h with ⟨c, cs, hk, hc, hcs⟩ | ⟨hb, hx⟩
  · have hall : ∀ x ∈ k.toList, wordChar x = true := by
      intro x hx
      rw [hk] at hx
      rcases List.mem_cons.1 hx with rfl | hx
      · exact alpha_word hc
      · exact hcs x hx
    have hs : ' ' ∉ k.toList := fun h => by have := hall _ h; revert this; decide
    refine ⟨.inl ⟨c, cs, hk, hc, hcs⟩, fun h => by have := hall _ h; revert this; decide, ?_⟩
    simp [display, quote, hs]
  · refine ⟨.inr ⟨hb, fun x h => ?_⟩, fun h => (hx _ h).2.1 rfl, ?_⟩
    · obtain ⟨a, b, d, _⟩ := hx x h
      exact ⟨a, b, by rintro rfl; revert d; decide, by rintro rfl; revert d; decide⟩
    · simp [display, quote, hb, dumpKey_plain hx]

/-- An index as `json index` prints them. -/
def PrintedIx : Ix → Prop
  | .key k => Printed k
  | .pos i => 0 ≤ i

theorem display_read {i : Ix} (h : PrintedIx i) {t : List Char} (ht : Ends t) : index1 (display i ++ t) = some (i, t) := by
  cases i with
  | key k =>
    obtain ⟨h1, h2, h3⟩ := Printed.spec h
    rw [h3]
    exact (key_read_iff h2 ht).2 h1
  | pos i =>
    obtain ⟨n, rfl⟩ := Int.eq_ofNat_of_zero_le h
    have hq : quote (padded 0 n) = display (.pos n) := by
      have hp : padded 0 n = Lib.Num.fmt 10 n := by simp [padded]
      have hs : ' ' ∉ padded 0 n := fun hm => by have := (padded_digits 0 n).1 _ hm; revert this; decide
      rw [quote, if_neg hs, hp]
      rfl
    have := pos_read 0 n ht
    rw [hq] at this
    exact this

/-- A printed index of at least one part is read as itself, and it is closed. -/
theorem bracketed_read : ∀ {is : List Ix}, is ≠ [] → (∀ i ∈ is, PrintedIx i) → readIndexes is.length (bracketed is) = some (is, true)
  | [], h, _ => absurd rfl h
  | [i], _, h => by
    have h1 := display_read (h i (by simp)) (t := [']']) ⟨_, _, rfl, .inr rfl⟩
    simp only [bracketed, List.length_singleton, readIndexes]
    rw [index1_blank h1, h1]
    simp [skipBlanks]
  | i :: j :: is, _, h => by
    have h1 := display_read (h i (by simp)) (t := ',' :: ' ' :: bracketed (j :: is)) ⟨_, _, rfl, .inl rfl⟩
    have hb := bracketed_read (is := j :: is) (by simp) (fun x hx => h x (List.mem_cons_of_mem _ hx))
    have hsk : readIndexes (j :: is).length (' ' :: bracketed (j :: is)) = readIndexes (j :: is).length (bracketed (j :: is)) := by
      simp [readIndexes, skipBlanks]
    have hne : (skipBlanks (' ' :: bracketed (j :: is))).isEmpty = false := by
      cases hx : skipBlanks (' ' :: bracketed (j :: is)) with
      | cons => rfl
      | nil =>
        have hx' : skipBlanks (bracketed (j :: is)) = [] := by simpa [skipBlanks] using hx
        simp [readIndexes, hx', index1] at hb
    have e : bracketed (i :: j :: is) = display i ++ (',' :: ' ' :: bracketed (j :: is)) := by simp [bracketed]
    rw [e]
    rw [show (i :: j :: is).length = (j :: is).length + 1 from rfl]
    rw [readIndexes, index1_blank h1, h1]
    have : skipBlanks (',' :: ' ' :: bracketed (j :: is)) = ',' :: ' ' :: bracketed (j :: is) := rfl
    simp only [this, hne, Bool.false_eq_true, if_false]
    rw [hsk, hb]

/-! ## What is counted, listed and found -/

theorem extaction_sub {v w : Val} {js : List Ix} (ht : Tidy v) (h : Sub v js w) : extaction v js = .ok w := by
  induction h with
  | here => rfl
  | key hm _ ih => rw [extaction, step_key ht hm]; exact ih (ht.key hm)
  | pos hm _ ih => rw [extaction, step_pos hm]; exact ih (ht.pos hm)

theorem extaction_append : ∀ (items : List Ix) {v node : Val} (is : List Ix), extaction v items = .ok node → extaction v (items ++ is) = extaction node is
  | [], _, _, _, h => by simp [extaction] at h; simp [h]
  | i :: items, v, node, is, h => by
    rw [extaction] at h
    cases hs : step v i with
    | error e => rw [hs] at h; cases h
    | ok w =>
      rw [hs] at h
      rw [List.cons_append, extaction, hs]
      exact extaction_append items is h

/-- Every key in the document is printed as it is read. -/
def AllPrinted (v : Val) : Prop := ∀ js d, Sub v js (.dict d) → ∀ k ∈ PyDict.keys d, Printed k

theorem sub_printed {v w : Val} {js : List Ix} (h : Sub v js w) (hp : AllPrinted v) : ∀ i ∈ js, PrintedIx i := by
  induction h with
  | here => simp
  | @key d k c w js hm _ ih =>
    intro i hi
    rcases List.mem_cons.1 hi with rfl | hi
    · exact hp [] d (.here _) k (List.mem_map.2 ⟨_, hm, rfl⟩)
    · exact ih (fun js d' hs => hp (.key k :: js) d' (.key hm hs)) i hi
  | @pos xs n c w js hm _ ih =>
    intro i hi
    rcases List.mem_cons.1 hi with rfl | hi
    · exact Int.natCast_nonneg n
    · exact ih (fun js d' hs => hp (.pos n :: js) d' (.pos hm hs)) i hi

theorem findAll_map {node : Val} (ht : Tidy node) : ∀ {is : List (List Ix)}, (∀ js ∈ is, ∃ w, Sub node js w) →
    ∃ r, findAll node is = .ok r ∧ r.length = is.length ∧ ∀ (n : Nat) (js : List Ix), is[n]? = some js → ∃ w, Sub node js w ∧
      r[n]? = some ("At index [".toList ++ bracketed js ++ [':'], w, inlineDepth w)
  | [], _ => ⟨[], rfl, rfl, by simp⟩
  | js :: is, h => by
    obtain ⟨w, hw⟩ := h js (by simp)
    obtain ⟨r, h1, h2, h3⟩ := findAll_map ht (is := is) (fun x hx => h x (List.mem_cons_of_mem _ hx))
    refine ⟨_, by simp only [findAll, get_sub ht hw, h1]; rfl, by simp [h2], ?_⟩
    intro n ks hn
    cases n with
    | zero => simp at hn; subst hn; exact ⟨w, hw, by simp⟩
    | succ n => simp at hn; simpa using h3 n ks hn

/-- **The three commands agree.**  There is one list of places: those in the part that is named that match the pattern, each once, in order.  `json count`
prints its length, `json index` a line for each place, and `json find` each place with what is there. -/
theorem commands_agree {items : List Ix} {pat : Src} {doc node : Val} {p : Pat} (hn : extaction doc items = .ok node) (hp : regex (parse pat) = .ok p)
    (hs : p.sane = true) (ht : Tidy node) :
    ∃ is : List (List Ix), is.Nodup ∧ is.Pairwise Before ∧ (∀ js, js ∈ is ↔ ∃ w m, Sub node js w ∧ getmatch p w = .ok (some m)) ∧
      countIn items pat doc = .ok is.length ∧
      (is ≠ [] → indexIn items pat doc = .ok (is.map fun i => "    [".toList ++ bracketed i)) ∧
      (is = [] → indexIn items pat doc = .ok ["    (none)".toList]) ∧
      ∃ r, findIn items pat doc = .ok r ∧ r.length = is.length ∧ ∀ (n : Nat) (js : List Ix), is[n]? = some js → ∃ w, Sub node js w ∧
        r[n]? = some ("At index [".toList ++ bracketed js ++ [':'], w, inlineDepth w) := by
  obtain ⟨is, h1, h2, h3, h4, h5⟩ := indexes_spec hs ht
  obtain ⟨r, r1, r2, r3⟩ := findAll_map ht (is := is) (fun js hj => by obtain ⟨w, _, hw, _⟩ := (h5 js).1 hj; exact ⟨w, hw⟩)
  refine ⟨is, h2, h3, h5, by simp only [countIn, hn, hp, h4], fun hne => ?_, fun he => ?_, r, by simp only [findIn, hn, hp, h1, r1], r2, r3⟩
  · simp only [indexIn, hn, hp, h1]
  · subst he
    simp only [indexIn, hn, hp, h1]

/-- **What is printed leads to the match.**  The index of a match inside the document, typed after what was typed for the part, gives the match; and the text
between the brackets that is printed is read as this index. -/
theorem printed_leads_partial {items js : List Ix} {doc node w : Val} (hn : extaction doc items = .ok node) (ht : Tidy node) (hp : AllPrinted node)
    (hs : Sub node js w) (hne : js ≠ []) : readIndexes js.length (bracketed js) = some (js, true) ∧ extaction doc (items ++ js) = .ok w :=
  ⟨bracketed_read hne (sub_printed hs hp), by rw [extaction_append items js hn]; exact extaction_sub ht hs⟩

/-- A match of the whole is printed as `[]`, which cannot be typed. -/
theorem whole_index_violation (n : Nat) : bracketed [] = [']'] ∧ readIndexes n (bracketed []) = none := by
  refine ⟨rfl, ?_⟩
  cases n <;> rfl

/-- A key that is a number is printed as the number and read as a position: `a["0"]` and `a[0]` are printed alike. -/
theorem number_index_violation : display (.key "0") = display (.pos 0) ∧ readIndexes 1 (bracketed [.key "0"]) = some ([.pos 0], true) := by decide +kernel

/-- How deep a match is decides how it is shown. -/
theorem inlineDepth_spec (v : Val) : inlineDepth v = if depth v ≤ 0 then none else if depth v ≤ 1 then some 0 else if depth v ≤ 2 then some 1 else some 2 := by
  have h (t : Int) : (!depthGreaterThan v t) = true ↔ depth v ≤ t := by
    rw [Bool.not_eq_true', ← Bool.not_eq_true, depthGreaterThan_spec]; omega
  have h0 := h 0
  have h1 := h 1
  have h2 := h 2
  unfold inlineDepth
  simp only [h0, h1, h2]
  norm_cast

/-! ## The options of find -/

/-- An option that does not exist is an IndexError, not an InspectorError: the message asks for an argument that is not given. -/
theorem find_option_violation (opts : List (String × Option Val)) {k : String} (h1 : k ≠ "maxDepth") (h2 : k ≠ "indexWidth") (v : Option Val) :
    findLimits (opts ++ [(k, v)]) = .error indexErr := by
  simp [findLimits, findOptions, h1, h2]

/-- The values that are accepted: positive integers, and `true` as 1. -/
theorem positive_iff (v : Val) (i : Int) : positive v = some i ↔ 0 < i ∧ (v = .int i ∨ v = .bool true ∧ i = 1) := by
  unfold positive
  split
  · next j =>
    by_cases h : 0 < j
    · simp only [h, if_true, Option.some.injEq, Val.int.injEq, reduceCtorEq, false_and, or_false]
      constructor
      · rintro rfl; exact ⟨h, rfl⟩
      · exact fun h => h.2
    · simp only [h, if_false, reduceCtorEq, Val.int.injEq, false_and, or_false, false_iff, not_and]
      rintro h1 rfl
      exact h h1
  · simp only [Option.some.injEq, reduceCtorEq, false_or, true_and]
    constructor
    · rintro rfl; exact ⟨by decide, rfl⟩
    · exact fun h => h.2.symm
  · next h1 h2 =>
    simp only [reduceCtorEq, false_iff, not_and, not_or]
    exact fun _ => ⟨fun h => h1 _ h, fun h => absurd h h2⟩

theorem findOptions_last : ∀ (r : List (String × Option Val)) (o : Val × Val), (∀ kv ∈ r, (kv.1 = "maxDepth" ∨ kv.1 = "indexWidth") ∧ kv.2.isSome) →
    ∃ m w, findOptions r o = .ok (m, w) ∧
      some m = ((r.reverse.find? fun kv => kv.1 = "maxDepth").map (·.2)).getD (some o.1) ∧
      some w = ((r.reverse.find? fun kv => kv.1 = "indexWidth").map (·.2)).getD (some o.2)
  | [], o, _ => ⟨o.1, o.2, rfl, rfl, rfl⟩
  | (k, v) :: r, o, h => by
    obtain ⟨hk, hv⟩ := h (k, v) (by simp)
    obtain ⟨v, rfl⟩ := Option.isSome_iff_exists.1 hv
    have hr : ∀ kv ∈ r, (kv.1 = "maxDepth" ∨ kv.1 = "indexWidth") ∧ kv.2.isSome := fun x hx => h x (List.mem_cons_of_mem _ hx)
    simp only at hk
    rcases hk with rfl | rfl
    · obtain ⟨m, w, e, hm, hw⟩ := findOptions_last r (v, o.2) hr
      refine ⟨m, w, by simpa [findOptions] using e, ?_, ?_⟩
      · rw [hm]
        cases hf : r.reverse.find? (fun kv => decide (kv.1 = "maxDepth")) <;> simp [List.find?_append, hf]
      · rw [hw]
        cases hf : r.reverse.find? (fun kv => decide (kv.1 = "indexWidth")) <;> simp [List.find?_append, hf]
    · obtain ⟨m, w, e, hm, hw⟩ := findOptions_last r (o.1, v) hr
      refine ⟨m, w, by simpa [findOptions] using e, ?_, ?_⟩
      · rw [hm]
        cases hf : r.reverse.find? (fun kv => decide (kv.1 = "maxDepth")) <;> simp [List.find?_append, hf]
      · rw [hw]
        cases hf : r.reverse.find? (fun kv => decide (kv.1 = "indexWidth")) <;> simp [List.find?_append, hf]

/-- Of several options of the same name the first one counts; without one the limits are 3 and 30. -/
theorem find_options_first {opts : List (String × Option Val)} (h : ∀ kv ∈ opts, (kv.1 = "maxDepth" ∨ kv.1 = "indexWidth") ∧ kv.2.isSome) :
    ∃ m w, some m = ((opts.find? fun kv => kv.1 = "maxDepth").map (·.2)).getD (some (.int 3)) ∧
      some w = ((opts.find? fun kv => kv.1 = "indexWidth").map (·.2)).getD (some (.int 30)) ∧
      (∀ a b, findLimits opts = .ok (a, b) ↔ positive m = some a ∧ positive w = some b) ∧
      (positive m = none ∨ positive w = none → findLimits opts = .error (.py "InspectorError")) := by
  obtain ⟨m, w, e, hm, hw⟩ := findOptions_last opts.reverse (.int 3, .int 30) (fun kv hkv => h kv (by simpa using hkv))
  rw [List.reverse_reverse] at hm hw
  refine ⟨m, w, hm, hw, fun a b => ?_, fun hn => ?_⟩
  · simp only [findLimits, e]
    cases h1 : positive m <;> cases h2 : positive w <;> simp
  · simp only [findLimits, e]
    rcases hn with hn | hn
    · simp [hn]
    · cases h1 : positive m <;> simp [hn]

/-! ## An example -/

/-- The numbers in a part of a document. -/
theorem find_example : countIn [.key "cells"] .number sample = .ok 1 ∧ indexIn [.key "cells"] .number sample = .ok ["    [\"my model\", 0]".toList] ∧
    indexIn [.key "cells"] (.word "M") sample = .ok ["    (none)".toList] ∧ extaction sample [.key "cells", .key "my model", .pos 0] = .ok (.int 1) ∧
    (match regex (parse .number) with | .ok p => p.sane | .error _ => false) = true := by
  refine ⟨by decide +kernel, by decide +kernel, by decide +kernel, by rfl, by decide +kernel⟩

/-- Keys that are printed as they are read. -/
theorem printed_example : Printed "my model" ∧ Printed "cells" :=
  ⟨.inr ⟨by decide +kernel, by decide +kernel⟩, .inl ⟨'c', "ells".toList, by decide +kernel, by decide +kernel, by decide +kernel⟩⟩

end Verif.Inspector
