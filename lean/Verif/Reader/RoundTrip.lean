import Verif.Reader.Model
import Verif.Ast.Theorems
/-! # Printing an expression and reading it back (C45) -/

namespace Verif.Reader

open Avro Ast

/-- What a node needs, besides passing its constructor, to be printed in a way that the reader understands: names that the
reader accepts, numbers of the right kind and size, nothing under the key "@".  Stated without the reader's tables except for the
keywords. -/
def plain : X → Bool
  | .fcnDef ps r _ => ps.all (fun p => validSymbol p.1 && decide (strip p.2 = p.2)) && decide (strip r = r)
  | .fcnRef n => validFunction n
  | .fcnRefFill n f => validFunction n && decide ("@" ∉ PyDict.keys f)
  | .call n _ => decide (n ≠ "@" ∧ n ∉ PyDict.keys kinds)
  | .ref n => validSymbol n
  | .litInt v => match v with | .int i => decide (-2 ^ 31 ≤ i ∧ i ≤ 2 ^ 31 - 1) | _ => false
  | .litLong v => match v with | .int i => decide (-2 ^ 63 ≤ i ∧ i ≤ 2 ^ 63 - 1) | .bool _ => true | _ => false
  | .litFloat v => match v with | .flt _ => true | _ => false
  | .litDouble v => match v with | .flt _ => true | _ => false
  | .litBase64 bs => bs.all (fun b => decide (b < 256))
  | .literal t v => decide (strip t = t) && decide (strip v = v)
  | .newObject fs t => decide ("@" ∉ PyDict.keys fs) && decide (strip t = t)
  | .newArray _ t => decide (strip t = t)
  | .let_ vs => decide ("@" ∉ PyDict.keys vs)
  | .setVar vs => decide ("@" ∉ PyDict.keys vs)
  | .for_ i _ s _ => decide ("@" ∉ PyDict.keys i) && decide ("@" ∉ PyDict.keys s)
  | .foreach n _ _ _ => validSymbol n
  | .forkeyval k v _ _ => validSymbol k && validSymbol v
  | .castCase t n _ => decide (strip t = t) && validSymbol n
  | .upcast _ t => decide (strip t = t)
  | .ifNotNull xs _ _ => decide ("@" ∉ PyDict.keys xs)
  | .pack xs => decide ("@" ∉ PyDict.keys xs)
  | .unpack _ f _ _ => decide ("@" ∉ PyDict.keys f)
  | .error _ c => c.all (fun c => decide (-2 ^ 31 ≤ c))
  | .cond its _ => its.all (fun x => match x with | .if_ _ _ e => e.isEmpty | _ => false)
  | _ => true

/-- Every node of the expression could be constructed and is plain. -/
def Plain (e : X) : Prop := ∀ x, Part x e → made x = true ∧ plain x = true

/-! ## Keys and forms -/

@[simp] theorem kindOf_int : kindOf "int" = .int := by decide +kernel
@[simp] theorem kindOf_long : kindOf "long" = .long := by decide +kernel
@[simp] theorem kindOf_float : kindOf "float" = .float := by decide +kernel
@[simp] theorem kindOf_double : kindOf "double" = .float := by decide +kernel
@[simp] theorem kindOf_string : kindOf "string" = .string := by decide +kernel
@[simp] theorem kindOf_base64 : kindOf "base64" = .base64 := by decide +kernel
@[simp] theorem kindOf_type : kindOf "type" = .type := by decide +kernel
@[simp] theorem kindOf_value : kindOf "value" = .json := by decide +kernel
@[simp] theorem kindOf_let : kindOf "let" = .emap := by decide +kernel
@[simp] theorem kindOf_set : kindOf "set" = .emap := by decide +kernel
@[simp] theorem kindOf_for : kindOf "for" = .emap := by decide +kernel
@[simp] theorem kindOf_step : kindOf "step" = .emap := by decide +kernel
@[simp] theorem kindOf_ifnotnull : kindOf "ifnotnull" = .emap := by decide +kernel
@[simp] theorem kindOf_do : kindOf "do" = .body := by decide +kernel
@[simp] theorem kindOf_then : kindOf "then" = .body := by decide +kernel
@[simp] theorem kindOf_else : kindOf "else" = .body := by decide +kernel
@[simp] theorem kindOf_log : kindOf "log" = .body := by decide +kernel
@[simp] theorem kindOf_path : kindOf "path" = .elist := by decide +kernel
@[simp] theorem kindOf_args : kindOf "args" = .elist := by decide +kernel
@[simp] theorem kindOf_try : kindOf "try" = .body := by decide +kernel
@[simp] theorem kindOf_attr : kindOf "attr" = .expr := by decide +kernel
@[simp] theorem kindOf_if : kindOf "if" = .expr := by decide +kernel
@[simp] theorem kindOf_while : kindOf "while" = .expr := by decide +kernel
@[simp] theorem kindOf_until : kindOf "until" = .expr := by decide +kernel
@[simp] theorem kindOf_unpack : kindOf "unpack" = .expr := by decide +kernel
@[simp] theorem kindOf_del : kindOf "del" = .expr := by decide +kernel
@[simp] theorem kindOf_cond : kindOf "cond" = .cond := by decide +kernel
@[simp] theorem kindOf_cases : kindOf "cases" = .cases := by decide +kernel
@[simp] theorem kindOf_foreach : kindOf "foreach" = .string := by decide +kernel
@[simp] theorem kindOf_forkey : kindOf "forkey" = .string := by decide +kernel
@[simp] theorem kindOf_forval : kindOf "forval" = .string := by decide +kernel
@[simp] theorem kindOf_fcn : kindOf "fcn" = .string := by decide +kernel
@[simp] theorem kindOf_cell : kindOf "cell" = .string := by decide +kernel
@[simp] theorem kindOf_pool : kindOf "pool" = .string := by decide +kernel
@[simp] theorem kindOf_in : kindOf "in" = .expr := by decide +kernel
@[simp] theorem kindOf_cast : kindOf "cast" = .expr := by decide +kernel
@[simp] theorem kindOf_upcast : kindOf "upcast" = .expr := by decide +kernel
@[simp] theorem kindOf_init : kindOf "init" = .expr := by decide +kernel
@[simp] theorem kindOf_call : kindOf "call" = .expr := by decide +kernel
@[simp] theorem kindOf_seq : kindOf "seq" = .bool := by decide +kernel
@[simp] theorem kindOf_partial : kindOf "partial" = .bool := by decide +kernel
@[simp] theorem kindOf_doc : kindOf "doc" = .string := by decide +kernel
@[simp] theorem kindOf_error : kindOf "error" = .string := by decide +kernel
@[simp] theorem kindOf_code : kindOf "code" = .int := by decide +kernel
@[simp] theorem kindOf_namespace : kindOf "namespace" = .string := by decide +kernel
@[simp] theorem kindOf_new : kindOf "new" = .new := by decide +kernel
@[simp] theorem kindOf_params : kindOf "params" = .params := by decide +kernel
@[simp] theorem kindOf_ret : kindOf "ret" = .type := by decide +kernel
@[simp] theorem kindOf_as : kindOf "as" = .type := by decide +kernel
@[simp] theorem kindOf_to : kindOf "to" = .arg := by decide +kernel
@[simp] theorem kindOf_fill : kindOf "fill" = .amap := by decide +kernel
@[simp] theorem kindOf_filter : kindOf "filter" = .filter := by decide +kernel
@[simp] theorem kindOf_format : kindOf "format" = .format := by decide +kernel
@[simp] theorem kindOf_pack : kindOf "pack" = .pack := by decide +kernel
@[simp] theorem formOf_int : formOf ["int"] = some .int := by decide +kernel
@[simp] theorem formOf_long : formOf ["long"] = some .long := by decide +kernel
@[simp] theorem formOf_float : formOf ["float"] = some .float := by decide +kernel
@[simp] theorem formOf_double : formOf ["double"] = some .double := by decide +kernel
@[simp] theorem formOf_string : formOf ["string"] = some .string := by decide +kernel
@[simp] theorem formOf_base64 : formOf ["base64"] = some .base64 := by decide +kernel
@[simp] theorem formOf_literal : formOf ["type", "value"] = some .literal := by decide +kernel
@[simp] theorem formOf_new : formOf ["type", "new"] = some .new := by decide +kernel
@[simp] theorem formOf_do_ : formOf ["do"] = some .do_ := by decide +kernel
@[simp] theorem formOf_let_ : formOf ["let"] = some .let_ := by decide +kernel
@[simp] theorem formOf_set : formOf ["set"] = some .set := by decide +kernel
@[simp] theorem formOf_attr : formOf ["attr", "path"] = some .attr := by decide +kernel
@[simp] theorem formOf_attrTo : formOf ["attr", "path", "to"] = some .attrTo := by decide +kernel
@[simp] theorem formOf_cell : formOf ["cell"] = some .cell := by decide +kernel
@[simp] theorem formOf_cellPath : formOf ["cell", "path"] = some .cellPath := by decide +kernel
@[simp] theorem formOf_cellTo : formOf ["cell", "to"] = some .cellTo := by decide +kernel
@[simp] theorem formOf_cellPathTo : formOf ["cell", "path", "to"] = some .cellPathTo := by decide +kernel
@[simp] theorem formOf_pool : formOf ["pool", "path"] = some .pool := by decide +kernel
@[simp] theorem formOf_poolTo : formOf ["pool", "path", "init", "to"] = some .poolTo := by decide +kernel
@[simp] theorem formOf_poolDel : formOf ["pool", "del"] = some .poolDel := by decide +kernel
@[simp] theorem formOf_if_ : formOf ["if", "then"] = some .if_ := by decide +kernel
@[simp] theorem formOf_ifElse : formOf ["if", "then", "else"] = some .ifElse := by decide +kernel
@[simp] theorem formOf_cond : formOf ["cond"] = some .cond := by decide +kernel
@[simp] theorem formOf_condElse : formOf ["cond", "else"] = some .condElse := by decide +kernel
@[simp] theorem formOf_while_ : formOf ["while", "do"] = some .while_ := by decide +kernel
@[simp] theorem formOf_until : formOf ["do", "until"] = some .until := by decide +kernel
@[simp] theorem formOf_for_ : formOf ["for", "while", "step", "do"] = some .for_ := by decide +kernel
@[simp] theorem formOf_foreach : formOf ["foreach", "in", "do"] = some .foreach := by decide +kernel
@[simp] theorem formOf_foreachSeq : formOf ["foreach", "in", "do", "seq"] = some .foreachSeq := by decide +kernel
@[simp] theorem formOf_forkeyval : formOf ["forkey", "forval", "in", "do"] = some .forkeyval := by decide +kernel
@[simp] theorem formOf_cast : formOf ["cast", "cases"] = some .cast := by decide +kernel
@[simp] theorem formOf_castPartial : formOf ["cast", "cases", "partial"] = some .castPartial := by decide +kernel
@[simp] theorem formOf_upcast : formOf ["upcast", "as"] = some .upcast := by decide +kernel
@[simp] theorem formOf_ifnotnull : formOf ["ifnotnull", "then"] = some .ifnotnull := by decide +kernel
@[simp] theorem formOf_ifnotnullElse : formOf ["ifnotnull", "then", "else"] = some .ifnotnullElse := by decide +kernel
@[simp] theorem formOf_pack : formOf ["pack"] = some .pack := by decide +kernel
@[simp] theorem formOf_unpack : formOf ["unpack", "format", "then"] = some .unpack := by decide +kernel
@[simp] theorem formOf_unpackElse : formOf ["unpack", "format", "then", "else"] = some .unpackElse := by decide +kernel
@[simp] theorem formOf_doc : formOf ["doc"] = some .doc := by decide +kernel
@[simp] theorem formOf_error : formOf ["error"] = some .error := by decide +kernel
@[simp] theorem formOf_errorCode : formOf ["error", "code"] = some .errorCode := by decide +kernel
@[simp] theorem formOf_try_ : formOf ["try"] = some .try_ := by decide +kernel
@[simp] theorem formOf_tryFilter : formOf ["try", "filter"] = some .tryFilter := by decide +kernel
@[simp] theorem formOf_log : formOf ["log"] = some .log := by decide +kernel
@[simp] theorem formOf_logNs : formOf ["log", "namespace"] = some .logNs := by decide +kernel
@[simp] theorem formOf_fcnDef : formOf ["params", "ret", "do"] = some .fcnDef := by decide +kernel
@[simp] theorem formOf_fcn : formOf ["fcn"] = some .fcn := by decide +kernel
@[simp] theorem formOf_fcnFill : formOf ["fcn", "fill"] = some .fcnFill := by decide +kernel
@[simp] theorem formOf_call : formOf ["call", "args"] = some .call := by decide +kernel

/-! ## Lists, dictionaries, positions -/

@[simp] theorem app_ok {α β : Type} (c : α → β) (a : α) : Res.app c (.ok a) = .ok (c a) := rfl

theorem mapR_map {α β γ : Type} {f : β → Res γ} {g : α → β} {h : α → γ} (l : List α) (hl : ∀ x ∈ l, f (g x) = .ok (h x)) :
    mapR f (l.map g) = .ok (l.map h) := by
  induction l with
  | nil => rfl
  | cons x xs ih => simp [mapR, hl x (by simp), ih (fun y hy => hl y (by simp [hy]))]

theorem mapR_nodes {f : Val → Res X} : ∀ (xs : List X) (pos : Pos), (∀ x ∈ xs, ∀ pos, f (node pos x) = .ok x) →
    mapR f (nodes pos xs) = .ok xs
  | [], _, _ => by simp [nodes, mapR]
  | x :: xs, pos, h => by
    simp [nodes, mapR, h x (by simp), mapR_nodes xs _ (fun y hy => h y (by simp [hy]))]

theorem keys_nodesN : ∀ (xs : List (String × X)) (pos : Pos), PyDict.keys (nodesN pos xs) = PyDict.keys xs
  | [], _ => by simp [nodesN, PyDict.keys]
  | (k, x) :: xs, pos => by
    have := keys_nodesN xs pos.next
    simp only [PyDict.keys] at this ⊢
    simp [nodesN, this]

theorem entries_eq {d : List (String × Val)} (h : "@" ∉ PyDict.keys d) : entries d = d := by
  simp only [entries, List.filter_eq_self]
  intro kv hkv
  simp only [decide_eq_true_eq, ne_eq]
  rintro he
  exact h (he ▸ List.mem_map_of_mem hkv)

theorem entries_start (p : Option String) (d : List (String × Val)) : entries (start p ++ d) = entries d := by
  cases p <;> simp [entries, start]

theorem mapR_nodesN {f : Val → Res X} : ∀ (xs : List (String × X)) (pos : Pos), (∀ k x, (k, x) ∈ xs → ∀ pos, f (node pos x) = .ok x) →
    mapR (fun kv => Res.app (kv.1, ·) (f kv.2)) (nodesN pos xs) = .ok xs
  | [], _, _ => by simp [nodesN, mapR]
  | (k, x) :: xs, pos, h => by
    simp [nodesN, mapR, h k x (by simp), mapR_nodesN xs _ (fun k y hy => h k y (by simp [hy]))]

theorem readMap_nodesN {f : Val → Res X} {xs : List (String × X)} {pos : Pos} (hk : "@" ∉ PyDict.keys xs)
    (h : ∀ k x, (k, x) ∈ xs → ∀ pos, f (node pos x) = .ok x) : readMap f (.dict (nodesN pos xs)) = .ok xs := by
  rw [readMap, entries_eq (by rwa [keys_nodesN]), mapR_nodesN xs pos h]

theorem readPairs_nodesP {f : Val → Res X} : ∀ (xs : List (String × X)) (pos : Pos), "@" ∉ PyDict.keys xs →
    (∀ k x, (k, x) ∈ xs → ∀ pos, f (node pos x) = .ok x) → readPairs f (.arr (nodesP pos xs)) = .ok xs
  | [], _, _, _ => by simp [nodesP, readPairs, readList, mapR]
  | (k, x) :: xs, pos, hk, h => by
    simp only [PyDict.keys, List.map_cons, List.mem_cons, not_or] at hk
    have ih := readPairs_nodesP xs pos.next hk.2
      (fun k y hy => h k y (by simp [hy]))
    simp only [readPairs, readList] at ih ⊢
    have hk' : k ≠ "@" := fun he => hk.1 he.symm
    have hp : readPair f (.dict [(k, node (pos.sub 0) x)]) = .ok (k, x) := by
      simp [readPair, readMap, entries, hk', mapR, h k x (by simp)]
    simp [nodesP, mapR, hp, ih]

theorem readPairs_format (f : List (String × String)) (hk : "@" ∉ PyDict.keys f) :
    readPairs readString (.arr (f.map (fun p => .dict [(p.1, .str p.2)]))) = .ok f := by
  have := mapR_map (f := readPair readString) (g := fun p : String × String => Val.dict [(p.1, .str p.2)]) (h := id) f (by
      intro p hp
      have hne : p.1 ≠ "@" := fun he => hk (he ▸ List.mem_map_of_mem hp)
      simp [readPair, readMap, entries, hne, mapR, readString])
  simpa [readPairs, readList] using this

theorem readParams_print (ps : List (String × Val)) (h : ∀ p ∈ ps, validSymbol p.1 = true ∧ strip p.2 = p.2) :
    mapR readParam (ps.map (fun p => .dict [p])) = .ok ps := by
  have := mapR_map (f := readParam) (g := fun p : String × Val => Val.dict [p]) (h := id) ps (by
      intro p hp
      obtain ⟨h1, h2⟩ := h p hp
      have hne : p.1 ≠ "@" := by rintro he; rw [he] at h1; exact absurd h1 (by decide +kernel)
      simp [readParam, entries, hne, h1, h2])
  simpa using this

theorem validSymbol_noDot {s : String} (h : validSymbol s = true) : '.' ∉ s.toList := by
  have key : ∀ cs : List Char, symTail cs = true → '.' ∉ cs := by
    intro cs
    fun_induction symTail cs with
    | case1 => simp
    | case2 => simp
    | case3 c cs _ ih =>
      intro h
      simp only [Bool.and_eq_true] at h
      simp only [List.mem_cons, not_or]
      refine ⟨?_, ih h.2⟩
      rintro rfl
      exact absurd h.1 (by decide)
  unfold validSymbol at h
  split at h
  · cases h
  · next c cs he =>
    rw [he]
    simp only [Bool.and_eq_true] at h
    simp only [List.mem_cons, not_or]
    refine ⟨?_, key cs h.2⟩
    rintro rfl
    exact absurd h.1 (by decide)

theorem kindOf_other {n : String} (h : n ∉ PyDict.keys kinds) : kindOf n = .args := by
  rw [kindOf, (PyDict.get?_eq_none_iff kinds n).2 h]; rfl

theorem formOf_other {n : String} (h : n ∉ PyDict.keys kinds) : formOf [n] = none := by
  simp only [PyDict.keys, kinds, List.map_cons, List.map_nil, List.mem_cons, List.not_mem_nil, not_or, or_false] at h
  simp only [formOf, forms, Option.map_eq_none_iff]
  rw [List.find?_eq_none]
  simp [sameKeys, h]

/-! ## The theorem -/

theorem Plain.child {x e : X} (h : Plain e) (hc : Child x e) : Plain x :=
  fun y hy => h y (.step hy hc)

theorem mk_plain {e : X} (h : Plain e) : mk e = .ok e := by simp [mk, (h e (.refl e)).1]

/-- What `readArg` does with a printed object. -/
theorem read_obj (m : Nat) (p : Option String) (d : List (String × Val)) (hd : "@" ∉ PyDict.keys d) {ss : List (String × Slot)} {e : X}
    (hs : readSlots (readArg m) d = .ok ss) (ha : assemble ss (PyDict.keys d) = .ok e) :
    readArg (m + 1) (.dict (start p ++ d)) = .ok e := by
  simp only [readArg, readStep, entries_start, entries_eq hd, hs, ha]

theorem reserved_sub {n : String} (h : n ∈ reserved) : n ∈ PyDict.keys kinds := by
  have : ∀ n ∈ reserved, n ∈ PyDict.keys kinds := by decide +kernel
  exact this n h

end Verif.Reader
