import Verif.Reader.RoundTrip
namespace Verif.Reader
open Avro Ast

/-!
# Reading what was printed

`read_node` (C45): an expression built by the constructors, whose numbers are written with their types, is given back by
the reader when it reads what the expression printed. The conditions are `made` (what the constructors demand) and `plain`
(what is necessary beyond that; `Verif/Reader/Wrong.lean` shows expressions that break each of them and do not come back).
One lemma for each kind of expression, then the induction.
-/

set_option linter.unusedSimpArgs false

theorem isArg_of_isExpr {x : X} (h : isExpr x = true) : isArg x = true := by cases x <;> simp_all [isExpr, isArg]

section
variable {m : Nat} {e : X} (ih : ∀ x pos, Child x e → isArg x = true → readArg m (node pos x) = .ok x)
include ih

theorem rE {x : X} {pos : Pos} (hc : Child x e) (hx : isExpr x = true) : readExpr (readArg m) (node pos x) = .ok x := by
  simp [readExpr, ih x pos hc (isArg_of_isExpr hx), hx]

theorem rL {xs : List X} {pos : Pos} (hc : ∀ x ∈ xs, Child x e) (hx : xs.all isExpr = true) :
    mapR (readExpr (readArg m)) (nodes pos xs) = .ok xs :=
  mapR_nodes xs pos (fun x h _ => rE ih (hc x h) (List.all_eq_true.1 hx x h))

theorem rN {xs : List (String × X)} {pos : Pos} (hk : "@" ∉ PyDict.keys xs) (hc : ∀ k x, (k, x) ∈ xs → Child x e) (hx : allN isExpr xs = true) :
    readMap (readExpr (readArg m)) (.dict (nodesN pos xs)) = .ok xs :=
  readMap_nodesN hk (fun k x h _ => rE ih (hc k x h) (List.all_eq_true.1 hx _ h))
end

theorem readStrInt_map (y : List Val) (h : ∀ v ∈ y, strInt? v = true) : mapR readStrInt y = .ok y := by
  have := mapR_map (f := readStrInt) (g := id) (h := id) y (by
    intro v hv
    have := h v hv
    cases v <;> simp [strInt?, pyInt?] at this <;> rfl)
  simpa using this

theorem all_if {its : List X} (h : its.all isIf = true) : its.all isExpr = true := by
  rw [List.all_eq_true] at h ⊢
  intro x hx
  have := h x hx
  cases x <;> simp_all [isIf, isExpr]

theorem elseLess_ok {its : List X} (h : (its.all (fun x => match x with | .if_ _ _ e => e.isEmpty | _ => false)) = true) : elseLess its = .ok () := by
  induction its with
  | nil => rfl
  | cons x xs ih =>
    simp only [List.all_cons, Bool.and_eq_true] at h
    cases x <;> first | (exact absurd h.1 Bool.false_ne_true; done) | skip
    simp [elseLess, ih h.2, List.isEmpty_iff.1 h.1]

theorem rt_fcnDef {m : Nat} {ps r b} (hp : Plain (.fcnDef ps r b)) (ih : ∀ x pos, Child x (.fcnDef ps r b) → isArg x = true → readArg m (node pos x) = .ok x) (pos : Pos) :
    readArg (m + 1) (node pos (.fcnDef ps r b)) = .ok (.fcnDef ps r b) := by
  have hm := (hp _ (.refl _)).1; have hq := (hp _ (.refl _)).2
  simp only [made, plain, Bool.and_eq_true, decide_eq_true_eq] at hm hq
  have h0 := readParams_print ps (fun p hp => by simpa using List.all_eq_true.1 hq.1 p hp)
  have h2 := rL ih (xs := b) (pos := pos.sub 0) (fun x h => .fcnDef h) (by simp only [hm])
  rw [node]
  refine read_obj m _ _ (by simp [PyDict.keys]) (ss := [("params", .params ps), ("ret", .ty r), ("do", .elist b)]) ?_ ?_
  · simp [readSlots, mapR, readKind, readBody, readList, readString, readBool, readInt, h0, h2, hq]
  · simp [assemble, wrongName, build, slot, mkElse, PyDict.keys, PyDict.get?, Slot.val?, Slot.str?, Slot.bool?, Slot.bytes?, Slot.ty?, Slot.emap?, Slot.elist?, Slot.expr?, Slot.params?, Slot.filter?, Slot.format?, Slot.new?, Slot.code?, mk_plain hp, h0, h2, hq]

theorem rt_fcnRef {m : Nat} {n} (hp : Plain (.fcnRef n)) (ih : ∀ x pos, Child x (.fcnRef n) → isArg x = true → readArg m (node pos x) = .ok x) (pos : Pos) :
    readArg (m + 1) (node pos (.fcnRef n)) = .ok (.fcnRef n) := by
  have hm := (hp _ (.refl _)).1; have hq := (hp _ (.refl _)).2
  simp only [made, plain, Bool.and_eq_true, decide_eq_true_eq] at hm hq
  rw [node]
  refine read_obj m _ _ (by simp [PyDict.keys]) (ss := [("fcn", .str n)]) ?_ ?_
  · simp [readSlots, mapR, readKind, readBody, readList, readString, readBool, readInt, hq]
  · simp [assemble, wrongName, build, slot, mkElse, PyDict.keys, PyDict.get?, Slot.val?, Slot.str?, Slot.bool?, Slot.bytes?, Slot.ty?, Slot.emap?, Slot.elist?, Slot.expr?, Slot.params?, Slot.filter?, Slot.format?, Slot.new?, Slot.code?, mk_plain hp, hq]

theorem rt_fcnRefFill {m : Nat} {n f} (hp : Plain (.fcnRefFill n f)) (ih : ∀ x pos, Child x (.fcnRefFill n f) → isArg x = true → readArg m (node pos x) = .ok x) (pos : Pos) :
    readArg (m + 1) (node pos (.fcnRefFill n f)) = .ok (.fcnRefFill n f) := by
  have hm := (hp _ (.refl _)).1; have hq := (hp _ (.refl _)).2
  simp only [made, plain, Bool.and_eq_true, decide_eq_true_eq] at hm hq
  have h1 := readMap_nodesN (f := readArg m) (xs := f) (pos := pos.sub 0) (by simp only [hq, not_false_eq_true]) (fun k x h pos => ih x pos (.fcnRefFill h) (List.all_eq_true.1 hm.1 _ h))
  rw [node]
  refine read_obj m _ _ (by simp [PyDict.keys]) (ss := [("fcn", .str n), ("fill", .emap f)]) ?_ ?_
  · simp [readSlots, mapR, readKind, readBody, readList, readString, readBool, readInt, h1, hq]
  · simp [assemble, wrongName, build, slot, mkElse, PyDict.keys, PyDict.get?, Slot.val?, Slot.str?, Slot.bool?, Slot.bytes?, Slot.ty?, Slot.emap?, Slot.elist?, Slot.expr?, Slot.params?, Slot.filter?, Slot.format?, Slot.new?, Slot.code?, mk_plain hp, h1, hq]

theorem rt_callUser {m : Nat} {n as} (hp : Plain (.callUser n as)) (ih : ∀ x pos, Child x (.callUser n as) → isArg x = true → readArg m (node pos x) = .ok x) (pos : Pos) :
    readArg (m + 1) (node pos (.callUser n as)) = .ok (.callUser n as) := by
  have hm := (hp _ (.refl _)).1; have hq := (hp _ (.refl _)).2
  simp only [made, plain, Bool.and_eq_true, decide_eq_true_eq] at hm hq
  have h0 := rE ih (x := n) (pos := pos.sub 0) .callUser_name (by simp only [hm])
  have h1 := rL ih (xs := as) (pos := pos.sub 1) (fun x h => .callUser_arg h) (by simp only [hm])
  rw [node]
  refine read_obj m _ _ (by simp [PyDict.keys]) (ss := [("call", .expr n), ("args", .elist as)]) ?_ ?_
  · simp [readSlots, mapR, readKind, readBody, readList, readString, readBool, readInt, h0, h1, hq]
  · simp [assemble, wrongName, build, slot, mkElse, PyDict.keys, PyDict.get?, Slot.val?, Slot.str?, Slot.bool?, Slot.bytes?, Slot.ty?, Slot.emap?, Slot.elist?, Slot.expr?, Slot.params?, Slot.filter?, Slot.format?, Slot.new?, Slot.code?, mk_plain hp, h0, h1, hq]

theorem rt_litString {m : Nat} {s} (hp : Plain (.litString s)) (ih : ∀ x pos, Child x (.litString s) → isArg x = true → readArg m (node pos x) = .ok x) (pos : Pos) :
    readArg (m + 1) (node pos (.litString s)) = .ok (.litString s) := by
  have hm := (hp _ (.refl _)).1; have hq := (hp _ (.refl _)).2
  simp only [made, plain, Bool.and_eq_true, decide_eq_true_eq] at hm hq
  rw [node]
  refine read_obj m _ _ (by simp [PyDict.keys]) (ss := [("string", .str s)]) ?_ ?_
  · simp [readSlots, mapR, readKind, readBody, readList, readString, readBool, readInt, hq]
  · simp [assemble, wrongName, build, slot, mkElse, PyDict.keys, PyDict.get?, Slot.val?, Slot.str?, Slot.bool?, Slot.bytes?, Slot.ty?, Slot.emap?, Slot.elist?, Slot.expr?, Slot.params?, Slot.filter?, Slot.format?, Slot.new?, Slot.code?, mk_plain hp, hq]

theorem rt_literal {m : Nat} {t v} (hp : Plain (.literal t v)) (ih : ∀ x pos, Child x (.literal t v) → isArg x = true → readArg m (node pos x) = .ok x) (pos : Pos) :
    readArg (m + 1) (node pos (.literal t v)) = .ok (.literal t v) := by
  have hm := (hp _ (.refl _)).1; have hq := (hp _ (.refl _)).2
  simp only [made, plain, Bool.and_eq_true, decide_eq_true_eq] at hm hq
  rw [node]
  refine read_obj m _ _ (by simp [PyDict.keys]) (ss := [("type", .ty t), ("value", .val v)]) ?_ ?_
  · simp [readSlots, mapR, readKind, readBody, readList, readString, readBool, readInt, hq]
  · simp [assemble, wrongName, build, slot, mkElse, PyDict.keys, PyDict.get?, Slot.val?, Slot.str?, Slot.bool?, Slot.bytes?, Slot.ty?, Slot.emap?, Slot.elist?, Slot.expr?, Slot.params?, Slot.filter?, Slot.format?, Slot.new?, Slot.code?, mk_plain hp, hq]

theorem rt_newObject {m : Nat} {fs t} (hp : Plain (.newObject fs t)) (ih : ∀ x pos, Child x (.newObject fs t) → isArg x = true → readArg m (node pos x) = .ok x) (pos : Pos) :
    readArg (m + 1) (node pos (.newObject fs t)) = .ok (.newObject fs t) := by
  have hm := (hp _ (.refl _)).1; have hq := (hp _ (.refl _)).2
  simp only [made, plain, Bool.and_eq_true, decide_eq_true_eq] at hm hq
  have h1 := rN ih (xs := fs) (pos := pos.sub 0) (by simp only [hq, not_false_eq_true]) (fun k x h => .newObject h) (by simp only [hm])
  rw [node]
  refine read_obj m _ _ (by simp [PyDict.keys]) (ss := [("type", .ty t), ("new", .newObj fs)]) ?_ ?_
  · simp [readSlots, mapR, readKind, readBody, readList, readString, readBool, readInt, h1, hq]
  · simp [assemble, wrongName, build, slot, mkElse, PyDict.keys, PyDict.get?, Slot.val?, Slot.str?, Slot.bool?, Slot.bytes?, Slot.ty?, Slot.emap?, Slot.elist?, Slot.expr?, Slot.params?, Slot.filter?, Slot.format?, Slot.new?, Slot.code?, mk_plain hp, h1, hq]

theorem rt_newArray {m : Nat} {is t} (hp : Plain (.newArray is t)) (ih : ∀ x pos, Child x (.newArray is t) → isArg x = true → readArg m (node pos x) = .ok x) (pos : Pos) :
    readArg (m + 1) (node pos (.newArray is t)) = .ok (.newArray is t) := by
  have hm := (hp _ (.refl _)).1; have hq := (hp _ (.refl _)).2
  simp only [made, plain, Bool.and_eq_true, decide_eq_true_eq] at hm hq
  have h1 := rL ih (xs := is) (pos := pos.sub 0) (fun x h => .newArray h) (by simp only [hm])
  rw [node]
  refine read_obj m _ _ (by simp [PyDict.keys]) (ss := [("type", .ty t), ("new", .newArr is)]) ?_ ?_
  · simp [readSlots, mapR, readKind, readBody, readList, readString, readBool, readInt, h1, hq]
  · simp [assemble, wrongName, build, slot, mkElse, PyDict.keys, PyDict.get?, Slot.val?, Slot.str?, Slot.bool?, Slot.bytes?, Slot.ty?, Slot.emap?, Slot.elist?, Slot.expr?, Slot.params?, Slot.filter?, Slot.format?, Slot.new?, Slot.code?, mk_plain hp, h1, hq]

theorem rt_do_ {m : Nat} {b} (hp : Plain (.do_ b)) (ih : ∀ x pos, Child x (.do_ b) → isArg x = true → readArg m (node pos x) = .ok x) (pos : Pos) :
    readArg (m + 1) (node pos (.do_ b)) = .ok (.do_ b) := by
  have hm := (hp _ (.refl _)).1; have hq := (hp _ (.refl _)).2
  simp only [made, plain, Bool.and_eq_true, decide_eq_true_eq] at hm hq
  have h0 := rL ih (xs := b) (pos := pos.sub 0) (fun x h => .do_ h) (by simp only [hm])
  rw [node]
  refine read_obj m _ _ (by simp [PyDict.keys]) (ss := [("do", .elist b)]) ?_ ?_
  · simp [readSlots, mapR, readKind, readBody, readList, readString, readBool, readInt, h0, hq]
  · simp [assemble, wrongName, build, slot, mkElse, PyDict.keys, PyDict.get?, Slot.val?, Slot.str?, Slot.bool?, Slot.bytes?, Slot.ty?, Slot.emap?, Slot.elist?, Slot.expr?, Slot.params?, Slot.filter?, Slot.format?, Slot.new?, Slot.code?, mk_plain hp, h0, hq]

theorem rt_let_ {m : Nat} {vs} (hp : Plain (.let_ vs)) (ih : ∀ x pos, Child x (.let_ vs) → isArg x = true → readArg m (node pos x) = .ok x) (pos : Pos) :
    readArg (m + 1) (node pos (.let_ vs)) = .ok (.let_ vs) := by
  have hm := (hp _ (.refl _)).1; have hq := (hp _ (.refl _)).2
  simp only [made, plain, Bool.and_eq_true, decide_eq_true_eq] at hm hq
  have h0 := rN ih (xs := vs) (pos := pos.sub 0) (by simp only [hq, not_false_eq_true]) (fun k x h => .let_ h) (by simp only [hm])
  rw [node]
  refine read_obj m _ _ (by simp [PyDict.keys]) (ss := [("let", .emap vs)]) ?_ ?_
  · simp [readSlots, mapR, readKind, readBody, readList, readString, readBool, readInt, h0, hq]
  · simp [assemble, wrongName, build, slot, mkElse, PyDict.keys, PyDict.get?, Slot.val?, Slot.str?, Slot.bool?, Slot.bytes?, Slot.ty?, Slot.emap?, Slot.elist?, Slot.expr?, Slot.params?, Slot.filter?, Slot.format?, Slot.new?, Slot.code?, mk_plain hp, h0, hq]

theorem rt_setVar {m : Nat} {vs} (hp : Plain (.setVar vs)) (ih : ∀ x pos, Child x (.setVar vs) → isArg x = true → readArg m (node pos x) = .ok x) (pos : Pos) :
    readArg (m + 1) (node pos (.setVar vs)) = .ok (.setVar vs) := by
  have hm := (hp _ (.refl _)).1; have hq := (hp _ (.refl _)).2
  simp only [made, plain, Bool.and_eq_true, decide_eq_true_eq] at hm hq
  have h0 := rN ih (xs := vs) (pos := pos.sub 0) (by simp only [hq, not_false_eq_true]) (fun k x h => .setVar h) (by simp only [hm])
  rw [node]
  refine read_obj m _ _ (by simp [PyDict.keys]) (ss := [("set", .emap vs)]) ?_ ?_
  · simp [readSlots, mapR, readKind, readBody, readList, readString, readBool, readInt, h0, hq]
  · simp [assemble, wrongName, build, slot, mkElse, PyDict.keys, PyDict.get?, Slot.val?, Slot.str?, Slot.bool?, Slot.bytes?, Slot.ty?, Slot.emap?, Slot.elist?, Slot.expr?, Slot.params?, Slot.filter?, Slot.format?, Slot.new?, Slot.code?, mk_plain hp, h0, hq]

theorem rt_attrGet {m : Nat} {w p} (hp : Plain (.attrGet w p)) (ih : ∀ x pos, Child x (.attrGet w p) → isArg x = true → readArg m (node pos x) = .ok x) (pos : Pos) :
    readArg (m + 1) (node pos (.attrGet w p)) = .ok (.attrGet w p) := by
  have hm := (hp _ (.refl _)).1; have hq := (hp _ (.refl _)).2
  simp only [made, plain, Bool.and_eq_true, decide_eq_true_eq] at hm hq
  have h0 := rE ih (x := w) (pos := pos.sub 0) .attrGet_expr (by simp only [hm])
  have h1 := rL ih (xs := p) (pos := pos.sub 1) (fun x h => .attrGet_path h) (by simp only [hm])
  rw [node]
  refine read_obj m _ _ (by simp [PyDict.keys]) (ss := [("attr", .expr w), ("path", .elist p)]) ?_ ?_
  · simp [readSlots, mapR, readKind, readBody, readList, readString, readBool, readInt, h0, h1, hq]
  · simp [assemble, wrongName, build, slot, mkElse, PyDict.keys, PyDict.get?, Slot.val?, Slot.str?, Slot.bool?, Slot.bytes?, Slot.ty?, Slot.emap?, Slot.elist?, Slot.expr?, Slot.params?, Slot.filter?, Slot.format?, Slot.new?, Slot.code?, mk_plain hp, h0, h1, hq]

theorem rt_attrTo {m : Nat} {w p r} (hp : Plain (.attrTo w p r)) (ih : ∀ x pos, Child x (.attrTo w p r) → isArg x = true → readArg m (node pos x) = .ok x) (pos : Pos) :
    readArg (m + 1) (node pos (.attrTo w p r)) = .ok (.attrTo w p r) := by
  have hm := (hp _ (.refl _)).1; have hq := (hp _ (.refl _)).2
  simp only [made, plain, Bool.and_eq_true, decide_eq_true_eq] at hm hq
  have h0 := rE ih (x := w) (pos := pos.sub 0) .attrTo_expr (by simp only [hm])
  have h1 := rL ih (xs := p) (pos := pos.sub 1) (fun x h => .attrTo_path h) (by simp only [hm])
  have h2 := ih r (pos.sub 2) .attrTo_to (by simp only [hm])
  rw [node]
  refine read_obj m _ _ (by simp [PyDict.keys]) (ss := [("attr", .expr w), ("path", .elist p), ("to", .expr r)]) ?_ ?_
  · simp [readSlots, mapR, readKind, readBody, readList, readString, readBool, readInt, h0, h1, h2, hq]
  · simp [assemble, wrongName, build, slot, mkElse, PyDict.keys, PyDict.get?, Slot.val?, Slot.str?, Slot.bool?, Slot.bytes?, Slot.ty?, Slot.emap?, Slot.elist?, Slot.expr?, Slot.params?, Slot.filter?, Slot.format?, Slot.new?, Slot.code?, mk_plain hp, h0, h1, h2, hq]

theorem rt_poolGet {m : Nat} {c p} (hp : Plain (.poolGet c p)) (ih : ∀ x pos, Child x (.poolGet c p) → isArg x = true → readArg m (node pos x) = .ok x) (pos : Pos) :
    readArg (m + 1) (node pos (.poolGet c p)) = .ok (.poolGet c p) := by
  have hm := (hp _ (.refl _)).1; have hq := (hp _ (.refl _)).2
  simp only [made, plain, Bool.and_eq_true, decide_eq_true_eq] at hm hq
  have h1 := rL ih (xs := p) (pos := pos.sub 0) (fun x h => .poolGet h) (by simp only [hm])
  rw [node]
  refine read_obj m _ _ (by simp [PyDict.keys]) (ss := [("pool", .str c), ("path", .elist p)]) ?_ ?_
  · simp [readSlots, mapR, readKind, readBody, readList, readString, readBool, readInt, h1, hq]
  · simp [assemble, wrongName, build, slot, mkElse, PyDict.keys, PyDict.get?, Slot.val?, Slot.str?, Slot.bool?, Slot.bytes?, Slot.ty?, Slot.emap?, Slot.elist?, Slot.expr?, Slot.params?, Slot.filter?, Slot.format?, Slot.new?, Slot.code?, mk_plain hp, h1, hq]

theorem rt_poolTo {m : Nat} {c p r i} (hp : Plain (.poolTo c p r i)) (ih : ∀ x pos, Child x (.poolTo c p r i) → isArg x = true → readArg m (node pos x) = .ok x) (pos : Pos) :
    readArg (m + 1) (node pos (.poolTo c p r i)) = .ok (.poolTo c p r i) := by
  have hm := (hp _ (.refl _)).1; have hq := (hp _ (.refl _)).2
  simp only [made, plain, Bool.and_eq_true, decide_eq_true_eq] at hm hq
  have h1 := rL ih (xs := p) (pos := pos.sub 0) (fun x h => .poolTo_path h) (by simp only [hm])
  have h2 := rE ih (x := i) (pos := pos.sub 1) .poolTo_init (by simp only [hm])
  have h3 := ih r (pos.sub 2) .poolTo_to (by simp only [hm])
  rw [node]
  refine read_obj m _ _ (by simp [PyDict.keys]) (ss := [("pool", .str c), ("path", .elist p), ("init", .expr i), ("to", .expr r)]) ?_ ?_
  · simp [readSlots, mapR, readKind, readBody, readList, readString, readBool, readInt, h1, h2, h3, hq]
  · simp [assemble, wrongName, build, slot, mkElse, PyDict.keys, PyDict.get?, Slot.val?, Slot.str?, Slot.bool?, Slot.bytes?, Slot.ty?, Slot.emap?, Slot.elist?, Slot.expr?, Slot.params?, Slot.filter?, Slot.format?, Slot.new?, Slot.code?, mk_plain hp, h1, h2, h3, hq]

theorem rt_poolDel {m : Nat} {c d} (hp : Plain (.poolDel c d)) (ih : ∀ x pos, Child x (.poolDel c d) → isArg x = true → readArg m (node pos x) = .ok x) (pos : Pos) :
    readArg (m + 1) (node pos (.poolDel c d)) = .ok (.poolDel c d) := by
  have hm := (hp _ (.refl _)).1; have hq := (hp _ (.refl _)).2
  simp only [made, plain, Bool.and_eq_true, decide_eq_true_eq] at hm hq
  have h1 := rE ih (x := d) (pos := pos.sub 0) .poolDel (by simp only [hm])
  rw [node]
  refine read_obj m _ _ (by simp [PyDict.keys]) (ss := [("pool", .str c), ("del", .expr d)]) ?_ ?_
  · simp [readSlots, mapR, readKind, readBody, readList, readString, readBool, readInt, h1, hq]
  · simp [assemble, wrongName, build, slot, mkElse, PyDict.keys, PyDict.get?, Slot.val?, Slot.str?, Slot.bool?, Slot.bytes?, Slot.ty?, Slot.emap?, Slot.elist?, Slot.expr?, Slot.params?, Slot.filter?, Slot.format?, Slot.new?, Slot.code?, mk_plain hp, h1, hq]

theorem rt_while_ {m : Nat} {p b} (hp : Plain (.while_ p b)) (ih : ∀ x pos, Child x (.while_ p b) → isArg x = true → readArg m (node pos x) = .ok x) (pos : Pos) :
    readArg (m + 1) (node pos (.while_ p b)) = .ok (.while_ p b) := by
  have hm := (hp _ (.refl _)).1; have hq := (hp _ (.refl _)).2
  simp only [made, plain, Bool.and_eq_true, decide_eq_true_eq] at hm hq
  have h0 := rE ih (x := p) (pos := pos.sub 0) .while_pred (by simp only [hm])
  have h1 := rL ih (xs := b) (pos := pos.sub 1) (fun x h => .while_body h) (by simp only [hm])
  rw [node]
  refine read_obj m _ _ (by simp [PyDict.keys]) (ss := [("while", .expr p), ("do", .elist b)]) ?_ ?_
  · simp [readSlots, mapR, readKind, readBody, readList, readString, readBool, readInt, h0, h1, hq]
  · simp [assemble, wrongName, build, slot, mkElse, PyDict.keys, PyDict.get?, Slot.val?, Slot.str?, Slot.bool?, Slot.bytes?, Slot.ty?, Slot.emap?, Slot.elist?, Slot.expr?, Slot.params?, Slot.filter?, Slot.format?, Slot.new?, Slot.code?, mk_plain hp, h0, h1, hq]

theorem rt_doUntil {m : Nat} {b p} (hp : Plain (.doUntil b p)) (ih : ∀ x pos, Child x (.doUntil b p) → isArg x = true → readArg m (node pos x) = .ok x) (pos : Pos) :
    readArg (m + 1) (node pos (.doUntil b p)) = .ok (.doUntil b p) := by
  have hm := (hp _ (.refl _)).1; have hq := (hp _ (.refl _)).2
  simp only [made, plain, Bool.and_eq_true, decide_eq_true_eq] at hm hq
  have h0 := rL ih (xs := b) (pos := pos.sub 0) (fun x h => .doUntil_body h) (by simp only [hm])
  have h1 := rE ih (x := p) (pos := pos.sub 1) .doUntil_pred (by simp only [hm])
  rw [node]
  refine read_obj m _ _ (by simp [PyDict.keys]) (ss := [("do", .elist b), ("until", .expr p)]) ?_ ?_
  · simp [readSlots, mapR, readKind, readBody, readList, readString, readBool, readInt, h0, h1, hq]
  · simp [assemble, wrongName, build, slot, mkElse, PyDict.keys, PyDict.get?, Slot.val?, Slot.str?, Slot.bool?, Slot.bytes?, Slot.ty?, Slot.emap?, Slot.elist?, Slot.expr?, Slot.params?, Slot.filter?, Slot.format?, Slot.new?, Slot.code?, mk_plain hp, h0, h1, hq]

theorem rt_for_ {m : Nat} {i p s b} (hp : Plain (.for_ i p s b)) (ih : ∀ x pos, Child x (.for_ i p s b) → isArg x = true → readArg m (node pos x) = .ok x) (pos : Pos) :
    readArg (m + 1) (node pos (.for_ i p s b)) = .ok (.for_ i p s b) := by
  have hm := (hp _ (.refl _)).1; have hq := (hp _ (.refl _)).2
  simp only [made, plain, Bool.and_eq_true, decide_eq_true_eq] at hm hq
  have h0 := rN ih (xs := i) (pos := pos.sub 0) (by simp only [hq, not_false_eq_true]) (fun k x h => .for_init h) (by simp only [hm])
  have h1 := rE ih (x := p) (pos := pos.sub 1) .for_pred (by simp only [hm])
  have h2 := rN ih (xs := s) (pos := pos.sub 2) (by simp only [hq, not_false_eq_true]) (fun k x h => .for_step h) (by simp only [hm])
  have h3 := rL ih (xs := b) (pos := pos.sub 3) (fun x h => .for_body h) (by simp only [hm])
  rw [node]
  refine read_obj m _ _ (by simp [PyDict.keys]) (ss := [("for", .emap i), ("while", .expr p), ("step", .emap s), ("do", .elist b)]) ?_ ?_
  · simp [readSlots, mapR, readKind, readBody, readList, readString, readBool, readInt, h0, h1, h2, h3, hq]
  · simp [assemble, wrongName, build, slot, mkElse, PyDict.keys, PyDict.get?, Slot.val?, Slot.str?, Slot.bool?, Slot.bytes?, Slot.ty?, Slot.emap?, Slot.elist?, Slot.expr?, Slot.params?, Slot.filter?, Slot.format?, Slot.new?, Slot.code?, mk_plain hp, h0, h1, h2, h3, hq]

theorem rt_foreach {m : Nat} {n a b q} (hp : Plain (.foreach n a b q)) (ih : ∀ x pos, Child x (.foreach n a b q) → isArg x = true → readArg m (node pos x) = .ok x) (pos : Pos) :
    readArg (m + 1) (node pos (.foreach n a b q)) = .ok (.foreach n a b q) := by
  have hm := (hp _ (.refl _)).1; have hq := (hp _ (.refl _)).2
  simp only [made, plain, Bool.and_eq_true, decide_eq_true_eq] at hm hq
  have h1 := rE ih (x := a) (pos := pos.sub 0) .foreach_array (by simp only [hm])
  have h2 := rL ih (xs := b) (pos := pos.sub 1) (fun x h => .foreach_body h) (by simp only [hm])
  rw [node]
  refine read_obj m _ _ (by simp [PyDict.keys]) (ss := [("foreach", .str n), ("in", .expr a), ("do", .elist b), ("seq", .bool q)]) ?_ ?_
  · simp [readSlots, mapR, readKind, readBody, readList, readString, readBool, readInt, h1, h2, hq]
  · simp [assemble, wrongName, build, slot, mkElse, PyDict.keys, PyDict.get?, Slot.val?, Slot.str?, Slot.bool?, Slot.bytes?, Slot.ty?, Slot.emap?, Slot.elist?, Slot.expr?, Slot.params?, Slot.filter?, Slot.format?, Slot.new?, Slot.code?, mk_plain hp, h1, h2, hq]

theorem rt_forkeyval {m : Nat} {k v a b} (hp : Plain (.forkeyval k v a b)) (ih : ∀ x pos, Child x (.forkeyval k v a b) → isArg x = true → readArg m (node pos x) = .ok x) (pos : Pos) :
    readArg (m + 1) (node pos (.forkeyval k v a b)) = .ok (.forkeyval k v a b) := by
  have hm := (hp _ (.refl _)).1; have hq := (hp _ (.refl _)).2
  simp only [made, plain, Bool.and_eq_true, decide_eq_true_eq] at hm hq
  have h2 := rE ih (x := a) (pos := pos.sub 0) .forkeyval_map (by simp only [hm])
  have h3 := rL ih (xs := b) (pos := pos.sub 1) (fun x h => .forkeyval_body h) (by simp only [hm])
  rw [node]
  refine read_obj m _ _ (by simp [PyDict.keys]) (ss := [("forkey", .str k), ("forval", .str v), ("in", .expr a), ("do", .elist b)]) ?_ ?_
  · simp [readSlots, mapR, readKind, readBody, readList, readString, readBool, readInt, h2, h3, hq]
  · simp [assemble, wrongName, build, slot, mkElse, PyDict.keys, PyDict.get?, Slot.val?, Slot.str?, Slot.bool?, Slot.bytes?, Slot.ty?, Slot.emap?, Slot.elist?, Slot.expr?, Slot.params?, Slot.filter?, Slot.format?, Slot.new?, Slot.code?, mk_plain hp, h2, h3, hq]

theorem rt_castBlock {m : Nat} {w cs p} (hp : Plain (.castBlock w cs p)) (ih : ∀ x pos, Child x (.castBlock w cs p) → isArg x = true → readArg m (node pos x) = .ok x)
    (ihc : ∀ x pos, Child x (.castBlock w cs p) → isCase x = true → readCase (readArg m) (node pos x) = .ok x) (pos : Pos) :
    readArg (m + 1) (node pos (.castBlock w cs p)) = .ok (.castBlock w cs p) := by
  have hm := (hp _ (.refl _)).1; have hq := (hp _ (.refl _)).2
  simp only [made, plain, Bool.and_eq_true, decide_eq_true_eq] at hm hq
  have h0 := rE ih (x := w) (pos := pos.sub 0) .castBlock_expr (by simp only [hm])
  have h1 := mapR_nodes (f := readCase (readArg m)) cs (pos.sub 1) (fun x h pos => ihc x pos (.castBlock_case h) (List.all_eq_true.1 hm.2 x h))
  rw [node]
  refine read_obj m _ _ (by simp [PyDict.keys]) (ss := [("cast", .expr w), ("cases", .elist cs), ("partial", .bool p)]) ?_ ?_
  · simp [readSlots, mapR, readKind, readBody, readList, readString, readBool, readInt, h0, h1, hq]
  · simp [assemble, wrongName, build, slot, mkElse, PyDict.keys, PyDict.get?, Slot.val?, Slot.str?, Slot.bool?, Slot.bytes?, Slot.ty?, Slot.emap?, Slot.elist?, Slot.expr?, Slot.params?, Slot.filter?, Slot.format?, Slot.new?, Slot.code?, mk_plain hp, h0, h1, hq]

theorem rt_upcast {m : Nat} {w t} (hp : Plain (.upcast w t)) (ih : ∀ x pos, Child x (.upcast w t) → isArg x = true → readArg m (node pos x) = .ok x) (pos : Pos) :
    readArg (m + 1) (node pos (.upcast w t)) = .ok (.upcast w t) := by
  have hm := (hp _ (.refl _)).1; have hq := (hp _ (.refl _)).2
  simp only [made, plain, Bool.and_eq_true, decide_eq_true_eq] at hm hq
  have h0 := rE ih (x := w) (pos := pos.sub 0) .upcast (by simp only [hm])
  rw [node]
  refine read_obj m _ _ (by simp [PyDict.keys]) (ss := [("upcast", .expr w), ("as", .ty t)]) ?_ ?_
  · simp [readSlots, mapR, readKind, readBody, readList, readString, readBool, readInt, h0, hq]
  · simp [assemble, wrongName, build, slot, mkElse, PyDict.keys, PyDict.get?, Slot.val?, Slot.str?, Slot.bool?, Slot.bytes?, Slot.ty?, Slot.emap?, Slot.elist?, Slot.expr?, Slot.params?, Slot.filter?, Slot.format?, Slot.new?, Slot.code?, mk_plain hp, h0, hq]

theorem rt_pack {m : Nat} {xs} (hp : Plain (.pack xs)) (ih : ∀ x pos, Child x (.pack xs) → isArg x = true → readArg m (node pos x) = .ok x) (pos : Pos) :
    readArg (m + 1) (node pos (.pack xs)) = .ok (.pack xs) := by
  have hm := (hp _ (.refl _)).1; have hq := (hp _ (.refl _)).2
  simp only [made, plain, Bool.and_eq_true, decide_eq_true_eq] at hm hq
  have h0 := readPairs_nodesP (f := readExpr (readArg m)) xs (pos.sub 0) hq (fun k x h pos => rE ih (.pack h) (List.all_eq_true.1 hm.1 _ h))
  rw [node]
  refine read_obj m _ _ (by simp [PyDict.keys]) (ss := [("pack", .emap xs)]) ?_ ?_
  · simp [readSlots, mapR, readKind, readBody, readList, readString, readBool, readInt, h0, hq]
  · simp [assemble, wrongName, build, slot, mkElse, PyDict.keys, PyDict.get?, Slot.val?, Slot.str?, Slot.bool?, Slot.bytes?, Slot.ty?, Slot.emap?, Slot.elist?, Slot.expr?, Slot.params?, Slot.filter?, Slot.format?, Slot.new?, Slot.code?, mk_plain hp, h0, hq]

theorem rt_doc {m : Nat} {c} (hp : Plain (.doc c)) (ih : ∀ x pos, Child x (.doc c) → isArg x = true → readArg m (node pos x) = .ok x) (pos : Pos) :
    readArg (m + 1) (node pos (.doc c)) = .ok (.doc c) := by
  have hm := (hp _ (.refl _)).1; have hq := (hp _ (.refl _)).2
  simp only [made, plain, Bool.and_eq_true, decide_eq_true_eq] at hm hq
  rw [node]
  refine read_obj m _ _ (by simp [PyDict.keys]) (ss := [("doc", .str c)]) ?_ ?_
  · simp [readSlots, mapR, readKind, readBody, readList, readString, readBool, readInt, hq]
  · simp [assemble, wrongName, build, slot, mkElse, PyDict.keys, PyDict.get?, Slot.val?, Slot.str?, Slot.bool?, Slot.bytes?, Slot.ty?, Slot.emap?, Slot.elist?, Slot.expr?, Slot.params?, Slot.filter?, Slot.format?, Slot.new?, Slot.code?, mk_plain hp, hq]

theorem rt_cellGet {m : Nat} {c p} (hp : Plain (.cellGet c p)) (ih : ∀ x pos, Child x (.cellGet c p) → isArg x = true → readArg m (node pos x) = .ok x) (pos : Pos) :
    readArg (m + 1) (node pos (.cellGet c p)) = .ok (.cellGet c p) := by
  have hm := (hp _ (.refl _)).1; have hq := (hp _ (.refl _)).2
  simp only [made, plain, Bool.and_eq_true, decide_eq_true_eq] at hm hq
  have h1 := rL ih (xs := p) (pos := pos.sub 0) (fun x h => .cellGet h) (by simp only [hm])
  rw [node]
  cases p with
  | nil =>
    simp only [opt, List.isEmpty_nil, Bool.not_true, Bool.false_eq_true, if_false, List.nil_append]
    refine read_obj m _ _ (by simp [PyDict.keys]) (ss := [("cell", .str c)]) ?_ ?_
    · simp [readSlots, mapR, readKind, readBody, readList, readString, readBool, readInt, hq]
    · simp [assemble, wrongName, build, slot, mkElse, PyDict.keys, PyDict.get?, Slot.val?, Slot.str?, Slot.bool?, Slot.bytes?, Slot.ty?, Slot.emap?, Slot.elist?, Slot.expr?, Slot.params?, Slot.filter?, Slot.format?, Slot.new?, Slot.code?, mk_plain hp, hq]
  | cons y ys =>
    simp only [opt, List.isEmpty_cons, Bool.not_false, if_true, List.cons_append, List.nil_append]
    refine read_obj m _ _ (by simp [PyDict.keys]) (ss := [("cell", .str c), ("path", .elist (y :: ys))]) ?_ ?_
    · simp [readSlots, mapR, readKind, readBody, readList, readString, readBool, readInt, h1, hq]
    · simp [assemble, wrongName, build, slot, mkElse, PyDict.keys, PyDict.get?, Slot.val?, Slot.str?, Slot.bool?, Slot.bytes?, Slot.ty?, Slot.emap?, Slot.elist?, Slot.expr?, Slot.params?, Slot.filter?, Slot.format?, Slot.new?, Slot.code?, mk_plain hp, h1, hq]

theorem rt_cellTo {m : Nat} {c p r} (hp : Plain (.cellTo c p r)) (ih : ∀ x pos, Child x (.cellTo c p r) → isArg x = true → readArg m (node pos x) = .ok x) (pos : Pos) :
    readArg (m + 1) (node pos (.cellTo c p r)) = .ok (.cellTo c p r) := by
  have hm := (hp _ (.refl _)).1; have hq := (hp _ (.refl _)).2
  simp only [made, plain, Bool.and_eq_true, decide_eq_true_eq] at hm hq
  have h1 := rL ih (xs := p) (pos := pos.sub 0) (fun x h => .cellTo_path h) (by simp only [hm])
  have h2 := ih r (pos.sub 1) .cellTo_to (by simp only [hm])
  rw [node]
  cases p with
  | nil =>
    simp only [opt, List.isEmpty_nil, Bool.not_true, Bool.false_eq_true, if_false, List.nil_append]
    refine read_obj m _ _ (by simp [PyDict.keys]) (ss := [("cell", .str c), ("to", .expr r)]) ?_ ?_
    · simp [readSlots, mapR, readKind, readBody, readList, readString, readBool, readInt, h2, hq]
    · simp [assemble, wrongName, build, slot, mkElse, PyDict.keys, PyDict.get?, Slot.val?, Slot.str?, Slot.bool?, Slot.bytes?, Slot.ty?, Slot.emap?, Slot.elist?, Slot.expr?, Slot.params?, Slot.filter?, Slot.format?, Slot.new?, Slot.code?, mk_plain hp, h2, hq]
  | cons y ys =>
    simp only [opt, List.isEmpty_cons, Bool.not_false, if_true, List.cons_append, List.nil_append]
    refine read_obj m _ _ (by simp [PyDict.keys]) (ss := [("cell", .str c), ("path", .elist (y :: ys)), ("to", .expr r)]) ?_ ?_
    · simp [readSlots, mapR, readKind, readBody, readList, readString, readBool, readInt, h1, h2, hq]
    · simp [assemble, wrongName, build, slot, mkElse, PyDict.keys, PyDict.get?, Slot.val?, Slot.str?, Slot.bool?, Slot.bytes?, Slot.ty?, Slot.emap?, Slot.elist?, Slot.expr?, Slot.params?, Slot.filter?, Slot.format?, Slot.new?, Slot.code?, mk_plain hp, h1, h2, hq]

theorem rt_if_ {m : Nat} {p t e} (hp : Plain (.if_ p t e)) (ih : ∀ x pos, Child x (.if_ p t e) → isArg x = true → readArg m (node pos x) = .ok x) (pos : Pos) :
    readArg (m + 1) (node pos (.if_ p t e)) = .ok (.if_ p t e) := by
  have hm := (hp _ (.refl _)).1; have hq := (hp _ (.refl _)).2
  simp only [made, plain, Bool.and_eq_true, decide_eq_true_eq] at hm hq
  have h0 := rE ih (x := p) (pos := pos.sub 0) .if_pred (by simp only [hm])
  have h1 := rL ih (xs := t) (pos := pos.sub 1) (fun x h => .if_then h) (by simp only [hm])
  have h2 := rL ih (xs := e) (pos := pos.sub 2) (fun x h => .if_else h) (by simp only [hm])
  rw [node]
  cases e with
  | nil =>
    simp only [opt, List.isEmpty_nil, Bool.not_true, Bool.false_eq_true, if_false, List.nil_append]
    refine read_obj m _ _ (by simp [PyDict.keys]) (ss := [("if", .expr p), ("then", .elist t)]) ?_ ?_
    · simp [readSlots, mapR, readKind, readBody, readList, readString, readBool, readInt, h0, h1, hq]
    · simp [assemble, wrongName, build, slot, mkElse, PyDict.keys, PyDict.get?, Slot.val?, Slot.str?, Slot.bool?, Slot.bytes?, Slot.ty?, Slot.emap?, Slot.elist?, Slot.expr?, Slot.params?, Slot.filter?, Slot.format?, Slot.new?, Slot.code?, mk_plain hp, h0, h1, hq]
  | cons y ys =>
    simp only [opt, List.isEmpty_cons, Bool.not_false, if_true, List.cons_append, List.nil_append]
    refine read_obj m _ _ (by simp [PyDict.keys]) (ss := [("if", .expr p), ("then", .elist t), ("else", .elist (y :: ys))]) ?_ ?_
    · simp [readSlots, mapR, readKind, readBody, readList, readString, readBool, readInt, h0, h1, h2, hq]
    · simp [assemble, wrongName, build, slot, mkElse, PyDict.keys, PyDict.get?, Slot.val?, Slot.str?, Slot.bool?, Slot.bytes?, Slot.ty?, Slot.emap?, Slot.elist?, Slot.expr?, Slot.params?, Slot.filter?, Slot.format?, Slot.new?, Slot.code?, mk_plain hp, h0, h1, h2, hq]

theorem rt_cond {m : Nat} {its e} (hp : Plain (.cond its e)) (ih : ∀ x pos, Child x (.cond its e) → isArg x = true → readArg m (node pos x) = .ok x) (pos : Pos) :
    readArg (m + 1) (node pos (.cond its e)) = .ok (.cond its e) := by
  have hm := (hp _ (.refl _)).1; have hq := (hp _ (.refl _)).2
  simp only [made, plain, Bool.and_eq_true, decide_eq_true_eq] at hm hq
  have h0 := rL ih (xs := its) (pos := pos.sub 0) (fun x h => .cond_if h) (all_if hm.1.1)
  have h0' := elseLess_ok hq
  have h1 := rL ih (xs := e) (pos := pos.sub 1) (fun x h => .cond_else h) (by simp only [hm])
  rw [node]
  cases e with
  | nil =>
    simp only [opt, List.isEmpty_nil, Bool.not_true, Bool.false_eq_true, if_false, List.nil_append]
    refine read_obj m _ _ (by simp [PyDict.keys]) (ss := [("cond", .elist its)]) ?_ ?_
    · simp [readSlots, mapR, readKind, readBody, readList, readString, readBool, readInt, h0, h0', hq]
    · simp [assemble, wrongName, build, slot, mkElse, PyDict.keys, PyDict.get?, Slot.val?, Slot.str?, Slot.bool?, Slot.bytes?, Slot.ty?, Slot.emap?, Slot.elist?, Slot.expr?, Slot.params?, Slot.filter?, Slot.format?, Slot.new?, Slot.code?, mk_plain hp, h0, h0', hq]
  | cons y ys =>
    simp only [opt, List.isEmpty_cons, Bool.not_false, if_true, List.cons_append, List.nil_append]
    refine read_obj m _ _ (by simp [PyDict.keys]) (ss := [("cond", .elist its), ("else", .elist (y :: ys))]) ?_ ?_
    · simp [readSlots, mapR, readKind, readBody, readList, readString, readBool, readInt, h0, h0', h1, hq]
    · simp [assemble, wrongName, build, slot, mkElse, PyDict.keys, PyDict.get?, Slot.val?, Slot.str?, Slot.bool?, Slot.bytes?, Slot.ty?, Slot.emap?, Slot.elist?, Slot.expr?, Slot.params?, Slot.filter?, Slot.format?, Slot.new?, Slot.code?, mk_plain hp, h0, h0', h1, hq]

theorem rt_ifNotNull {m : Nat} {xs t e} (hp : Plain (.ifNotNull xs t e)) (ih : ∀ x pos, Child x (.ifNotNull xs t e) → isArg x = true → readArg m (node pos x) = .ok x) (pos : Pos) :
    readArg (m + 1) (node pos (.ifNotNull xs t e)) = .ok (.ifNotNull xs t e) := by
  have hm := (hp _ (.refl _)).1; have hq := (hp _ (.refl _)).2
  simp only [made, plain, Bool.and_eq_true, decide_eq_true_eq] at hm hq
  have h0 := rN ih (xs := xs) (pos := pos.sub 0) (by simp only [hq, not_false_eq_true]) (fun k x h => .ifNotNull_expr h) (by simp only [hm])
  have h1 := rL ih (xs := t) (pos := pos.sub 1) (fun x h => .ifNotNull_then h) (by simp only [hm])
  have h2 := rL ih (xs := e) (pos := pos.sub 2) (fun x h => .ifNotNull_else h) (by simp only [hm])
  rw [node]
  cases e with
  | nil =>
    simp only [opt, List.isEmpty_nil, Bool.not_true, Bool.false_eq_true, if_false, List.nil_append]
    refine read_obj m _ _ (by simp [PyDict.keys]) (ss := [("ifnotnull", .emap xs), ("then", .elist t)]) ?_ ?_
    · simp [readSlots, mapR, readKind, readBody, readList, readString, readBool, readInt, h0, h1, hq]
    · simp [assemble, wrongName, build, slot, mkElse, PyDict.keys, PyDict.get?, Slot.val?, Slot.str?, Slot.bool?, Slot.bytes?, Slot.ty?, Slot.emap?, Slot.elist?, Slot.expr?, Slot.params?, Slot.filter?, Slot.format?, Slot.new?, Slot.code?, mk_plain hp, h0, h1, hq]
  | cons y ys =>
    simp only [opt, List.isEmpty_cons, Bool.not_false, if_true, List.cons_append, List.nil_append]
    refine read_obj m _ _ (by simp [PyDict.keys]) (ss := [("ifnotnull", .emap xs), ("then", .elist t), ("else", .elist (y :: ys))]) ?_ ?_
    · simp [readSlots, mapR, readKind, readBody, readList, readString, readBool, readInt, h0, h1, h2, hq]
    · simp [assemble, wrongName, build, slot, mkElse, PyDict.keys, PyDict.get?, Slot.val?, Slot.str?, Slot.bool?, Slot.bytes?, Slot.ty?, Slot.emap?, Slot.elist?, Slot.expr?, Slot.params?, Slot.filter?, Slot.format?, Slot.new?, Slot.code?, mk_plain hp, h0, h1, h2, hq]

theorem rt_unpack {m : Nat} {b f t e} (hp : Plain (.unpack b f t e)) (ih : ∀ x pos, Child x (.unpack b f t e) → isArg x = true → readArg m (node pos x) = .ok x) (pos : Pos) :
    readArg (m + 1) (node pos (.unpack b f t e)) = .ok (.unpack b f t e) := by
  have hm := (hp _ (.refl _)).1; have hq := (hp _ (.refl _)).2
  simp only [made, plain, Bool.and_eq_true, decide_eq_true_eq] at hm hq
  have h0 := rE ih (x := b) (pos := pos.sub 0) .unpack_bytes (by simp only [hm])
  have h1 := readPairs_format f hq
  have h2 := rL ih (xs := t) (pos := pos.sub 1) (fun x h => .unpack_then h) (by simp only [hm])
  have h3 := rL ih (xs := e) (pos := pos.sub 2) (fun x h => .unpack_else h) (by simp only [hm])
  rw [node]
  cases e with
  | nil =>
    simp only [opt, List.isEmpty_nil, Bool.not_true, Bool.false_eq_true, if_false, List.nil_append]
    refine read_obj m _ _ (by simp [PyDict.keys]) (ss := [("unpack", .expr b), ("format", .format f), ("then", .elist t)]) ?_ ?_
    · simp [readSlots, mapR, readKind, readBody, readList, readString, readBool, readInt, h0, h1, h2, hq]
    · simp [assemble, wrongName, build, slot, mkElse, PyDict.keys, PyDict.get?, Slot.val?, Slot.str?, Slot.bool?, Slot.bytes?, Slot.ty?, Slot.emap?, Slot.elist?, Slot.expr?, Slot.params?, Slot.filter?, Slot.format?, Slot.new?, Slot.code?, mk_plain hp, h0, h1, h2, hq]
  | cons y ys =>
    simp only [opt, List.isEmpty_cons, Bool.not_false, if_true, List.cons_append, List.nil_append]
    refine read_obj m _ _ (by simp [PyDict.keys]) (ss := [("unpack", .expr b), ("format", .format f), ("then", .elist t), ("else", .elist (y :: ys))]) ?_ ?_
    · simp [readSlots, mapR, readKind, readBody, readList, readString, readBool, readInt, h0, h1, h2, h3, hq]
    · simp [assemble, wrongName, build, slot, mkElse, PyDict.keys, PyDict.get?, Slot.val?, Slot.str?, Slot.bool?, Slot.bytes?, Slot.ty?, Slot.emap?, Slot.elist?, Slot.expr?, Slot.params?, Slot.filter?, Slot.format?, Slot.new?, Slot.code?, mk_plain hp, h0, h1, h2, h3, hq]

theorem rt_try_ {m : Nat} {xs f} (hp : Plain (.try_ xs f)) (ih : ∀ x pos, Child x (.try_ xs f) → isArg x = true → readArg m (node pos x) = .ok x) (pos : Pos) :
    readArg (m + 1) (node pos (.try_ xs f)) = .ok (.try_ xs f) := by
  have hm := (hp _ (.refl _)).1; have hq := (hp _ (.refl _)).2
  simp only [made, plain, Bool.and_eq_true, decide_eq_true_eq] at hm hq
  have h0 := rL ih (xs := xs) (pos := pos.sub 0) (fun x h => .try_ h) (by simp only [hm])
  cases f with
  | none =>
    rw [node]
    refine read_obj m _ _ (by simp [PyDict.keys]) (ss := [("try", .elist xs)]) ?_ ?_
    · simp [readSlots, mapR, readKind, readBody, readList, readString, readBool, readInt, h0, hq]
    · simp [assemble, wrongName, build, slot, mkElse, PyDict.keys, PyDict.get?, Slot.val?, Slot.str?, Slot.bool?, Slot.bytes?, Slot.ty?, Slot.emap?, Slot.elist?, Slot.expr?, Slot.params?, Slot.filter?, Slot.format?, Slot.new?, Slot.code?, mk_plain hp, h0, hq]
  | some y =>
    rw [node]
    have hr := readStrInt_map y (fun v hv => List.all_eq_true.1 hm.2 v hv)
    refine read_obj m _ _ (by simp [PyDict.keys]) (ss := [("try", .elist xs), ("filter", .filter y)]) ?_ ?_
    · simp [readSlots, mapR, readKind, readBody, readList, readString, readBool, readInt, h0, hq, hr]
    · simp [assemble, wrongName, build, slot, mkElse, PyDict.keys, PyDict.get?, Slot.val?, Slot.str?, Slot.bool?, Slot.bytes?, Slot.ty?, Slot.emap?, Slot.elist?, Slot.expr?, Slot.params?, Slot.filter?, Slot.format?, Slot.new?, Slot.code?, mk_plain hp, h0, hq, hr]

theorem rt_log {m : Nat} {xs n} (hp : Plain (.log xs n)) (ih : ∀ x pos, Child x (.log xs n) → isArg x = true → readArg m (node pos x) = .ok x) (pos : Pos) :
    readArg (m + 1) (node pos (.log xs n)) = .ok (.log xs n) := by
  have hm := (hp _ (.refl _)).1; have hq := (hp _ (.refl _)).2
  simp only [made, plain, Bool.and_eq_true, decide_eq_true_eq] at hm hq
  have h0 := rL ih (xs := xs) (pos := pos.sub 0) (fun x h => .log h) (by simp only [hm])
  cases n with
  | none =>
    rw [node]
    refine read_obj m _ _ (by simp [PyDict.keys]) (ss := [("log", .elist xs)]) ?_ ?_
    · simp [readSlots, mapR, readKind, readBody, readList, readString, readBool, readInt, h0, hq]
    · simp [assemble, wrongName, build, slot, mkElse, PyDict.keys, PyDict.get?, Slot.val?, Slot.str?, Slot.bool?, Slot.bytes?, Slot.ty?, Slot.emap?, Slot.elist?, Slot.expr?, Slot.params?, Slot.filter?, Slot.format?, Slot.new?, Slot.code?, mk_plain hp, h0, hq]
  | some y =>
    rw [node]
    refine read_obj m _ _ (by simp [PyDict.keys]) (ss := [("log", .elist xs), ("namespace", .str y)]) ?_ ?_
    · simp [readSlots, mapR, readKind, readBody, readList, readString, readBool, readInt, h0, hq]
    · simp [assemble, wrongName, build, slot, mkElse, PyDict.keys, PyDict.get?, Slot.val?, Slot.str?, Slot.bool?, Slot.bytes?, Slot.ty?, Slot.emap?, Slot.elist?, Slot.expr?, Slot.params?, Slot.filter?, Slot.format?, Slot.new?, Slot.code?, mk_plain hp, h0, hq]

theorem rt_error {m : Nat} {s c} (hp : Plain (.error s c)) (ih : ∀ x pos, Child x (.error s c) → isArg x = true → readArg m (node pos x) = .ok x) (pos : Pos) :
    readArg (m + 1) (node pos (.error s c)) = .ok (.error s c) := by
  have hm := (hp _ (.refl _)).1; have hq := (hp _ (.refl _)).2
  simp only [made, plain, Bool.and_eq_true, decide_eq_true_eq] at hm hq
  cases c with
  | none =>
    rw [node]
    refine read_obj m _ _ (by simp [PyDict.keys]) (ss := [("error", .str s)]) ?_ ?_
    · simp [readSlots, mapR, readKind, readBody, readList, readString, readBool, readInt, hq]
    · simp [assemble, wrongName, build, slot, mkElse, PyDict.keys, PyDict.get?, Slot.val?, Slot.str?, Slot.bool?, Slot.bytes?, Slot.ty?, Slot.emap?, Slot.elist?, Slot.expr?, Slot.params?, Slot.filter?, Slot.format?, Slot.new?, Slot.code?, mk_plain hp, hq]
  | some y =>
    rw [node]
    simp only [Option.all_some, decide_eq_true_eq] at hm hq
    have hr : -2147483648 ≤ y ∧ y ≤ 2147483647 := by omega
    refine read_obj m _ _ (by simp [PyDict.keys]) (ss := [("error", .str s), ("code", .val (.int y))]) ?_ ?_
    · simp [readSlots, mapR, readKind, readBody, readList, readString, readBool, readInt, hr, hm]
    · simp [assemble, wrongName, build, slot, mkElse, PyDict.keys, PyDict.get?, Slot.val?, Slot.str?, Slot.bool?, Slot.bytes?, Slot.ty?, Slot.emap?, Slot.elist?, Slot.expr?, Slot.params?, Slot.filter?, Slot.format?, Slot.new?, Slot.code?, mk_plain hp, hr, hm]
theorem rt_call {m : Nat} {n as} (hp : Plain (.call n as)) (ih : ∀ x pos, Child x (.call n as) → isArg x = true → readArg m (node pos x) = .ok x)
    (pos : Pos) : readArg (m + 1) (node pos (.call n as)) = .ok (.call n as) := by
  have hm := (hp _ (.refl _)).1; have hq := (hp _ (.refl _)).2
  simp only [made, plain, decide_eq_true_eq] at hm hq
  have h0 := mapR_nodes (f := readArg m) as (pos.sub 0) (fun x h pos => ih x pos (.call h) (List.all_eq_true.1 hm x h))
  have hr : n ∉ reserved := fun h => hq.2 (reserved_sub h)
  have hk : ∀ k ∈ PyDict.keys kinds, n ≠ k := fun k hk e => hq.2 (e ▸ hk)
  have ne1 : n ≠ "foreach" := hk _ (by decide +kernel)
  have ne2 : n ≠ "forkey" := hk _ (by decide +kernel)
  have ne3 : n ≠ "forval" := hk _ (by decide +kernel)
  have ne4 : n ≠ "fcn" := hk _ (by decide +kernel)
  rw [node]
  refine read_obj m _ _ (by simp [PyDict.keys, Ne.symm hq.1]) (ss := [(n, .elist as)]) ?_ ?_
  · simp [readSlots, mapR, kindOf_other hq.2, readKind, h0]
  · simp [assemble, wrongName, PyDict.keys, PyDict.get?, ne1, ne2, ne3, ne4, formOf_other hq.2, hr, slot, Slot.elist?, mk_plain hp, show n ∉ List.map Prod.fst kinds from hq.2]

theorem rt_ref {m : Nat} {n} (hp : Plain (.ref n)) (pos : Pos) : readArg (m + 1) (node pos (.ref n)) = .ok (.ref n) := by
  have hq : validSymbol n = true := (hp _ (.refl _)).2
  simp [node, readArg, readStep, readRef, validSymbol_noDot hq, hq, mk_plain hp]

theorem rt_litInt {m : Nat} {v} (hp : Plain (.litInt v)) (pos : Pos) : readArg (m + 1) (node pos (.litInt v)) = .ok (.litInt v) := by
  have hq := (hp _ (.refl _)).2
  cases v <;> simp [plain] at hq
  rw [node, readArg, readStep, if_pos (by omega), mk_plain hp]

theorem rt_litLong {m : Nat} {v} (hp : Plain (.litLong v)) (pos : Pos) : readArg (m + 1) (node pos (.litLong v)) = .ok (.litLong v) := by
  have hq := (hp _ (.refl _)).2
  rw [node]
  refine read_obj m _ _ (by simp [PyDict.keys]) (ss := [("long", .val v)]) ?_ ?_
  · cases v <;> simp [plain] at hq
    · simp [readSlots, mapR, readKind, readInt]
    · simp [readSlots, mapR, readKind, readInt, hq]
  · simp [assemble, wrongName, build, slot, PyDict.keys, PyDict.get?, Slot.val?, mk_plain hp]

theorem rt_litFloat {m : Nat} {v} (hp : Plain (.litFloat v)) (pos : Pos) : readArg (m + 1) (node pos (.litFloat v)) = .ok (.litFloat v) := by
  have hq := (hp _ (.refl _)).2
  rw [node]
  refine read_obj m _ _ (by simp [PyDict.keys]) (ss := [("float", .val v)]) ?_ ?_
  · cases v <;> simp [plain] at hq
    simp [readSlots, mapR, readKind, readFloat]
  · simp [assemble, wrongName, build, slot, PyDict.keys, PyDict.get?, Slot.val?, mk_plain hp]

theorem rt_litDouble {m : Nat} {v} (hp : Plain (.litDouble v)) (pos : Pos) : readArg (m + 1) (node pos (.litDouble v)) = .ok (.litDouble v) := by
  have hq := (hp _ (.refl _)).2
  cases v <;> simp [plain] at hq
  rw [node, readArg, readStep, mk_plain hp]

theorem rt_litBase64 {m : Nat} {bs} (hp : Plain (.litBase64 bs)) (pos : Pos) :
    readArg (m + 1) (node pos (.litBase64 bs)) = .ok (.litBase64 bs) := by
  have hq := (hp _ (.refl _)).2
  simp only [plain] at hq
  rw [node]
  refine read_obj m _ _ (by simp [PyDict.keys]) (ss := [("base64", .bytes bs)]) ?_ ?_
  · simp [readSlots, mapR, readKind, readBase64, b64decode_encode bs (by simpa using hq)]
  · simp [assemble, wrongName, build, slot, PyDict.keys, PyDict.get?, Slot.bytes?, mk_plain hp]

/-- A case of a cast block. -/
theorem rt_case {m : Nat} {x : X} (hp : Plain x) (hx : isCase x = true) (ih : ∀ y pos, Child y x → isArg y = true → readArg m (node pos y) = .ok y)
    (pos : Pos) : readCase (readArg m) (node pos x) = .ok x := by
  cases x <;> simp [isCase] at hx
  rename_i t n b
  have hm := (hp _ (.refl _)).1; have hq := (hp _ (.refl _)).2
  simp only [made, plain, Bool.and_eq_true, decide_eq_true_eq] at hm hq
  have h0 := rL ih (xs := b) (pos := pos.sub 0) (fun x h => .castCase h) hm.1
  rw [node]
  simp only [readCase, entries_start]
  rw [entries_eq (by simp [PyDict.keys])]
  simp [PyDict.get?, readString, readBody, readList, h0, hq, mk_plain hp]

theorem Child.size {x e : X} (h : Child x e) : sizeOf x < sizeOf e := by
  cases h with
  | _ => first | (simp <;> omega; done) | (rename_i h; have := List.sizeOf_lt_of_mem h; simp at *; omega)

/-- Nodes are nested at most `n` deep. -/
inductive Deep : Nat → X → Prop where
  | node {n : Nat} {e : X} (h : ∀ c, Child c e → Deep n c) : Deep (n + 1) e

/-- Every expression is of finite depth. -/
theorem deep_size : ∀ (n : Nat) (e : X), sizeOf e < n → Deep n e
  | 0, _, h => by omega
  | n + 1, e, h => .node fun c hc => deep_size n c (by have := Child.size hc; omega)

theorem Deep.succ {n : Nat} {e : X} (h : Deep n e) : Deep (n + 1) e := by
  induction h with
  | node _ ih => exact .node ih

/-- **C45.** Printing and reading gives back the expression, whatever positions are printed, if the limit on nesting is as large
as the depth of the expression. -/
theorem read_node : ∀ (n : Nat) (e : X), Deep n e → isArg e = true → Plain e → ∀ pos, readArg n (node pos e) = .ok e := by
  intro n
  induction n with
  | zero => intro e h; cases h
  | succ m IH =>
    intro e hs he hp pos
    cases hs with
    | node hs =>
    have ih : ∀ x pos, Child x e → isArg x = true → readArg m (node pos x) = .ok x :=
      fun x pos hc hx => IH x (hs x hc) hx (hp.child hc) pos
    have ihc : ∀ x pos, Child x e → isCase x = true → readCase (readArg m) (node pos x) = .ok x :=
      fun x pos hc hx => rt_case (hp.child hc) hx (fun y pos hy hxy =>
        IH y (match m, hs x hc with | _ + 1, .node h => (h y hy).succ) hxy ((hp.child hc).child hy) pos) pos
    cases e with
    | litNull => simp [node, readArg, readStep, mk, made]
    | litBool => simp [node, readArg, readStep, mk, made]
    | castCase => simp [isArg] at he
    | ref => exact rt_ref hp pos
    | litInt => exact rt_litInt hp pos
    | litLong => exact rt_litLong hp pos
    | litFloat => exact rt_litFloat hp pos
    | litDouble => exact rt_litDouble hp pos
    | litBase64 => exact rt_litBase64 hp pos
    | castBlock => exact rt_castBlock hp ih ihc pos
    | fcnDef => exact rt_fcnDef hp ih pos
    | fcnRef => exact rt_fcnRef hp ih pos
    | fcnRefFill => exact rt_fcnRefFill hp ih pos
    | callUser => exact rt_callUser hp ih pos
    | litString => exact rt_litString hp ih pos
    | literal => exact rt_literal hp ih pos
    | newObject => exact rt_newObject hp ih pos
    | newArray => exact rt_newArray hp ih pos
    | do_ => exact rt_do_ hp ih pos
    | let_ => exact rt_let_ hp ih pos
    | setVar => exact rt_setVar hp ih pos
    | attrGet => exact rt_attrGet hp ih pos
    | attrTo => exact rt_attrTo hp ih pos
    | poolGet => exact rt_poolGet hp ih pos
    | poolTo => exact rt_poolTo hp ih pos
    | poolDel => exact rt_poolDel hp ih pos
    | while_ => exact rt_while_ hp ih pos
    | doUntil => exact rt_doUntil hp ih pos
    | for_ => exact rt_for_ hp ih pos
    | foreach => exact rt_foreach hp ih pos
    | forkeyval => exact rt_forkeyval hp ih pos
    | upcast => exact rt_upcast hp ih pos
    | pack => exact rt_pack hp ih pos
    | doc => exact rt_doc hp ih pos
    | cellGet => exact rt_cellGet hp ih pos
    | cellTo => exact rt_cellTo hp ih pos
    | if_ => exact rt_if_ hp ih pos
    | cond => exact rt_cond hp ih pos
    | ifNotNull => exact rt_ifNotNull hp ih pos
    | unpack => exact rt_unpack hp ih pos
    | try_ => exact rt_try_ hp ih pos
    | log => exact rt_log hp ih pos
    | error => exact rt_error hp ih pos
    | call => exact rt_call hp ih pos

end Verif.Reader
