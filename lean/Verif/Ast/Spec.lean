import Verif.Ast.Basic
/-! # Specification: the parts of a program -/

namespace Verif.Ast

variable {T : Type}

/-- `Child x e`: `x` is written directly inside `e`. -/
inductive Child : E T → E T → Prop where
  | fcnDef {ps r body x} (h : x ∈ body) : Child x (.fcnDef ps r body)
  | fcnRefFill {n fill k x} (h : (k, x) ∈ fill) : Child x (.fcnRefFill n fill)
  | callUser_name {n args} : Child n (.callUser n args)
  | callUser_arg {n args x} (h : x ∈ args) : Child x (.callUser n args)
  | call {n args x} (h : x ∈ args) : Child x (.call n args)
  | newObject {fs t k x} (h : (k, x) ∈ fs) : Child x (.newObject fs t)
  | newArray {is t x} (h : x ∈ is) : Child x (.newArray is t)
  | do_ {body x} (h : x ∈ body) : Child x (.do_ body)
  | let_ {vs k x} (h : (k, x) ∈ vs) : Child x (.let_ vs)
  | setVar {vs k x} (h : (k, x) ∈ vs) : Child x (.setVar vs)
  | attrGet_expr {e p} : Child e (.attrGet e p)
  | attrGet_path {e p x} (h : x ∈ p) : Child x (.attrGet e p)
  | attrTo_expr {e p r} : Child e (.attrTo e p r)
  | attrTo_path {e p r x} (h : x ∈ p) : Child x (.attrTo e p r)
  | attrTo_to {e p r} : Child r (.attrTo e p r)
  | cellGet {c p x} (h : x ∈ p) : Child x (.cellGet c p)
  | cellTo_path {c p r x} (h : x ∈ p) : Child x (.cellTo c p r)
  | cellTo_to {c p r} : Child r (.cellTo c p r)
  | poolGet {c p x} (h : x ∈ p) : Child x (.poolGet c p)
  | poolTo_path {c p r i x} (h : x ∈ p) : Child x (.poolTo c p r i)
  | poolTo_to {c p r i} : Child r (.poolTo c p r i)
  | poolTo_init {c p r i} : Child i (.poolTo c p r i)
  | poolDel {c d} : Child d (.poolDel c d)
  | if_pred {p t e} : Child p (.if_ p t e)
  | if_then {p t e x} (h : x ∈ t) : Child x (.if_ p t e)
  | if_else {p t e x} (h : x ∈ e) : Child x (.if_ p t e)
  | cond_if {its e x} (h : x ∈ its) : Child x (.cond its e)
  | cond_else {its e x} (h : x ∈ e) : Child x (.cond its e)
  | while_pred {p b} : Child p (.while_ p b)
  | while_body {p b x} (h : x ∈ b) : Child x (.while_ p b)
  | doUntil_body {p b x} (h : x ∈ b) : Child x (.doUntil b p)
  | doUntil_pred {p b} : Child p (.doUntil b p)
  | for_init {i p s b k x} (h : (k, x) ∈ i) : Child x (.for_ i p s b)
  | for_pred {i p s b} : Child p (.for_ i p s b)
  | for_step {i p s b k x} (h : (k, x) ∈ s) : Child x (.for_ i p s b)
  | for_body {i p s b x} (h : x ∈ b) : Child x (.for_ i p s b)
  | foreach_array {n a b q} : Child a (.foreach n a b q)
  | foreach_body {n a b q x} (h : x ∈ b) : Child x (.foreach n a b q)
  | forkeyval_map {k v m b} : Child m (.forkeyval k v m b)
  | forkeyval_body {k v m b x} (h : x ∈ b) : Child x (.forkeyval k v m b)
  | castCase {t n b x} (h : x ∈ b) : Child x (.castCase t n b)
  | castBlock_expr {e cs p} : Child e (.castBlock e cs p)
  | castBlock_case {e cs p x} (h : x ∈ cs) : Child x (.castBlock e cs p)
  | upcast {e t} : Child e (.upcast e t)
  | ifNotNull_expr {xs t e k x} (h : (k, x) ∈ xs) : Child x (.ifNotNull xs t e)
  | ifNotNull_then {xs t e x} (h : x ∈ t) : Child x (.ifNotNull xs t e)
  | ifNotNull_else {xs t e x} (h : x ∈ e) : Child x (.ifNotNull xs t e)
  | pack {xs k x} (h : (k, x) ∈ xs) : Child x (.pack xs)
  | unpack_bytes {b f t e} : Child b (.unpack b f t e)
  | unpack_then {b f t e x} (h : x ∈ t) : Child x (.unpack b f t e)
  | unpack_else {b f t e x} (h : x ∈ e) : Child x (.unpack b f t e)
  | try_ {xs f x} (h : x ∈ xs) : Child x (.try_ xs f)
  | log {xs n x} (h : x ∈ xs) : Child x (.log xs n)

/-- `Part x e`: `x` is `e` or is written somewhere inside `e`. -/
inductive Part : E T → E T → Prop where
  | refl (e : E T) : Part e e
  | step {x y e : E T} (hx : Part x y) (hy : Child y e) : Part x e

/-- `x` is part of one of the expressions of a list. -/
def PartL (x : E T) (es : List (E T)) : Prop := ∃ e ∈ es, Part x e

/-- `x` is part of one of the expressions of a dictionary. -/
def PartN (x : E T) (es : List (String × E T)) : Prop := ∃ k e, (k, e) ∈ es ∧ Part x e

/-- `x` is part of an engine document. -/
def Engine.Part (x : E T) (c : Engine T) : Prop :=
  PartL x c.begin_ ∨ PartL x c.action ∨ PartL x c.end_ ∨ PartN x c.fcns ∨
    ∃ m, c.merge = some m ∧ PartL x m

theorem Part.trans {x y z : E T} (h : Part x y) (h' : Part y z) : Part x z := by
  induction h' with
  | refl => exact h
  | step _ hy ih => exact .step ih hy

end Verif.Ast
