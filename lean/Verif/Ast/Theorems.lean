import Verif.Ast.Spec
/-! # C44: collect sees the whole program, replace rebuilds it -/

namespace Verif.Ast

variable {T : Type}

theorem part_iff {x e : E T} : Part x e ↔ x = e ∨ ∃ y, Child y e ∧ Part x y := by
  constructor
  · rintro (⟨_⟩ | ⟨hx, hy⟩)
    · exact .inl rfl
    · exact .inr ⟨_, hy, hx⟩
  · rintro (rfl | ⟨y, hy, hx⟩)
    · exact .refl _
    · exact .step hx hy

theorem partL_nil {x : E T} : PartL x [] ↔ False := by simp [PartL]
theorem partL_cons {x e : E T} {es : List (E T)} :
    PartL x (e :: es) ↔ Part x e ∨ PartL x es := by simp [PartL]
theorem partN_nil {x : E T} : PartN x [] ↔ False := by simp [PartN]
theorem partN_cons {x e : E T} {k : String} {es : List (String × E T)} :
    PartN x ((k, e) :: es) ↔ Part x e ∨ PartN x es := by
  simp only [PartN, List.mem_cons, Prod.mk.injEq]
  constructor
  · rintro ⟨k', e', (⟨rfl, rfl⟩ | h), hp⟩
    · exact .inl hp
    · exact .inr ⟨k', e', h, hp⟩
  · rintro (h | ⟨k', e', h, hp⟩)
    · exact ⟨k, e, .inl ⟨rfl, rfl⟩, h⟩
    · exact ⟨k', e', .inr h, hp⟩

/-! ### The parts of each kind of node -/

section
variable {x : E T}

macro "part_tac" : tactic => `(tactic| (
  rw [part_iff]
  apply or_congr_right
  constructor
  · rintro ⟨y, hc, hp⟩
    cases hc <;> first
      | (simp only [PartL, PartN] at *; grind)
      | grind [PartL, PartN]
  · intro h
    try simp only [PartL, PartN] at h
    grind [Child]))

theorem part_fcnDef {ps r body} : Part x (@E.fcnDef T ps r body) ↔
    x = @E.fcnDef T ps r body ∨ (PartL x body) := by
  part_tac
theorem part_fcnRef {n} : Part x (@E.fcnRef T n) ↔ x = @E.fcnRef T n := by
  rw [part_iff]
  constructor
  · rintro (h | ⟨y, hc, -⟩)
    · exact h
    · cases hc
  · exact .inl
theorem part_fcnRefFill {n fill} : Part x (@E.fcnRefFill T n fill) ↔
    x = @E.fcnRefFill T n fill ∨ (PartN x fill) := by
  part_tac
theorem part_callUser {n args} : Part x (@E.callUser T n args) ↔
    x = @E.callUser T n args ∨ (Part x n ∨ PartL x args) := by
  part_tac
theorem part_call {n args} : Part x (@E.call T n args) ↔
    x = @E.call T n args ∨ (PartL x args) := by
  part_tac
theorem part_ref {n} : Part x (@E.ref T n) ↔ x = @E.ref T n := by
  rw [part_iff]
  constructor
  · rintro (h | ⟨y, hc, -⟩)
    · exact h
    · cases hc
  · exact .inl
theorem part_litNull : Part x (@E.litNull T) ↔ x = @E.litNull T := by
  rw [part_iff]
  constructor
  · rintro (h | ⟨y, hc, -⟩)
    · exact h
    · cases hc
  · exact .inl
theorem part_litBool {b} : Part x (@E.litBool T b) ↔ x = @E.litBool T b := by
  rw [part_iff]
  constructor
  · rintro (h | ⟨y, hc, -⟩)
    · exact h
    · cases hc
  · exact .inl
theorem part_litInt {n} : Part x (@E.litInt T n) ↔ x = @E.litInt T n := by
  rw [part_iff]
  constructor
  · rintro (h | ⟨y, hc, -⟩)
    · exact h
    · cases hc
  · exact .inl
theorem part_litLong {n} : Part x (@E.litLong T n) ↔ x = @E.litLong T n := by
  rw [part_iff]
  constructor
  · rintro (h | ⟨y, hc, -⟩)
    · exact h
    · cases hc
  · exact .inl
theorem part_litFloat {q} : Part x (@E.litFloat T q) ↔ x = @E.litFloat T q := by
  rw [part_iff]
  constructor
  · rintro (h | ⟨y, hc, -⟩)
    · exact h
    · cases hc
  · exact .inl
theorem part_litDouble {q} : Part x (@E.litDouble T q) ↔ x = @E.litDouble T q := by
  rw [part_iff]
  constructor
  · rintro (h | ⟨y, hc, -⟩)
    · exact h
    · cases hc
  · exact .inl
theorem part_litString {s} : Part x (@E.litString T s) ↔ x = @E.litString T s := by
  rw [part_iff]
  constructor
  · rintro (h | ⟨y, hc, -⟩)
    · exact h
    · cases hc
  · exact .inl
theorem part_litBase64 {bs} : Part x (@E.litBase64 T bs) ↔ x = @E.litBase64 T bs := by
  rw [part_iff]
  constructor
  · rintro (h | ⟨y, hc, -⟩)
    · exact h
    · cases hc
  · exact .inl
theorem part_literal {t v} : Part x (@E.literal T t v) ↔ x = @E.literal T t v := by
  rw [part_iff]
  constructor
  · rintro (h | ⟨y, hc, -⟩)
    · exact h
    · cases hc
  · exact .inl
theorem part_newObject {fs t} : Part x (@E.newObject T fs t) ↔
    x = @E.newObject T fs t ∨ (PartN x fs) := by
  part_tac
theorem part_newArray {is t} : Part x (@E.newArray T is t) ↔
    x = @E.newArray T is t ∨ (PartL x is) := by
  part_tac
theorem part_do_ {body} : Part x (@E.do_ T body) ↔
    x = @E.do_ T body ∨ (PartL x body) := by
  part_tac
theorem part_let_ {vs} : Part x (@E.let_ T vs) ↔
    x = @E.let_ T vs ∨ (PartN x vs) := by
  part_tac
theorem part_setVar {vs} : Part x (@E.setVar T vs) ↔
    x = @E.setVar T vs ∨ (PartN x vs) := by
  part_tac
theorem part_attrGet {a p} : Part x (@E.attrGet T a p) ↔
    x = @E.attrGet T a p ∨ (Part x a ∨ PartL x p) := by
  part_tac
theorem part_attrTo {a p r} : Part x (@E.attrTo T a p r) ↔
    x = @E.attrTo T a p r ∨ (Part x a ∨ PartL x p ∨ Part x r) := by
  part_tac
theorem part_cellGet {c p} : Part x (@E.cellGet T c p) ↔
    x = @E.cellGet T c p ∨ (PartL x p) := by
  part_tac
theorem part_cellTo {c p r} : Part x (@E.cellTo T c p r) ↔
    x = @E.cellTo T c p r ∨ (PartL x p ∨ Part x r) := by
  part_tac
theorem part_poolGet {c p} : Part x (@E.poolGet T c p) ↔
    x = @E.poolGet T c p ∨ (PartL x p) := by
  part_tac
theorem part_poolTo {c p r i} : Part x (@E.poolTo T c p r i) ↔
    x = @E.poolTo T c p r i ∨ (PartL x p ∨ Part x r ∨ Part x i) := by
  part_tac
theorem part_poolDel {c d} : Part x (@E.poolDel T c d) ↔
    x = @E.poolDel T c d ∨ (Part x d) := by
  part_tac
theorem part_if_ {p t e} : Part x (@E.if_ T p t e) ↔
    x = @E.if_ T p t e ∨ (Part x p ∨ PartL x t ∨ PartL x e) := by
  part_tac
theorem part_cond {its e} : Part x (@E.cond T its e) ↔
    x = @E.cond T its e ∨ (PartL x its ∨ PartL x e) := by
  part_tac
theorem part_while_ {p b} : Part x (@E.while_ T p b) ↔
    x = @E.while_ T p b ∨ (Part x p ∨ PartL x b) := by
  part_tac
theorem part_doUntil {b p} : Part x (@E.doUntil T b p) ↔
    x = @E.doUntil T b p ∨ (PartL x b ∨ Part x p) := by
  part_tac
theorem part_for_ {i p s b} : Part x (@E.for_ T i p s b) ↔
    x = @E.for_ T i p s b ∨ (PartN x i ∨ Part x p ∨ PartN x s ∨ PartL x b) := by
  part_tac
theorem part_foreach {n a b q} : Part x (@E.foreach T n a b q) ↔
    x = @E.foreach T n a b q ∨ (Part x a ∨ PartL x b) := by
  part_tac
theorem part_forkeyval {k v m b} : Part x (@E.forkeyval T k v m b) ↔
    x = @E.forkeyval T k v m b ∨ (Part x m ∨ PartL x b) := by
  part_tac
theorem part_castCase {t n b} : Part x (@E.castCase T t n b) ↔
    x = @E.castCase T t n b ∨ (PartL x b) := by
  part_tac
theorem part_castBlock {a cs p} : Part x (@E.castBlock T a cs p) ↔
    x = @E.castBlock T a cs p ∨ (Part x a ∨ PartL x cs) := by
  part_tac
theorem part_upcast {a t} : Part x (@E.upcast T a t) ↔
    x = @E.upcast T a t ∨ (Part x a) := by
  part_tac
theorem part_ifNotNull {xs t e} : Part x (@E.ifNotNull T xs t e) ↔
    x = @E.ifNotNull T xs t e ∨ (PartN x xs ∨ PartL x t ∨ PartL x e) := by
  part_tac
theorem part_pack {xs} : Part x (@E.pack T xs) ↔
    x = @E.pack T xs ∨ (PartN x xs) := by
  part_tac
theorem part_unpack {b f t e} : Part x (@E.unpack T b f t e) ↔
    x = @E.unpack T b f t e ∨ (Part x b ∨ PartL x t ∨ PartL x e) := by
  part_tac
theorem part_doc {c} : Part x (@E.doc T c) ↔ x = @E.doc T c := by
  rw [part_iff]
  constructor
  · rintro (h | ⟨y, hc, -⟩)
    · exact h
    · cases hc
  · exact .inl
theorem part_error {m c} : Part x (@E.error T m c) ↔ x = @E.error T m c := by
  rw [part_iff]
  constructor
  · rintro (h | ⟨y, hc, -⟩)
    · exact h
    · cases hc
  · exact .inl
theorem part_try_ {xs f} : Part x (@E.try_ T xs f) ↔
    x = @E.try_ T xs f ∨ (PartL x xs) := by
  part_tac
theorem part_log {xs n} : Part x (@E.log T xs n) ↔
    x = @E.log T xs n ∨ (PartL x xs) := by
  part_tac

end

/-! ## collect -/

section
variable {β : Type} (pf : E T → Option β) (b0 : β)

theorem mem_here (e : E T) : b0 ∈ here pf e ↔ pf e = some b0 := by
  simp [here]

mutual
theorem collect_mem : (e : E T) → (b0 ∈ collect pf e ↔ ∃ x, Part x e ∧ pf x = some b0)
  | .fcnDef ps r body => by
    simp only [collect, List.mem_append, mem_here, part_fcnDef, collectL_mem body]
    simp [or_and_right, exists_or, or_assoc]
  | .fcnRef n => by
    simp only [collect, List.mem_append, mem_here, part_fcnRef]
    simp [or_and_right, exists_or, or_assoc]
  | .fcnRefFill n fill => by
    simp only [collect, List.mem_append, mem_here, part_fcnRefFill, collectN_mem fill]
    simp [or_and_right, exists_or, or_assoc]
  | .callUser n args => by
    simp only [collect, List.mem_append, mem_here, part_callUser, collect_mem n, collectL_mem args]
    simp [or_and_right, exists_or, or_assoc]
  | .call n args => by
    simp only [collect, List.mem_append, mem_here, part_call, collectL_mem args]
    simp [or_and_right, exists_or, or_assoc]
  | .ref n => by
    simp only [collect, List.mem_append, mem_here, part_ref]
    simp [or_and_right, exists_or, or_assoc]
  | .litNull => by
    simp only [collect, List.mem_append, mem_here, part_litNull]
    simp [or_and_right, exists_or, or_assoc]
  | .litBool b => by
    simp only [collect, List.mem_append, mem_here, part_litBool]
    simp [or_and_right, exists_or, or_assoc]
  | .litInt n => by
    simp only [collect, List.mem_append, mem_here, part_litInt]
    simp [or_and_right, exists_or, or_assoc]
  | .litLong n => by
    simp only [collect, List.mem_append, mem_here, part_litLong]
    simp [or_and_right, exists_or, or_assoc]
  | .litFloat q => by
    simp only [collect, List.mem_append, mem_here, part_litFloat]
    simp [or_and_right, exists_or, or_assoc]
  | .litDouble q => by
    simp only [collect, List.mem_append, mem_here, part_litDouble]
    simp [or_and_right, exists_or, or_assoc]
  | .litString s => by
    simp only [collect, List.mem_append, mem_here, part_litString]
    simp [or_and_right, exists_or, or_assoc]
  | .litBase64 bs => by
    simp only [collect, List.mem_append, mem_here, part_litBase64]
    simp [or_and_right, exists_or, or_assoc]
  | .literal t v => by
    simp only [collect, List.mem_append, mem_here, part_literal]
    simp [or_and_right, exists_or, or_assoc]
  | .newObject fs t => by
    simp only [collect, List.mem_append, mem_here, part_newObject, collectN_mem fs]
    simp [or_and_right, exists_or, or_assoc]
  | .newArray is t => by
    simp only [collect, List.mem_append, mem_here, part_newArray, collectL_mem is]
    simp [or_and_right, exists_or, or_assoc]
  | .do_ body => by
    simp only [collect, List.mem_append, mem_here, part_do_, collectL_mem body]
    simp [or_and_right, exists_or, or_assoc]
  | .let_ vs => by
    simp only [collect, List.mem_append, mem_here, part_let_, collectN_mem vs]
    simp [or_and_right, exists_or, or_assoc]
  | .setVar vs => by
    simp only [collect, List.mem_append, mem_here, part_setVar, collectN_mem vs]
    simp [or_and_right, exists_or, or_assoc]
  | .attrGet a p => by
    simp only [collect, List.mem_append, mem_here, part_attrGet, collect_mem a, collectL_mem p]
    simp [or_and_right, exists_or, or_assoc]
  | .attrTo a p r => by
    simp only [collect, List.mem_append, mem_here, part_attrTo, collect_mem a, collectL_mem p, collect_mem r]
    simp [or_and_right, exists_or, or_assoc]
  | .cellGet c p => by
    simp only [collect, List.mem_append, mem_here, part_cellGet, collectL_mem p]
    simp [or_and_right, exists_or, or_assoc]
  | .cellTo c p r => by
    simp only [collect, List.mem_append, mem_here, part_cellTo, collectL_mem p, collect_mem r]
    simp [or_and_right, exists_or, or_assoc]
  | .poolGet c p => by
    simp only [collect, List.mem_append, mem_here, part_poolGet, collectL_mem p]
    simp [or_and_right, exists_or, or_assoc]
  | .poolTo c p r i => by
    simp only [collect, List.mem_append, mem_here, part_poolTo, collectL_mem p, collect_mem r, collect_mem i]
    simp [or_and_right, exists_or, or_assoc]
  | .poolDel c d => by
    simp only [collect, List.mem_append, mem_here, part_poolDel, collect_mem d]
    simp [or_and_right, exists_or, or_assoc]
  | .if_ p t e => by
    simp only [collect, List.mem_append, mem_here, part_if_, collect_mem p, collectL_mem t, collectL_mem e]
    simp [or_and_right, exists_or, or_assoc]
  | .cond its e => by
    simp only [collect, List.mem_append, mem_here, part_cond, collectL_mem its, collectL_mem e]
    simp [or_and_right, exists_or, or_assoc]
  | .while_ p b => by
    simp only [collect, List.mem_append, mem_here, part_while_, collect_mem p, collectL_mem b]
    simp [or_and_right, exists_or, or_assoc]
  | .doUntil b p => by
    simp only [collect, List.mem_append, mem_here, part_doUntil, collectL_mem b, collect_mem p]
    simp [or_and_right, exists_or, or_assoc]
  | .for_ i p s b => by
    simp only [collect, List.mem_append, mem_here, part_for_, collectN_mem i, collect_mem p, collectN_mem s, collectL_mem b]
    simp [or_and_right, exists_or, or_assoc]
  | .foreach n a b q => by
    simp only [collect, List.mem_append, mem_here, part_foreach, collect_mem a, collectL_mem b]
    simp [or_and_right, exists_or, or_assoc]
  | .forkeyval k v m b => by
    simp only [collect, List.mem_append, mem_here, part_forkeyval, collect_mem m, collectL_mem b]
    simp [or_and_right, exists_or, or_assoc]
  | .castCase t n b => by
    simp only [collect, List.mem_append, mem_here, part_castCase, collectL_mem b]
    simp [or_and_right, exists_or, or_assoc]
  | .castBlock a cs p => by
    simp only [collect, List.mem_append, mem_here, part_castBlock, collect_mem a, collectL_mem cs]
    simp [or_and_right, exists_or, or_assoc]
  | .upcast a t => by
    simp only [collect, List.mem_append, mem_here, part_upcast, collect_mem a]
    simp [or_and_right, exists_or, or_assoc]
  | .ifNotNull xs t e => by
    simp only [collect, List.mem_append, mem_here, part_ifNotNull, collectN_mem xs, collectL_mem t, collectL_mem e]
    simp [or_and_right, exists_or, or_assoc]
  | .pack xs => by
    simp only [collect, List.mem_append, mem_here, part_pack, collectN_mem xs]
    simp [or_and_right, exists_or, or_assoc]
  | .unpack b f t e => by
    simp only [collect, List.mem_append, mem_here, part_unpack, collect_mem b, collectL_mem t, collectL_mem e]
    simp [or_and_right, exists_or, or_assoc]
  | .doc c => by
    simp only [collect, List.mem_append, mem_here, part_doc]
    simp [or_and_right, exists_or, or_assoc]
  | .error m c => by
    simp only [collect, List.mem_append, mem_here, part_error]
    simp [or_and_right, exists_or, or_assoc]
  | .try_ xs f => by
    simp only [collect, List.mem_append, mem_here, part_try_, collectL_mem xs]
    simp [or_and_right, exists_or, or_assoc]
  | .log xs n => by
    simp only [collect, List.mem_append, mem_here, part_log, collectL_mem xs]
    simp [or_and_right, exists_or, or_assoc]
theorem collectL_mem : (es : List (E T)) → (b0 ∈ collectL pf es ↔ ∃ x, PartL x es ∧ pf x = some b0)
  | [] => by simp [collectL, partL_nil]
  | e :: es => by
    simp only [collectL, List.mem_append, partL_cons, collect_mem e, collectL_mem es]
    simp [or_and_right, exists_or]
theorem collectN_mem : (es : List (String × E T)) → (b0 ∈ collectN pf es ↔ ∃ x, PartN x es ∧ pf x = some b0)
  | [] => by simp [collectN, partN_nil]
  | (k, e) :: es => by
    simp only [collectN, List.mem_append, partN_cons, collect_mem e, collectN_mem es]
    simp [or_and_right, exists_or]
end

end

/-! ## replace -/

section
variable (pf : E T → Option (E T))

mutual
theorem replace_none : (e : E T) → (h : ∀ x, Part x e → pf x = none) → replace pf e = e
  | .fcnDef ps r body , h => by
    rw [replace]; rw [h _ (.refl _)]; simp only [replaceL_none body (fun x hx => h x (part_fcnDef.2 (by simp [hx])))]
  | .fcnRef n , h => by
    rw [replace]; rw [h _ (.refl _)]
  | .fcnRefFill n fill , h => by
    rw [replace]; rw [h _ (.refl _)]; simp only [replaceN_none fill (fun x hx => h x (part_fcnRefFill.2 (by simp [hx])))]
  | .callUser n args , h => by
    rw [replace]; rw [h _ (.refl _)]; simp only [replace_none n (fun x hx => h x (part_callUser.2 (by simp [hx]))), replaceL_none args (fun x hx => h x (part_callUser.2 (by simp [hx])))]
  | .call n args , h => by
    rw [replace]; rw [h _ (.refl _)]; simp only [replaceL_none args (fun x hx => h x (part_call.2 (by simp [hx])))]
  | .ref n , h => by
    rw [replace]; rw [h _ (.refl _)]
  | .litNull , h => by
    rw [replace]; rw [h _ (.refl _)]
  | .litBool b , h => by
    rw [replace]; rw [h _ (.refl _)]
  | .litInt n , h => by
    rw [replace]; rw [h _ (.refl _)]
  | .litLong n , h => by
    rw [replace]; rw [h _ (.refl _)]
  | .litFloat q , h => by
    rw [replace]; rw [h _ (.refl _)]
  | .litDouble q , h => by
    rw [replace]; rw [h _ (.refl _)]
  | .litString s , h => by
    rw [replace]; rw [h _ (.refl _)]
  | .litBase64 bs , h => by
    rw [replace]; rw [h _ (.refl _)]
  | .literal t v , h => by
    rw [replace]; rw [h _ (.refl _)]
  | .newObject fs t , h => by
    rw [replace]; rw [h _ (.refl _)]; simp only [replaceN_none fs (fun x hx => h x (part_newObject.2 (by simp [hx])))]
  | .newArray is t , h => by
    rw [replace]; rw [h _ (.refl _)]; simp only [replaceL_none is (fun x hx => h x (part_newArray.2 (by simp [hx])))]
  | .do_ body , h => by
    rw [replace]; rw [h _ (.refl _)]; simp only [replaceL_none body (fun x hx => h x (part_do_.2 (by simp [hx])))]
  | .let_ vs , h => by
    rw [replace]; rw [h _ (.refl _)]; simp only [replaceN_none vs (fun x hx => h x (part_let_.2 (by simp [hx])))]
  | .setVar vs , h => by
    rw [replace]; rw [h _ (.refl _)]; simp only [replaceN_none vs (fun x hx => h x (part_setVar.2 (by simp [hx])))]
  | .attrGet a p , h => by
    rw [replace]; rw [h _ (.refl _)]; simp only [replace_none a (fun x hx => h x (part_attrGet.2 (by simp [hx]))), replaceL_none p (fun x hx => h x (part_attrGet.2 (by simp [hx])))]
  | .attrTo a p r , h => by
    rw [replace]; rw [h _ (.refl _)]; simp only [replace_none a (fun x hx => h x (part_attrTo.2 (by simp [hx]))), replaceL_none p (fun x hx => h x (part_attrTo.2 (by simp [hx]))), replace_none r (fun x hx => h x (part_attrTo.2 (by simp [hx])))]
  | .cellGet c p , h => by
    rw [replace]; rw [h _ (.refl _)]; simp only [replaceL_none p (fun x hx => h x (part_cellGet.2 (by simp [hx])))]
  | .cellTo c p r , h => by
    rw [replace]; rw [h _ (.refl _)]; simp only [replaceL_none p (fun x hx => h x (part_cellTo.2 (by simp [hx]))), replace_none r (fun x hx => h x (part_cellTo.2 (by simp [hx])))]
  | .poolGet c p , h => by
    rw [replace]; rw [h _ (.refl _)]; simp only [replaceL_none p (fun x hx => h x (part_poolGet.2 (by simp [hx])))]
  | .poolTo c p r i , h => by
    rw [replace]; rw [h _ (.refl _)]; simp only [replaceL_none p (fun x hx => h x (part_poolTo.2 (by simp [hx]))), replace_none r (fun x hx => h x (part_poolTo.2 (by simp [hx]))), replace_none i (fun x hx => h x (part_poolTo.2 (by simp [hx])))]
  | .poolDel c d , h => by
    rw [replace]; rw [h _ (.refl _)]; simp only [replace_none d (fun x hx => h x (part_poolDel.2 (by simp [hx])))]
  | .if_ p t e , h => by
    rw [replace]; rw [h _ (.refl _)]; simp only [replace_none p (fun x hx => h x (part_if_.2 (by simp [hx]))), replaceL_none t (fun x hx => h x (part_if_.2 (by simp [hx]))), replaceL_none e (fun x hx => h x (part_if_.2 (by simp [hx])))]
  | .cond its e , h => by
    rw [replace]; rw [h _ (.refl _)]; simp only [replaceL_none its (fun x hx => h x (part_cond.2 (by simp [hx]))), replaceL_none e (fun x hx => h x (part_cond.2 (by simp [hx])))]
  | .while_ p b , h => by
    rw [replace]; rw [h _ (.refl _)]; simp only [replace_none p (fun x hx => h x (part_while_.2 (by simp [hx]))), replaceL_none b (fun x hx => h x (part_while_.2 (by simp [hx])))]
  | .doUntil b p , h => by
    rw [replace]; rw [h _ (.refl _)]; simp only [replaceL_none b (fun x hx => h x (part_doUntil.2 (by simp [hx]))), replace_none p (fun x hx => h x (part_doUntil.2 (by simp [hx])))]
  | .for_ i p s b , h => by
    rw [replace]; rw [h _ (.refl _)]; simp only [replaceN_none i (fun x hx => h x (part_for_.2 (by simp [hx]))), replace_none p (fun x hx => h x (part_for_.2 (by simp [hx]))), replaceN_none s (fun x hx => h x (part_for_.2 (by simp [hx]))), replaceL_none b (fun x hx => h x (part_for_.2 (by simp [hx])))]
  | .foreach n a b q , h => by
    rw [replace]; rw [h _ (.refl _)]; simp only [replace_none a (fun x hx => h x (part_foreach.2 (by simp [hx]))), replaceL_none b (fun x hx => h x (part_foreach.2 (by simp [hx])))]
  | .forkeyval k v m b , h => by
    rw [replace]; rw [h _ (.refl _)]; simp only [replace_none m (fun x hx => h x (part_forkeyval.2 (by simp [hx]))), replaceL_none b (fun x hx => h x (part_forkeyval.2 (by simp [hx])))]
  | .castCase t n b , h => by
    rw [replace]; rw [h _ (.refl _)]; simp only [replaceL_none b (fun x hx => h x (part_castCase.2 (by simp [hx])))]
  | .castBlock a cs p , h => by
    rw [replace]; rw [h _ (.refl _)]; simp only [replace_none a (fun x hx => h x (part_castBlock.2 (by simp [hx]))), replaceL_none cs (fun x hx => h x (part_castBlock.2 (by simp [hx])))]
  | .upcast a t , h => by
    rw [replace]; rw [h _ (.refl _)]; simp only [replace_none a (fun x hx => h x (part_upcast.2 (by simp [hx])))]
  | .ifNotNull xs t e , h => by
    rw [replace]; rw [h _ (.refl _)]; simp only [replaceN_none xs (fun x hx => h x (part_ifNotNull.2 (by simp [hx]))), replaceL_none t (fun x hx => h x (part_ifNotNull.2 (by simp [hx]))), replaceL_none e (fun x hx => h x (part_ifNotNull.2 (by simp [hx])))]
  | .pack xs , h => by
    rw [replace]; rw [h _ (.refl _)]; simp only [replaceN_none xs (fun x hx => h x (part_pack.2 (by simp [hx])))]
  | .unpack b f t e , h => by
    rw [replace]; rw [h _ (.refl _)]; simp only [replace_none b (fun x hx => h x (part_unpack.2 (by simp [hx]))), replaceL_none t (fun x hx => h x (part_unpack.2 (by simp [hx]))), replaceL_none e (fun x hx => h x (part_unpack.2 (by simp [hx])))]
  | .doc c , h => by
    rw [replace]; rw [h _ (.refl _)]
  | .error m c , h => by
    rw [replace]; rw [h _ (.refl _)]
  | .try_ xs f , h => by
    rw [replace]; rw [h _ (.refl _)]; simp only [replaceL_none xs (fun x hx => h x (part_try_.2 (by simp [hx])))]
  | .log xs n , h => by
    rw [replace]; rw [h _ (.refl _)]; simp only [replaceL_none xs (fun x hx => h x (part_log.2 (by simp [hx])))]
theorem replaceL_none : (es : List (E T)) → (h : ∀ x, PartL x es → pf x = none) → replaceL pf es = es
  | [] , _ => by exact rfl
  | e :: es , h => by
    rw [replaceL, replace_none e (fun x hx => h x (partL_cons.2 (.inl hx))), replaceL_none es (fun x hx => h x (partL_cons.2 (.inr hx)))]
theorem replaceN_none : (es : List (String × E T)) → (h : ∀ x, PartN x es → pf x = none) → replaceN pf es = es
  | [] , _ => by exact rfl
  | (k, e) :: es , h => by
    rw [replaceN, replace_none e (fun x hx => h x (partN_cons.2 (.inl hx))), replaceN_none es (fun x hx => h x (partN_cons.2 (.inr hx)))]
end

end

/-- `Reached pf x e`: `x` is part of `e` and no node strictly around it is replaced. -/
inductive Reached (pf : E T → Option (E T)) : E T → E T → Prop where
  | refl (e : E T) : Reached pf e e
  | step {x y e : E T} (hx : Reached pf x y) (hy : Child y e) (hp : pf e = none) : Reached pf x e

theorem replaceL_eq_map (pf : E T → Option (E T)) (es : List (E T)) :
    replaceL pf es = es.map (replace pf) := by
  induction es with
  | nil => rfl
  | cons e es ih => simp [replaceL, ih]

theorem replaceN_eq_map (pf : E T → Option (E T)) (es : List (String × E T)) :
    replaceN pf es = es.map fun ke => (ke.1, replace pf ke.2) := by
  induction es with
  | nil => rfl
  | cons e es ih => obtain ⟨k, e⟩ := e; simp [replaceN, ih]

theorem replace_some {pf : E T → Option (E T)} {e y : E T} (h : pf e = some y) :
    replace pf e = y := by
  cases e <;> rw [replace, h]

theorem child_replace {pf : E T → Option (E T)} {y e : E T} (hp : pf e = none) (h : Child y e) :
    Child (replace pf y) (replace pf e) := by
  have mL : ∀ {x : E T} {es : List (E T)}, x ∈ es → replace pf x ∈ replaceL pf es := by
    intro x es h; rw [replaceL_eq_map]; exact List.mem_map_of_mem h
  have mN : ∀ {k} {x : E T} {es : List (String × E T)}, (k, x) ∈ es →
      (k, replace pf x) ∈ replaceN pf es := by
    intro k x es h; rw [replaceN_eq_map]; exact List.mem_map.2 ⟨_, h, rfl⟩
  cases h <;> rw [replace, hp] <;> first
    | (rename_i h; exact (by constructor; exact mL h))
    | (rename_i h; exact (by constructor; exact mN h))
    | (rename_i h; first
        | exact .callUser_arg (mL h) | exact .attrGet_path (mL h) | exact .attrTo_path (mL h)
        | exact .cellTo_path (mL h) | exact .poolTo_path (mL h) | exact .if_then (mL h)
        | exact .if_else (mL h) | exact .cond_if (mL h) | exact .cond_else (mL h)
        | exact .while_body (mL h) | exact .doUntil_body (mL h) | exact .for_init (mN h)
        | exact .for_step (mN h) | exact .for_body (mL h) | exact .foreach_body (mL h)
        | exact .forkeyval_body (mL h) | exact .castBlock_case (mL h)
        | exact .ifNotNull_expr (mN h) | exact .ifNotNull_then (mL h) | exact .ifNotNull_else (mL h)
        | exact .unpack_then (mL h) | exact .unpack_else (mL h))
    | exact .callUser_name | exact .attrGet_expr | exact .attrTo_expr | exact .attrTo_to
    | exact .cellTo_to | exact .poolTo_to | exact .poolTo_init | exact .poolDel | exact .if_pred
    | exact .while_pred | exact .doUntil_pred | exact .for_pred | exact .foreach_array
    | exact .forkeyval_map | exact .castBlock_expr | exact .upcast | exact .unpack_bytes

theorem child_of_replace {pf : E T → Option (E T)} {z e : E T} (hp : pf e = none)
    (h : Child z (replace pf e)) : ∃ y, Child y e ∧ z = replace pf y := by
  have mL : ∀ {x : E T} {es : List (E T)}, x ∈ replaceL pf es → ∃ y ∈ es, x = replace pf y := by
    intro x es h; rw [replaceL_eq_map] at h
    obtain ⟨y, h1, h2⟩ := List.mem_map.1 h
    exact ⟨y, h1, h2.symm⟩
  have mN : ∀ {k} {x : E T} {es : List (String × E T)}, (k, x) ∈ replaceN pf es →
      ∃ y, (k, y) ∈ es ∧ x = replace pf y := by
    intro k x es h; rw [replaceN_eq_map] at h
    obtain ⟨⟨k', y⟩, h1, h2⟩ := List.mem_map.1 h
    simp only [Prod.mk.injEq] at h2
    exact ⟨y, h2.1 ▸ h1, h2.2.symm⟩
  cases e <;> rw [replace, hp] at h <;> cases h <;> first
    | (rename_i h; obtain ⟨y, h1, h2⟩ := mL h; exact ⟨y, by grind [Child], h2⟩)
    | (rename_i h; obtain ⟨y, h1, h2⟩ := mN h; exact ⟨y, by grind [Child], h2⟩)
    | exact ⟨_, by grind [Child], rfl⟩

/-- C44: what a replaced node was replaced by is in the result. -/
theorem replaced_visible {pf : E T → Option (E T)} {x y e : E T} (h : Reached pf x e)
    (hx : pf x = some y) : Part y (replace pf e) := by
  induction h with
  | refl => rw [replace_some hx]; exact .refl _
  | step _ hy hp ih => exact .step ih (child_replace hp hy)

/-- C44: and the result consists of nothing but replacements and rebuilt nodes. -/
theorem replace_parts {pf : E T → Option (E T)} {z e : E T} (h : Part z (replace pf e)) :
    (∃ x y, Reached pf x e ∧ pf x = some y ∧ Part z y) ∨
    (∃ x, Reached pf x e ∧ pf x = none ∧ z = replace pf x) := by
  generalize hr : replace pf e = r at h
  induction h generalizing e with
  | refl =>
    subst hr
    cases hp : pf e with
    | none => exact .inr ⟨e, .refl _, hp, rfl⟩
    | some y =>
      refine .inl ⟨e, y, .refl _, hp, ?_⟩
      rw [replace_some hp]
      exact .refl _
  | step hx hy ih =>
    subst hr
    cases hp : pf e with
    | some y =>
      refine .inl ⟨e, y, .refl _, hp, ?_⟩
      rw [replace_some hp] at hy
      exact .step hx hy
    | none =>
      obtain ⟨y', hc, rfl⟩ := child_of_replace hp hy
      rcases ih rfl with ⟨x, y, h1, h2, h3⟩ | ⟨x, h1, h2, h3⟩
      · exact .inl ⟨x, y, .step h1 hc hp, h2, h3⟩
      · exact .inr ⟨x, .step h1 hc hp, h2, h3⟩

/-! ## Engine documents -/

/-- C44: `collect` on an expression returns exactly the images of the matching nodes. -/
theorem collect_exact {β : Type} (pf : E T → Option β) (e : E T) (b : β) :
    b ∈ collect pf e ↔ ∃ x, Part x e ∧ pf x = some b := collect_mem pf b e

/-- C44, for engines without a merge section: `collect` returns every matching node.  Missing: the
nodes of `merge` (see `collect_merge_violation`). -/
theorem engine_collect_partial {β : Type} (pf : E T → Option β) (c : Engine T)
    (hm : c.merge = none) (b : β) :
    b ∈ c.collect pf ↔ ∃ x, c.Part x ∧ pf x = some b := by
  simp only [Engine.collect, List.mem_append, collectL_mem, collectN_mem, Engine.Part, hm]
  simp [or_and_right, exists_or, or_assoc]

/-- C44: whatever the engine, everything `collect` returns comes from a node of the engine. -/
theorem engine_collect_sound {β : Type} (pf : E T → Option β) (c : Engine T) (b : β)
    (h : b ∈ c.collect pf) : ∃ x, c.Part x ∧ pf x = some b := by
  simp only [Engine.collect, List.mem_append, collectL_mem, collectN_mem] at h
  rcases h with ((⟨x, h, hp⟩ | ⟨x, h, hp⟩) | ⟨x, h, hp⟩) | ⟨x, h, hp⟩
  · exact ⟨x, .inl h, hp⟩
  · exact ⟨x, .inr (.inl h), hp⟩
  · exact ⟨x, .inr (.inr (.inl h)), hp⟩
  · exact ⟨x, .inr (.inr (.inr (.inl h))), hp⟩

/-- C44 violated: the nodes of the merge section of a fold engine are not collected. -/
theorem collect_merge_violation : ∃ (c : Engine Unit) (pf : E Unit → Option String),
    (∃ x, c.Part x ∧ pf x = some "total") ∧ "total" ∉ c.collect pf := by
  refine ⟨⟨[], [.ref "input"], [], [], some [.call "+" [.ref "tallyOne", .ref "total"]]⟩,
    fun e => match e with
      | .ref n => some n
      | _ => none, ⟨.ref "total", ?_, rfl⟩, ?_⟩
  · exact .inr (.inr (.inr (.inr ⟨_, rfl, _, List.mem_singleton.2 rfl,
      .step (.refl _) (.call (by simp))⟩)))
  · decide +kernel

/-- C44: `replace` with a function that is defined nowhere in the engine returns an equal engine. -/
theorem engine_replace_none (pf : E T → Option (E T)) (c : Engine T)
    (h : ∀ x, c.Part x → pf x = none) : c.replace pf = c := by
  obtain ⟨b, a, en, f, m⟩ := c
  simp only [Engine.replace]
  rw [replaceL_none pf b fun x hx => h x (.inl hx),
    replaceL_none pf a fun x hx => h x (.inr (.inl hx)),
    replaceL_none pf en fun x hx => h x (.inr (.inr (.inl hx))),
    replaceN_none pf f fun x hx => h x (.inr (.inr (.inr (.inl hx))))]

/-- C44, outside merge: a node that is replaced is visible to `collect` afterwards. -/
theorem engine_replaced_visible_partial (pf : E T → Option (E T)) (c : Engine T) {x y : E T}
    (h : (∃ e ∈ c.begin_, Reached pf x e) ∨ (∃ e ∈ c.action, Reached pf x e) ∨
      (∃ e ∈ c.end_, Reached pf x e) ∨ (∃ k e, (k, e) ∈ c.fcns ∧ Reached pf x e))
    (hx : pf x = some y) : y ∈ (c.replace pf).collect fun z => some z := by
  have L : ∀ es : List (E T), (∃ e ∈ es, Reached pf x e) →
      y ∈ collectL (fun z => some z) (replaceL pf es) := by
    rintro es ⟨e, he, hr⟩
    rw [collectL_mem]
    refine ⟨y, ⟨replace pf e, ?_, replaced_visible hr hx⟩, rfl⟩
    rw [replaceL_eq_map]; exact List.mem_map_of_mem he
  have N : ∀ es : List (String × E T), (∃ k e, (k, e) ∈ es ∧ Reached pf x e) →
      y ∈ collectN (fun z => some z) (replaceN pf es) := by
    rintro es ⟨k, e, he, hr⟩
    rw [collectN_mem]
    refine ⟨y, ⟨k, replace pf e, ?_, replaced_visible hr hx⟩, rfl⟩
    rw [replaceN_eq_map]; exact List.mem_map.2 ⟨_, he, rfl⟩
  simp only [Engine.replace, Engine.collect, List.mem_append]
  rcases h with h | h | h | h
  · exact .inl (.inl (.inl (L _ h)))
  · exact .inl (.inl (.inr (L _ h)))
  · exact .inl (.inr (L _ h))
  · exact .inr (N _ h)

/-- C44 violated: `replace` does not touch the merge section. -/
theorem replace_merge_violation : ∃ (c : Engine Unit) (pf : E Unit → Option (E Unit)) (x : E Unit),
    c.Part x ∧ pf x ≠ none ∧ (c.replace pf).Part x := by
  let pf : E Unit → Option (E Unit) := fun e => match e with
      | .ref "total" => some .litNull
      | _ => none
  let c : Engine Unit := ⟨[], [.ref "input"], [], [], some [.ref "total"]⟩
  have hp : c.Part (.ref "total") :=
    .inr (.inr (.inr (.inr ⟨_, rfl, _, List.mem_singleton.2 rfl, .refl _⟩)))
  refine ⟨c, pf, .ref "total", hp, by simp [pf], ?_⟩
  exact .inr (.inr (.inr (.inr ⟨_, rfl, _, List.mem_singleton.2 rfl, .refl _⟩)))

/-- The hypotheses of the theorems above on a concrete engine: references are collected from a
function body, a cell update and a loop. -/
example : (Engine.mk (T := Unit) [] [.cellTo "x" [.ref "i"] (.fcnDef [("old", ())] ()
      [.call "+" [.ref "old", .litInt (.int 1)]]), .for_ [("j", .litInt (.int 0))] (.ref "p") [("j", .ref "k")]
      [.do_ [.ref "m"]]] [] [("f", .fcnDef [] () [.ref "z"])] none).collect
    (fun e => match e with
      | .ref n => some n
      | _ => none) = ["i", "old", "p", "k", "m", "z"] := by decide +kernel

end Verif.Ast
