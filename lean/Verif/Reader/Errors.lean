import Verif.Reader.Wrong

/-!
# What reading can raise (C64)

`read_errors_partial`: if the JSON avoids the places shown in `Verif/Reader/Wrong.lean` (`tame`), reading it raises nothing but
PFASyntaxException and, for nesting beyond the limit, RecursionError.
-/

namespace Verif.Reader
open Avro Ast

/-! ## The condition -/

/-- An object with the keys of If. -/
def ifObject : Val → Bool
  | .dict d => sameKeys (PyDict.keys (entries d)) ["if", "then"] || sameKeys (PyDict.keys (entries d)) ["if", "then", "else"]
  | _ => false

def isDict : Val → Bool | .dict _ => true | _ => false

/-- An object whose name, if there is just one, is a valid symbol. -/
def paramObject : Val → Bool
  | .dict d => match entries d with
    | [(n, _)] => validSymbol n
    | _ => true
  | _ => false

/-- Conditions on the value of a key. -/
def tameKind : Kind → Val → Bool
  | .float, .int i => decide (i.natAbs < dblLimit)
  | .base64, .str s => (b64decode s).toBool
  | .cond, .arr xs => xs.all ifObject
  | .cases, .arr xs => xs.all isDict
  | .params, .arr xs => xs.all paramObject
  | _, _ => true

/-- Conditions on names. -/
def tameName (k : String) : Val → Bool
  | .str s => if k = "foreach" ∨ k = "forkey" ∨ k = "forval" then validSymbol s else if k = "fcn" then validFunction s else true
  | _ => true

mutual
/-- No object with the one key `del`, no number beyond the range of a double where one is expected, no bad base64, no cond whose branches are not
objects with the keys of If, no cases and parameters that are not objects, and no invalid names of loop variables, functions and parameters. -/
def tame : Val → Bool
  | .dict d => tameD d && decide (PyDict.keys (entries d) ≠ ["del"])
  | .arr xs => tameL xs
  | _ => true
@[inherit_doc tame] def tameL : List Val → Bool
  | [] => true
  | x :: xs => tame x && tameL xs
@[inherit_doc tame] def tameD : List (String × Val) → Bool
  | [] => true
  | (k, v) :: d => tameKind (kindOf k) v && tameName k v && tame v && tameD d
end

/-- PFASyntaxException or RecursionError. -/
def Syn (e : Err) : Prop := e = syn ∨ e = recErr

theorem tameL_mem {xs : List Val} (h : tameL xs = true) : ∀ x ∈ xs, tame x = true := by
  induction xs with
  | nil => simp
  | cons x xs ih =>
    simp only [tameL, Bool.and_eq_true] at h
    intro y hy
    rcases List.mem_cons.1 hy with rfl | hy
    · exact h.1
    · exact ih h.2 y hy

theorem tameD_mem {d : List (String × Val)} (h : tameD d = true) :
    ∀ k v, (k, v) ∈ d → tameKind (kindOf k) v = true ∧ tameName k v = true ∧ tame v = true := by
  induction d with
  | nil => simp
  | cons kv d ih =>
    obtain ⟨k', v'⟩ := kv
    simp only [tameD, Bool.and_eq_true] at h
    intro k v hy
    rcases List.mem_cons.1 hy with e | hy
    · injection e with e1 e2; subst e1; subst e2; exact ⟨h.1.1.1, h.1.1.2, h.1.2⟩
    · exact ih h.2 k v hy

/-! ## Errors of the parts -/

theorem app_err {α β : Type} {f : α → β} {r : Res α} {e : Err} (h : Res.app f r = .error e) : r = .error e := by
  cases r with
  | error e' => injection h with h; rw [h]
  | ok a => cases h

theorem mapR_err {α β : Type} {f : α → Res β} {P : Err → Prop} {e : Err} : ∀ {xs : List α}, mapR f xs = .error e →
    (∀ x ∈ xs, ∀ e, f x = .error e → P e) → P e
  | [], h, _ => by cases h
  | x :: xs, h, hP => by
    simp only [mapR] at h
    cases hx : f x with
    | error e' => rw [hx] at h; injection h with h; subst h; exact hP x List.mem_cons_self _ hx
    | ok y =>
      rw [hx] at h
      cases hxs : mapR f xs with
      | ok ys => rw [hxs] at h; cases h
      | error e' =>
        rw [hxs] at h; injection h with h; subst h
        exact mapR_err hxs (fun x hx => hP x (List.mem_cons_of_mem _ hx))

theorem mk_err {x : X} {e : Err} (h : mk x = .error e) : Syn e := by
  unfold mk at h
  by_cases hm : made x = true
  · rw [if_pos hm] at h; cases h
  · rw [if_neg hm] at h; injection h with h; exact .inl h.symm

theorem mkElse_err {l : List X} {x : X} {e : Err} (h : mkElse l x = .error e) : Syn e := by
  unfold mkElse at h
  by_cases hm : l.isEmpty = true
  · rw [if_pos hm] at h; injection h with h; exact .inl h.symm
  · rw [if_neg hm] at h; exact mk_err h

theorem entries_mem {d : List (String × Val)} {kv : String × Val} (h : kv ∈ entries d) : kv ∈ d := (List.mem_filter.1 h).1

theorem readList_err {α : Type} {f : Val → Res α} {v : Val} {e : Err} (h : readList f v = .error e)
    (hP : ∀ xs, v = .arr xs → ∀ x ∈ xs, ∀ e, f x = .error e → Syn e) : Syn e := by
  cases v <;> first | (injection h with h; exact .inl h.symm) | skip
  exact mapR_err h (hP _ rfl)

theorem readMap_err {α : Type} {f : Val → Res α} {v : Val} {e : Err} (ht : tame v = true) (h : readMap f v = .error e)
    (hP : ∀ x, tame x = true → ∀ e, f x = .error e → Syn e) : Syn e := by
  cases v <;> first | (injection h with h; exact .inl h.symm) | skip
  rename_i d
  simp only [tame, Bool.and_eq_true] at ht
  exact mapR_err h (fun kv hkv e he => hP _ (tameD_mem ht.1 kv.1 kv.2 (entries_mem hkv)).2.2 e (app_err he))

theorem readPairs_err {α : Type} {f : Val → Res α} {v : Val} {e : Err} (ht : tame v = true) (h : readPairs f v = .error e)
    (hP : ∀ x, tame x = true → ∀ e, f x = .error e → Syn e) : Syn e := by
  refine readList_err h (fun xs hv x hx e he => ?_)
  subst hv
  have hx' := tameL_mem (by simpa [tame] using ht) x hx
  unfold readPair at he
  cases hr : readMap f x with
  | error e' => rw [hr] at he; injection he with he; subst he; exact readMap_err hx' hr hP
  | ok m =>
    rw [hr] at he
    match m, he with
    | [kv'], he => cases he
    | [], he => injection he with he; exact .inl he.symm
    | _ :: _ :: _, he => injection he with he; exact .inl he.symm

section
variable {rec : Val → Res X} (ih : ∀ v, tame v = true → ∀ e, rec v = .error e → Syn e)
include ih

theorem readExpr_err {v : Val} (ht : tame v = true) {e : Err} (h : readExpr rec v = .error e) : Syn e := by
  unfold readExpr at h
  cases hr : rec v with
  | error e' => rw [hr] at h; injection h with h; subst h; exact ih _ ht _ hr
  | ok x =>
    rw [hr] at h
    by_cases hx : isExpr x = true
    · simp only [hx, if_true] at h; cases h
    · simp only [hx] at h; injection h with h; exact .inl h.symm

theorem readBody_err {v : Val} (ht : tame v = true) {e : Err} (h : readBody rec v = .error e) : Syn e := by
  cases v with
  | arr xs => exact mapR_err h (fun x hx e he => readExpr_err ih (tameL_mem (by simpa [tame] using ht) x hx) he)
  | _ => exact readExpr_err ih ht (app_err h)

theorem readCase_err {v : Val} (ht : tame v = true) (hd : isDict v = true) {e : Err} (h : readCase rec v = .error e) : Syn e := by
  cases v <;> first | (cases hd; done) | skip
  rename_i d
  simp only [tame, Bool.and_eq_true] at ht
  simp only [readCase] at h
  by_cases hk : ((entries d).all fun kv => decide (kv.1 ∈ ["as", "named", "do"])) = true
  · rw [if_pos hk] at h
    have hbody : ∀ b, PyDict.get? (entries d) "do" = some b → ∀ e, readBody rec b = .error e → Syn e :=
      fun b hb e he => readBody_err ih (tameD_mem ht.1 _ _ (entries_mem (get?_mem hb))).2.2 he
    have hname : ∀ n e, readString n = .error e → Syn e := by
      intro n e he
      cases n <;> first | (injection he with he; exact .inl he.symm) | (cases he)
    cases hb0 : PyDict.get? (entries d) "do" with
    | none =>
      cases hn0 : PyDict.get? (entries d) "named" with
      | none => simp [hb0, hn0] at h; exact .inl h.symm
      | some n =>
        cases hn : readString n with
        | error e' => simp [hb0, hn0, hn] at h; subst h; exact hname _ _ hn
        | ok n' => by_cases hv : validSymbol n' = true <;> simp [hb0, hn0, hn, hv] at h <;> exact .inl h.symm
    | some b =>
      cases hb : readBody rec b with
      | error e' =>
        cases hn0 : PyDict.get? (entries d) "named" with
        | none => simp [hb0, hn0, hb] at h; subst h; exact hbody _ hb0 _ hb
        | some n =>
          cases hn : readString n with
          | error e'' => simp [hb0, hn0, hn, hb] at h; subst h; exact hname _ _ hn
          | ok n' => simp [hb0, hn0, hn, hb] at h; subst h; exact hbody _ hb0 _ hb
      | ok b' =>
        cases hn0 : PyDict.get? (entries d) "named" with
        | none => simp [hb0, hn0, hb] at h; exact .inl h.symm
        | some n =>
          cases hn : readString n with
          | error e'' => simp [hb0, hn0, hn, hb] at h; subst h; exact hname _ _ hn
          | ok n' =>
            by_cases hv : validSymbol n' = true
            · cases ht' : PyDict.get? (entries d) "as" with
              | none => simp [hb0, hn0, hn, hb, hv, ht'] at h; exact .inl h.symm
              | some t =>
                simp only [hb0, hn0, hn, hb, hv, ht', Option.map_some, Bool.not_true, Bool.false_eq_true, if_false] at h
                exact mk_err h
            · simp [hb0, hn0, hn, hb, hv] at h; exact .inl h.symm
  · rw [if_neg hk] at h; injection h with h; exact .inl h.symm

end

theorem readInt_err {b : Int} {v : Val} {e : Err} (h : readInt b v = .error e) : Syn e := by
  cases v <;> first | (injection h with h; exact .inl h.symm) | (cases h; done) | skip
  rename_i i
  simp only [readInt] at h
  by_cases hi : -b ≤ i ∧ i ≤ b - 1
  · rw [if_pos hi] at h; cases h
  · rw [if_neg hi] at h; injection h with h; exact .inl h.symm

theorem readParam_err {v : Val} {e : Err} (hp : paramObject v = true) (h : readParam v = .error e) : Syn e := by
  cases v <;> first | (cases hp; done) | skip
  simp only [readParam, paramObject] at h hp
  split at h
  · rename_i n t hd
    simp only [hd] at hp
    rw [if_pos hp] at h; cases h
  · injection h with h; exact .inl h.symm

theorem elseLess_err {l : List X} {e : Err} (hl : ∀ x ∈ l, isIf x = true) (h : elseLess l = .error e) : Syn e := by
  induction l with
  | nil => cases h
  | cons x xs ih =>
    have hx := hl x List.mem_cons_self
    cases x <;> first | (cases hx; done) | skip
    rename_i c
    simp only [elseLess] at h
    by_cases hc : c.isEmpty = true
    · rw [if_pos hc] at h; exact ih (fun x hx => hl x (List.mem_cons_of_mem _ hx)) h
    · rw [if_neg hc] at h; injection h with h; exact .inl h.symm

theorem readKind_err {rec : Val → Res X} (ih : ∀ v, tame v = true → ∀ e, rec v = .error e → Syn e)
    (ihIf : ∀ v x, ifObject v = true → rec v = .ok x → isIf x = true) {k : Kind} {v : Val} (ht : tame v = true) (hk : tameKind k v = true)
    {e : Err} (h : readKind rec k v = .error e) : Syn e := by
  have hex : ∀ x, tame x = true → ∀ e, readExpr rec x = .error e → Syn e := fun x hx e he => readExpr_err ih hx he
  have hl : ∀ xs, v = .arr xs → ∀ x ∈ xs, tame x = true := fun xs hv x hx => by
    subst hv; exact tameL_mem (by simpa [tame] using ht) x hx
  cases k <;> simp only [readKind] at h
  case int => exact readInt_err (app_err h)
  case long => exact readInt_err (app_err h)
  case float =>
    have h := app_err h
    cases v <;> first | (injection h with h; exact .inl h.symm) | (cases h; done) | skip
    have h := app_err h
    simp only [tameKind, decide_eq_true_eq] at hk
    simp only [intToFlt, if_pos hk] at h
    cases h
  case string =>
    have h := app_err h
    cases v <;> first | (injection h with h; exact .inl h.symm) | (cases h; done)
  case base64 =>
    have h := app_err h
    cases v <;> first | (injection h with h; exact .inl h.symm) | skip
    simp only [tameKind] at hk
    simp only [readBase64] at h
    rw [h] at hk; cases hk
  case type => cases h
  case json => cases h
  case emap => exact readMap_err ht (app_err h) hex
  case body => exact readBody_err ih ht (app_err h)
  case elist => exact readList_err (app_err h) (fun xs hv x hx e he => hex x (hl xs hv x hx) e he)
  case expr => exact hex _ ht _ (app_err h)
  case cond =>
    cases hr : readList (readExpr rec) v with
    | error e' =>
      rw [hr] at h; injection h with h; subst h
      exact readList_err hr (fun xs hv x hx e he => hex x (hl xs hv x hx) e he)
    | ok l =>
      rw [hr] at h
      refine elseLess_err ?_ (app_err h)
      cases v <;> first | (cases hr; done) | skip
      simp only [tameKind, List.all_eq_true] at hk
      refine mapR_ok hr (fun x hx y hy => ?_)
      refine ihIf x y (hk x hx) ?_
      unfold readExpr at hy
      cases hr : rec x with
      | error e => rw [hr] at hy; cases hy
      | ok y' =>
        rw [hr] at hy
        by_cases hx : isExpr y' = true
        · simp only [hx, if_true] at hy; injection hy with hy; rw [hy]
        · simp only [hx] at hy; cases hy
  case cases =>
    refine readList_err (app_err h) (fun xs hv x hx e he => ?_)
    have := hl xs hv x hx
    subst hv
    simp only [tameKind, List.all_eq_true] at hk
    exact readCase_err ih this (hk x hx) he
  case bool =>
    have h := app_err h
    cases v <;> first | (injection h with h; exact .inl h.symm) | (cases h; done)
  case new =>
    cases v <;> simp only [readKind] at h <;> first | (injection h with h; exact .inl h.symm) | skip
    · exact readList_err (app_err h) (fun xs hv x hx e he => hex x (hl xs hv x hx) e he)
    · exact readMap_err ht (app_err h) hex
  case params =>
    refine readList_err (app_err h) (fun xs hv x hx e he => ?_)
    subst hv
    simp only [tameKind, List.all_eq_true] at hk
    exact readParam_err (hk x hx) he
  case arg => exact ih _ ht _ (app_err h)
  case amap => exact readMap_err ht (app_err h) (fun x hx e he => ih x hx e he)
  case filter =>
    refine readList_err (app_err h) (fun xs hv x hx e he => ?_)
    cases x <;> first | (injection he with he; exact .inl he.symm) | (cases he; done)
  case format =>
    refine readPairs_err ht (app_err h) (fun x hx e he => ?_)
    cases x <;> first | (injection he with he; exact .inl he.symm) | (cases he; done)
  case pack => exact readPairs_err ht (app_err h) hex
  case args =>
    cases v with
    | arr xs => exact mapR_err (app_err h) (fun x hx e he => ih x (hl xs rfl x hx) e he)
    | _ => exact ih _ ht _ (app_err h)

/-! ## The values of the keys are there -/

/-- Kinds of keys whose values are read by `val?`. -/
def is_val (k : Kind) : Bool := k == .int || k == .long || k == .float || k == .json
/-- Kinds of keys whose values are read by `str?`. -/
def is_str (k : Kind) : Bool := k == .string
/-- Kinds of keys whose values are read by `bool?`. -/
def is_bool (k : Kind) : Bool := k == .bool
/-- Kinds of keys whose values are read by `bytes?`. -/
def is_bytes (k : Kind) : Bool := k == .base64
/-- Kinds of keys whose values are read by `ty?`. -/
def is_ty (k : Kind) : Bool := k == .type
/-- Kinds of keys whose values are read by `emap?`. -/
def is_emap (k : Kind) : Bool := k == .emap || k == .amap || k == .pack
/-- Kinds of keys whose values are read by `elist?`. -/
def is_elist (k : Kind) : Bool := k == .body || k == .elist || k == .cond || k == .cases || k == .args
/-- Kinds of keys whose values are read by `expr?`. -/
def is_expr (k : Kind) : Bool := k == .expr || k == .arg
/-- Kinds of keys whose values are read by `params?`. -/
def is_params (k : Kind) : Bool := k == .params
/-- Kinds of keys whose values are read by `filter?`. -/
def is_filter (k : Kind) : Bool := k == .filter
/-- Kinds of keys whose values are read by `format?`. -/
def is_format (k : Kind) : Bool := k == .format
/-- Kinds of keys whose values are read by `new?`. -/
def is_new (k : Kind) : Bool := k == .new
/-- Kinds of keys whose values are read by `code?`. -/
def is_code (k : Kind) : Bool := k == .int
/-- What `readKind` returns can be used by the accessors. -/
def Shape (k : Kind) (s : Slot) : Prop :=
  (is_val k = true → ∃ a, Slot.val? s = some a) ∧
  (is_str k = true → ∃ a, Slot.str? s = some a) ∧
  (is_bool k = true → ∃ a, Slot.bool? s = some a) ∧
  (is_bytes k = true → ∃ a, Slot.bytes? s = some a) ∧
  (is_ty k = true → ∃ a, Slot.ty? s = some a) ∧
  (is_emap k = true → ∃ a, Slot.emap? s = some a) ∧
  (is_elist k = true → ∃ a, Slot.elist? s = some a) ∧
  (is_expr k = true → ∃ a, Slot.expr? s = some a) ∧
  (is_params k = true → ∃ a, Slot.params? s = some a) ∧
  (is_filter k = true → ∃ a, Slot.filter? s = some a) ∧
  (is_format k = true → ∃ a, Slot.format? s = some a) ∧
  (is_new k = true → ∃ a, Slot.new? s = some a) ∧
  (is_code k = true → ∃ a, Slot.code? s = some a)

theorem readKind_shape {rec : Val → Res X} {k : Kind} {v : Val} {s : Slot} (h : readKind rec k v = .ok s) : Shape k s := by
  cases k <;> simp only [readKind] at h
  case new =>
    cases v <;> simp only [readKind] at h <;> first | (cases h; done) | skip
    all_goals
      obtain ⟨w, hw, rfl⟩ := app_ok_iff h
      simp [Shape, is_val, is_str, is_bool, is_bytes, is_ty, is_emap, is_elist, is_expr, is_params, is_filter, is_format, is_new, is_code, Slot.new?]
  case type => injection h with h; subst h; simp [Shape, is_val, is_str, is_bool, is_bytes, is_ty, is_emap, is_elist, is_expr, is_params, is_filter, is_format, is_new, is_code, Slot.ty?]
  case json => injection h with h; subst h; simp [Shape, is_val, is_str, is_bool, is_bytes, is_ty, is_emap, is_elist, is_expr, is_params, is_filter, is_format, is_new, is_code, Slot.val?]
  case cond =>
    cases hl : readList (readExpr rec) v with
    | error e => rw [hl] at h; cases h
    | ok l =>
      rw [hl] at h
      obtain ⟨w, hw, rfl⟩ := app_ok_iff h
      simp [Shape, is_val, is_str, is_bool, is_bytes, is_ty, is_emap, is_elist, is_expr, is_params, is_filter, is_format, is_new, is_code, Slot.elist?]
  case int =>
    obtain ⟨w, hw, rfl⟩ := app_ok_iff h
    rcases readInt_ok hw with ⟨i, rfl, hi⟩ | ⟨c, rfl⟩ <;>
      simp [Shape, is_val, is_str, is_bool, is_bytes, is_ty, is_emap, is_elist, is_expr, is_params, is_filter, is_format, is_new, is_code, Slot.val?, Slot.code?]
  case args =>
    cases v <;> simp only [readKind] at h
    all_goals
      obtain ⟨w, hw, rfl⟩ := app_ok_iff h
      simp [Shape, is_val, is_str, is_bool, is_bytes, is_ty, is_emap, is_elist, is_expr, is_params, is_filter, is_format, is_new, is_code, Slot.elist?]
  all_goals
    obtain ⟨w, hw, rfl⟩ := app_ok_iff h
    simp [Shape, is_val, is_str, is_bool, is_bytes, is_ty, is_emap, is_elist, is_expr, is_params, is_filter, is_format, is_new, is_code,
      Slot.val?, Slot.str?, Slot.bool?, Slot.bytes?, Slot.emap?, Slot.elist?, Slot.expr?, Slot.params?, Slot.filter?, Slot.format?]

/-- All keys have values of their shapes. -/
def ShapeS (ss : List (String × Slot)) : Prop := ∀ k s, PyDict.get? ss k = some s → Shape (kindOf k) s

theorem readSlots_shape {rec : Val → Res X} {d : List (String × Val)} {ss : List (String × Slot)} (h : readSlots rec d = .ok ss) :
    ShapeS ss := by
  intro k s hs
  exact mapR_ok (P := fun kv => Shape (kindOf kv.1) kv.2) h (fun kv _ y hy => by
    obtain ⟨w, hw, rfl⟩ := app_ok_iff hy
    exact readKind_shape hw) _ (get?_mem hs)

theorem readSlots_keys {rec : Val → Res X} : ∀ {d : List (String × Val)} {ss : List (String × Slot)}, readSlots rec d = .ok ss →
    PyDict.keys ss = PyDict.keys d
  | [], ss, h => by injection h with h; subst h; rfl
  | (k, v) :: d, ss, h => by
    simp only [readSlots, mapR] at h
    cases hx : readKind rec (kindOf k) v with
    | error e => rw [hx] at h; cases h
    | ok y =>
      rw [hx] at h
      simp only [app_ok] at h
      cases hxs : mapR (fun kv : String × Val => Res.app (kv.1, ·) (readKind rec (kindOf kv.1) kv.2)) d with
      | error e => rw [hxs] at h; cases h
      | ok ys =>
        rw [hxs] at h; injection h with h; subst h
        simp only [PyDict.keys, List.map_cons]
        rw [show List.map Prod.fst ys = List.map Prod.fst d from readSlots_keys hxs]

section
variable {ss : List (String × Slot)} {k : String} {e : Err}

theorem slot_err {α : Type} {get : Slot → Option α} {f : α → Res X} (hk : k ∈ PyDict.keys ss)
    (hs : ∀ s, PyDict.get? ss k = some s → ∃ a, get s = some a) (h : slot ss get k f = .error e) : ∃ a, f a = .error e := by
  unfold slot at h
  cases hg : PyDict.get? ss k with
  | none => exact absurd hk ((PyDict.get?_eq_none_iff ss k).1 hg)
  | some s =>
    obtain ⟨a, ha⟩ := hs s hg
    rw [hg] at h
    simp only [Option.bind_some, ha] at h
    exact ⟨a, h⟩

variable (hg : ShapeS ss)
include hg

theorem slot_val_err {f : Val → Res X} (hk : k ∈ PyDict.keys ss) (ht : is_val (kindOf k) = true) (h : slot ss Slot.val? k f = .error e) :
    ∃ a, f a = .error e := slot_err hk (fun s hs => (hg _ _ hs).1 ht) h

theorem slot_str_err {f : String → Res X} (hk : k ∈ PyDict.keys ss) (ht : is_str (kindOf k) = true) (h : slot ss Slot.str? k f = .error e) :
    ∃ a, f a = .error e := slot_err hk (fun s hs => (hg _ _ hs).2.1 ht) h

theorem slot_bool_err {f : Bool → Res X} (hk : k ∈ PyDict.keys ss) (ht : is_bool (kindOf k) = true) (h : slot ss Slot.bool? k f = .error e) :
    ∃ a, f a = .error e := slot_err hk (fun s hs => (hg _ _ hs).2.2.1 ht) h

theorem slot_bytes_err {f : List Nat → Res X} (hk : k ∈ PyDict.keys ss) (ht : is_bytes (kindOf k) = true) (h : slot ss Slot.bytes? k f = .error e) :
    ∃ a, f a = .error e := slot_err hk (fun s hs => (hg _ _ hs).2.2.2.1 ht) h

theorem slot_ty_err {f : Val → Res X} (hk : k ∈ PyDict.keys ss) (ht : is_ty (kindOf k) = true) (h : slot ss Slot.ty? k f = .error e) :
    ∃ a, f a = .error e := slot_err hk (fun s hs => (hg _ _ hs).2.2.2.2.1 ht) h

theorem slot_emap_err {f : List (String × X) → Res X} (hk : k ∈ PyDict.keys ss) (ht : is_emap (kindOf k) = true) (h : slot ss Slot.emap? k f = .error e) :
    ∃ a, f a = .error e := slot_err hk (fun s hs => (hg _ _ hs).2.2.2.2.2.1 ht) h

theorem slot_elist_err {f : List X → Res X} (hk : k ∈ PyDict.keys ss) (ht : is_elist (kindOf k) = true) (h : slot ss Slot.elist? k f = .error e) :
    ∃ a, f a = .error e := slot_err hk (fun s hs => (hg _ _ hs).2.2.2.2.2.2.1 ht) h

theorem slot_expr_err {f : X → Res X} (hk : k ∈ PyDict.keys ss) (ht : is_expr (kindOf k) = true) (h : slot ss Slot.expr? k f = .error e) :
    ∃ a, f a = .error e := slot_err hk (fun s hs => (hg _ _ hs).2.2.2.2.2.2.2.1 ht) h

theorem slot_params_err {f : List (String × Val) → Res X} (hk : k ∈ PyDict.keys ss) (ht : is_params (kindOf k) = true) (h : slot ss Slot.params? k f = .error e) :
    ∃ a, f a = .error e := slot_err hk (fun s hs => (hg _ _ hs).2.2.2.2.2.2.2.2.1 ht) h

theorem slot_filter_err {f : List Val → Res X} (hk : k ∈ PyDict.keys ss) (ht : is_filter (kindOf k) = true) (h : slot ss Slot.filter? k f = .error e) :
    ∃ a, f a = .error e := slot_err hk (fun s hs => (hg _ _ hs).2.2.2.2.2.2.2.2.2.1 ht) h

theorem slot_format_err {f : List (String × String) → Res X} (hk : k ∈ PyDict.keys ss) (ht : is_format (kindOf k) = true) (h : slot ss Slot.format? k f = .error e) :
    ∃ a, f a = .error e := slot_err hk (fun s hs => (hg _ _ hs).2.2.2.2.2.2.2.2.2.2.1 ht) h

theorem slot_new_err {f : List (String × X) ⊕ List X → Res X} (hk : k ∈ PyDict.keys ss) (ht : is_new (kindOf k) = true) (h : slot ss Slot.new? k f = .error e) :
    ∃ a, f a = .error e := slot_err hk (fun s hs => (hg _ _ hs).2.2.2.2.2.2.2.2.2.2.2.1 ht) h

theorem slot_code_err {f : Option Int → Res X} (hk : k ∈ PyDict.keys ss) (ht : is_code (kindOf k) = true) (h : slot ss Slot.code? k f = .error e) :
    ∃ a, f a = .error e := slot_err hk (fun s hs => (hg _ _ hs).2.2.2.2.2.2.2.2.2.2.2.2 ht) h

end

theorem build_err {ss : List (String × Slot)} (hg : ShapeS ss) {want : List String} {f : Form} (hf : (want, f) ∈ forms)
    (hk : ∀ k ∈ want, k ∈ PyDict.keys ss) {e : Err} (h : build ss f = .error e) : Syn e := by
  have hk : ∀ k ∈ (forms.find? (fun p => p.2 = f)).elim [] Prod.fst, k ∈ PyDict.keys ss := by
    have huniq : ∀ p ∈ forms, (forms.find? (fun q => q.2 = p.2)).elim [] Prod.fst = p.1 := by decide +kernel
    rw [huniq _ hf]; exact hk
  cases f <;> simp only [build] at h
  case int =>
    obtain ⟨v, h⟩ := slot_val_err hg (hk "int" (by decide +kernel)) (by simp [is_val]) h
    exact mk_err h
  case long =>
    obtain ⟨v, h⟩ := slot_val_err hg (hk "long" (by decide +kernel)) (by simp [is_val]) h
    exact mk_err h
  case float =>
    obtain ⟨v, h⟩ := slot_val_err hg (hk "float" (by decide +kernel)) (by simp [is_val]) h
    exact mk_err h
  case double =>
    obtain ⟨v, h⟩ := slot_val_err hg (hk "double" (by decide +kernel)) (by simp [is_val]) h
    exact mk_err h
  case string =>
    obtain ⟨s, h⟩ := slot_str_err hg (hk "string" (by decide +kernel)) (by simp [is_str]) h
    exact mk_err h
  case base64 =>
    obtain ⟨b, h⟩ := slot_bytes_err hg (hk "base64" (by decide +kernel)) (by simp [is_bytes]) h
    exact mk_err h
  case literal =>
    obtain ⟨t, h⟩ := slot_ty_err hg (hk "type" (by decide +kernel)) (by simp [is_ty]) h
    obtain ⟨v, h⟩ := slot_val_err hg (hk "value" (by decide +kernel)) (by simp [is_val]) h
    exact mk_err h
  case new =>
    obtain ⟨t, h⟩ := slot_ty_err hg (hk "type" (by decide +kernel)) (by simp [is_ty]) h
    obtain ⟨n, h⟩ := slot_new_err hg (hk "new" (by decide +kernel)) (by simp [is_new]) h
    cases n <;> exact mk_err h
  case do_ =>
    obtain ⟨b, h⟩ := slot_elist_err hg (hk "do" (by decide +kernel)) (by simp [is_elist]) h
    exact mk_err h
  case let_ =>
    obtain ⟨m, h⟩ := slot_emap_err hg (hk "let" (by decide +kernel)) (by simp [is_emap]) h
    exact mk_err h
  case set =>
    obtain ⟨m, h⟩ := slot_emap_err hg (hk "set" (by decide +kernel)) (by simp [is_emap]) h
    exact mk_err h
  case attr =>
    obtain ⟨e, h⟩ := slot_expr_err hg (hk "attr" (by decide +kernel)) (by simp [is_expr]) h
    obtain ⟨p, h⟩ := slot_elist_err hg (hk "path" (by decide +kernel)) (by simp [is_elist]) h
    exact mk_err h
  case attrTo =>
    obtain ⟨e, h⟩ := slot_expr_err hg (hk "attr" (by decide +kernel)) (by simp [is_expr]) h
    obtain ⟨p, h⟩ := slot_elist_err hg (hk "path" (by decide +kernel)) (by simp [is_elist]) h
    obtain ⟨r, h⟩ := slot_expr_err hg (hk "to" (by decide +kernel)) (by simp [is_expr]) h
    exact mk_err h
  case cell =>
    obtain ⟨c, h⟩ := slot_str_err hg (hk "cell" (by decide +kernel)) (by simp [is_str]) h
    exact mk_err h
  case cellPath =>
    obtain ⟨c, h⟩ := slot_str_err hg (hk "cell" (by decide +kernel)) (by simp [is_str]) h
    obtain ⟨p, h⟩ := slot_elist_err hg (hk "path" (by decide +kernel)) (by simp [is_elist]) h
    exact mk_err h
  case cellTo =>
    obtain ⟨c, h⟩ := slot_str_err hg (hk "cell" (by decide +kernel)) (by simp [is_str]) h
    obtain ⟨r, h⟩ := slot_expr_err hg (hk "to" (by decide +kernel)) (by simp [is_expr]) h
    exact mk_err h
  case cellPathTo =>
    obtain ⟨c, h⟩ := slot_str_err hg (hk "cell" (by decide +kernel)) (by simp [is_str]) h
    obtain ⟨p, h⟩ := slot_elist_err hg (hk "path" (by decide +kernel)) (by simp [is_elist]) h
    obtain ⟨r, h⟩ := slot_expr_err hg (hk "to" (by decide +kernel)) (by simp [is_expr]) h
    exact mk_err h
  case pool =>
    obtain ⟨c, h⟩ := slot_str_err hg (hk "pool" (by decide +kernel)) (by simp [is_str]) h
    obtain ⟨p, h⟩ := slot_elist_err hg (hk "path" (by decide +kernel)) (by simp [is_elist]) h
    exact mk_err h
  case poolTo =>
    obtain ⟨c, h⟩ := slot_str_err hg (hk "pool" (by decide +kernel)) (by simp [is_str]) h
    obtain ⟨p, h⟩ := slot_elist_err hg (hk "path" (by decide +kernel)) (by simp [is_elist]) h
    obtain ⟨r, h⟩ := slot_expr_err hg (hk "to" (by decide +kernel)) (by simp [is_expr]) h
    obtain ⟨i, h⟩ := slot_expr_err hg (hk "init" (by decide +kernel)) (by simp [is_expr]) h
    exact mk_err h
  case poolDel =>
    obtain ⟨c, h⟩ := slot_str_err hg (hk "pool" (by decide +kernel)) (by simp [is_str]) h
    obtain ⟨d, h⟩ := slot_expr_err hg (hk "del" (by decide +kernel)) (by simp [is_expr]) h
    exact mk_err h
  case if_ =>
    obtain ⟨p, h⟩ := slot_expr_err hg (hk "if" (by decide +kernel)) (by simp [is_expr]) h
    obtain ⟨t, h⟩ := slot_elist_err hg (hk "then" (by decide +kernel)) (by simp [is_elist]) h
    exact mk_err h
  case ifElse =>
    obtain ⟨p, h⟩ := slot_expr_err hg (hk "if" (by decide +kernel)) (by simp [is_expr]) h
    obtain ⟨t, h⟩ := slot_elist_err hg (hk "then" (by decide +kernel)) (by simp [is_elist]) h
    obtain ⟨e, h⟩ := slot_elist_err hg (hk "else" (by decide +kernel)) (by simp [is_elist]) h
    exact mkElse_err h
  case cond =>
    obtain ⟨l, h⟩ := slot_elist_err hg (hk "cond" (by decide +kernel)) (by simp [is_elist]) h
    exact mk_err h
  case condElse =>
    obtain ⟨l, h⟩ := slot_elist_err hg (hk "cond" (by decide +kernel)) (by simp [is_elist]) h
    obtain ⟨e, h⟩ := slot_elist_err hg (hk "else" (by decide +kernel)) (by simp [is_elist]) h
    exact mkElse_err h
  case while_ =>
    obtain ⟨p, h⟩ := slot_expr_err hg (hk "while" (by decide +kernel)) (by simp [is_expr]) h
    obtain ⟨b, h⟩ := slot_elist_err hg (hk "do" (by decide +kernel)) (by simp [is_elist]) h
    exact mk_err h
  case «until» =>
    obtain ⟨b, h⟩ := slot_elist_err hg (hk "do" (by decide +kernel)) (by simp [is_elist]) h
    obtain ⟨p, h⟩ := slot_expr_err hg (hk "until" (by decide +kernel)) (by simp [is_expr]) h
    exact mk_err h
  case for_ =>
    obtain ⟨i, h⟩ := slot_emap_err hg (hk "for" (by decide +kernel)) (by simp [is_emap]) h
    obtain ⟨p, h⟩ := slot_expr_err hg (hk "while" (by decide +kernel)) (by simp [is_expr]) h
    obtain ⟨s, h⟩ := slot_emap_err hg (hk "step" (by decide +kernel)) (by simp [is_emap]) h
    obtain ⟨b, h⟩ := slot_elist_err hg (hk "do" (by decide +kernel)) (by simp [is_elist]) h
    exact mk_err h
  case foreach =>
    obtain ⟨n, h⟩ := slot_str_err hg (hk "foreach" (by decide +kernel)) (by simp [is_str]) h
    obtain ⟨a, h⟩ := slot_expr_err hg (hk "in" (by decide +kernel)) (by simp [is_expr]) h
    obtain ⟨b, h⟩ := slot_elist_err hg (hk "do" (by decide +kernel)) (by simp [is_elist]) h
    exact mk_err h
  case foreachSeq =>
    obtain ⟨n, h⟩ := slot_str_err hg (hk "foreach" (by decide +kernel)) (by simp [is_str]) h
    obtain ⟨a, h⟩ := slot_expr_err hg (hk "in" (by decide +kernel)) (by simp [is_expr]) h
    obtain ⟨b, h⟩ := slot_elist_err hg (hk "do" (by decide +kernel)) (by simp [is_elist]) h
    obtain ⟨q, h⟩ := slot_bool_err hg (hk "seq" (by decide +kernel)) (by simp [is_bool]) h
    exact mk_err h
  case forkeyval =>
    obtain ⟨k, h⟩ := slot_str_err hg (hk "forkey" (by decide +kernel)) (by simp [is_str]) h
    obtain ⟨v, h⟩ := slot_str_err hg (hk "forval" (by decide +kernel)) (by simp [is_str]) h
    obtain ⟨m, h⟩ := slot_expr_err hg (hk "in" (by decide +kernel)) (by simp [is_expr]) h
    obtain ⟨b, h⟩ := slot_elist_err hg (hk "do" (by decide +kernel)) (by simp [is_elist]) h
    exact mk_err h
  case cast =>
    obtain ⟨e, h⟩ := slot_expr_err hg (hk "cast" (by decide +kernel)) (by simp [is_expr]) h
    obtain ⟨cs, h⟩ := slot_elist_err hg (hk "cases" (by decide +kernel)) (by simp [is_elist]) h
    exact mk_err h
  case castPartial =>
    obtain ⟨e, h⟩ := slot_expr_err hg (hk "cast" (by decide +kernel)) (by simp [is_expr]) h
    obtain ⟨cs, h⟩ := slot_elist_err hg (hk "cases" (by decide +kernel)) (by simp [is_elist]) h
    obtain ⟨p, h⟩ := slot_bool_err hg (hk "partial" (by decide +kernel)) (by simp [is_bool]) h
    exact mk_err h
  case upcast =>
    obtain ⟨e, h⟩ := slot_expr_err hg (hk "upcast" (by decide +kernel)) (by simp [is_expr]) h
    obtain ⟨t, h⟩ := slot_ty_err hg (hk "as" (by decide +kernel)) (by simp [is_ty]) h
    exact mk_err h
  case ifnotnull =>
    obtain ⟨m, h⟩ := slot_emap_err hg (hk "ifnotnull" (by decide +kernel)) (by simp [is_emap]) h
    obtain ⟨t, h⟩ := slot_elist_err hg (hk "then" (by decide +kernel)) (by simp [is_elist]) h
    exact mk_err h
  case ifnotnullElse =>
    obtain ⟨m, h⟩ := slot_emap_err hg (hk "ifnotnull" (by decide +kernel)) (by simp [is_emap]) h
    obtain ⟨t, h⟩ := slot_elist_err hg (hk "then" (by decide +kernel)) (by simp [is_elist]) h
    obtain ⟨e, h⟩ := slot_elist_err hg (hk "else" (by decide +kernel)) (by simp [is_elist]) h
    exact mkElse_err h
  case pack =>
    obtain ⟨m, h⟩ := slot_emap_err hg (hk "pack" (by decide +kernel)) (by simp [is_emap]) h
    exact mk_err h
  case unpack =>
    obtain ⟨b, h⟩ := slot_expr_err hg (hk "unpack" (by decide +kernel)) (by simp [is_expr]) h
    obtain ⟨f, h⟩ := slot_format_err hg (hk "format" (by decide +kernel)) (by simp [is_format]) h
    obtain ⟨t, h⟩ := slot_elist_err hg (hk "then" (by decide +kernel)) (by simp [is_elist]) h
    exact mk_err h
  case unpackElse =>
    obtain ⟨b, h⟩ := slot_expr_err hg (hk "unpack" (by decide +kernel)) (by simp [is_expr]) h
    obtain ⟨f, h⟩ := slot_format_err hg (hk "format" (by decide +kernel)) (by simp [is_format]) h
    obtain ⟨t, h⟩ := slot_elist_err hg (hk "then" (by decide +kernel)) (by simp [is_elist]) h
    obtain ⟨e, h⟩ := slot_elist_err hg (hk "else" (by decide +kernel)) (by simp [is_elist]) h
    exact mkElse_err h
  case doc =>
    obtain ⟨s, h⟩ := slot_str_err hg (hk "doc" (by decide +kernel)) (by simp [is_str]) h
    exact mk_err h
  case error =>
    obtain ⟨s, h⟩ := slot_str_err hg (hk "error" (by decide +kernel)) (by simp [is_str]) h
    exact mk_err h
  case errorCode =>
    obtain ⟨s, h⟩ := slot_str_err hg (hk "error" (by decide +kernel)) (by simp [is_str]) h
    obtain ⟨c, h⟩ := slot_code_err hg (hk "code" (by decide +kernel)) (by simp [is_code]) h
    cases c with
    | none => injection h with h; exact .inl h.symm
    | some c => exact mk_err h
  case try_ =>
    obtain ⟨l, h⟩ := slot_elist_err hg (hk "try" (by decide +kernel)) (by simp [is_elist]) h
    exact mk_err h
  case tryFilter =>
    obtain ⟨l, h⟩ := slot_elist_err hg (hk "try" (by decide +kernel)) (by simp [is_elist]) h
    obtain ⟨f, h⟩ := slot_filter_err hg (hk "filter" (by decide +kernel)) (by simp [is_filter]) h
    exact mk_err h
  case log =>
    obtain ⟨l, h⟩ := slot_elist_err hg (hk "log" (by decide +kernel)) (by simp [is_elist]) h
    exact mk_err h
  case logNs =>
    obtain ⟨l, h⟩ := slot_elist_err hg (hk "log" (by decide +kernel)) (by simp [is_elist]) h
    obtain ⟨s, h⟩ := slot_str_err hg (hk "namespace" (by decide +kernel)) (by simp [is_str]) h
    exact mk_err h
  case fcnDef =>
    obtain ⟨p, h⟩ := slot_params_err hg (hk "params" (by decide +kernel)) (by simp [is_params]) h
    obtain ⟨t, h⟩ := slot_ty_err hg (hk "ret" (by decide +kernel)) (by simp [is_ty]) h
    obtain ⟨b, h⟩ := slot_elist_err hg (hk "do" (by decide +kernel)) (by simp [is_elist]) h
    exact mk_err h
  case fcn =>
    obtain ⟨s, h⟩ := slot_str_err hg (hk "fcn" (by decide +kernel)) (by simp [is_str]) h
    exact mk_err h
  case fcnFill =>
    obtain ⟨s, h⟩ := slot_str_err hg (hk "fcn" (by decide +kernel)) (by simp [is_str]) h
    obtain ⟨m, h⟩ := slot_emap_err hg (hk "fill" (by decide +kernel)) (by simp [is_emap]) h
    exact mk_err h
  case call =>
    obtain ⟨e, h⟩ := slot_expr_err hg (hk "call" (by decide +kernel)) (by simp [is_expr]) h
    obtain ⟨l, h⟩ := slot_elist_err hg (hk "args" (by decide +kernel)) (by simp [is_elist]) h
    exact mk_err h

theorem formOf_some {ks : List String} {f : Form} (h : formOf ks = some f) : ∃ want, (want, f) ∈ forms ∧ sameKeys ks want = true := by
  unfold formOf at h
  cases hf : forms.find? (fun f => sameKeys ks f.1) with
  | none => rw [hf] at h; cases h
  | some p =>
    rw [hf] at h
    injection h with h
    subst h
    exact ⟨p.1, List.mem_of_find?_eq_some hf, List.find?_some (p := fun f : List String × Form => sameKeys ks f.1) hf⟩

theorem assemble_err {ss : List (String × Slot)} (hg : ShapeS ss) {ks : List String} (hks : PyDict.keys ss = ks) (hdel : ks ≠ ["del"])
    (hn : ∀ k s, PyDict.get? ss k = some (.str s) → (k = "foreach" ∨ k = "forkey" ∨ k = "forval" → validSymbol s = true) ∧
      (k = "fcn" → validFunction s = true)) {e : Err} (h : assemble ss ks = .error e) : Syn e := by
  have name : ∀ (ok : String → Bool) k, (∀ s, PyDict.get? ss k = some (.str s) → ok s = true) → wrongName ss ok k = false := by
    intro ok k hok
    unfold wrongName
    cases hs : PyDict.get? ss k with
    | none => rfl
    | some s => cases s <;> first | rfl | (simp [Slot.str?, hok _ hs])
  unfold assemble at h
  rw [name validSymbol "foreach" (fun s hs => (hn _ s hs).1 (by simp)), name validSymbol "forkey" (fun s hs => (hn _ s hs).1 (by simp)),
    name validSymbol "forval" (fun s hs => (hn _ s hs).1 (by simp)), name validFunction "fcn" (fun s hs => (hn _ s hs).2 rfl)] at h
  simp only [Bool.or_false, Bool.false_eq_true, if_false] at h
  cases hf : formOf ks with
  | some f =>
    rw [hf] at h
    obtain ⟨want, hw, hsame⟩ := formOf_some hf
    simp only [sameKeys, Bool.and_eq_true, List.all_eq_true, decide_eq_true_eq] at hsame
    exact build_err hg hw (fun k hk => hks ▸ hsame.2 k hk) h
  | none =>
    rw [hf] at h
    match ks, hks, hdel, h with
    | [], _, _, h => injection h with h; exact .inl h.symm
    | _ :: _ :: _, _, _, h => injection h with h; exact .inl h.symm
    | [k], hks, hdel, h =>
      simp only at h
      by_cases hr : k ∈ reserved
      · rw [if_pos hr] at h; injection h with h; exact .inl h.symm
      · rw [if_neg hr] at h
        have hk : k ∉ PyDict.keys kinds := by
          have : ∀ k ∈ PyDict.keys kinds, k ∈ reserved ∨ k = "del" := by decide +kernel
          intro hk
          rcases this k hk with h | rfl
          · exact hr h
          · exact hdel rfl
        rw [if_neg hk] at h
        obtain ⟨a, h⟩ := slot_elist_err hg (by rw [hks]; simp) (by rw [kindOf_other hk]; rfl) h
        exact mk_err h

theorem readRef_err {s : String} {e : Err} (h : readRef s = .error e) : Syn e := by
  unfold readRef at h
  by_cases hd : '.' ∈ s.toList
  · rw [if_pos hd] at h
    cases hw : words s.toList with
    | nil => rw [hw] at h; injection h with h; exact .inl h.symm
    | cons ref rest =>
      rw [hw] at h
      simp only at h
      by_cases hv : validSymbol (String.ofList ref) = true
      · rw [if_pos hv] at h; exact mk_err h
      · rw [if_neg hv] at h; injection h with h; exact .inl h.symm
  · rw [if_neg hd] at h
    by_cases hv : validSymbol s = true
    · rw [if_pos hv] at h; exact mk_err h
    · rw [if_neg hv] at h; injection h with h; exact .inl h.symm

/-- Names that were read are the ones that were written. -/
theorem readSlots_str {rec : Val → Res X} {d : List (String × Val)} {ss : List (String × Slot)} (h : readSlots rec d = .ok ss)
    {k s : String} (hk : kindOf k = .string) (hs : PyDict.get? ss k = some (.str s)) : (k, .str s) ∈ d := by
  have := mapR_ok (P := fun kv => kv.2 = .str s → kindOf kv.1 = .string → (kv.1, Val.str s) ∈ d) h (fun kv hkv y hy => by
    obtain ⟨w, hw, rfl⟩ := app_ok_iff hy
    intro e1 e2
    subst e1
    simp only [e2, readKind] at hw
    obtain ⟨w, hw, e3⟩ := app_ok_iff hw
    injection e3 with e3; subst e3
    obtain ⟨k', v'⟩ := kv
    cases v' <;> first | (cases hw; done) | skip
    injection hw with hw; subst hw; exact hkv) _ (get?_mem hs)
  exact this rfl hk

theorem formOf_congr {ks ks' : List String} (h : sameKeys ks ks' = true) : formOf ks = formOf ks' := by
  simp only [sameKeys, Bool.and_eq_true, List.all_eq_true, decide_eq_true_eq] at h
  have : ∀ w, sameKeys ks w = sameKeys ks' w := by
    intro w
    rw [Bool.eq_iff_iff]
    simp only [sameKeys, Bool.and_eq_true, List.all_eq_true, decide_eq_true_eq]
    exact ⟨fun hw => ⟨fun x hx => hw.1 x (h.2 x hx), fun x hx => h.1 x (hw.2 x hx)⟩, fun hw => ⟨fun x hx => hw.1 x (h.1 x hx), fun x hx => h.2 x (hw.2 x hx)⟩⟩
  unfold formOf
  simp only [this]

/-- An object with the keys of If is read as an If. -/
theorem read_if (n : Nat) (v : Val) (x : X) (hv : ifObject v = true) (h : readArg n v = .ok x) : isIf x = true := by
  cases n with
  | zero => cases h
  | succ n =>
    cases v <;> first | (cases hv; done) | skip
    rename_i d
    simp only [readArg, readStep] at h
    cases hs : readSlots (readArg n) (entries d) with
    | error e => rw [hs] at h; cases h
    | ok ss =>
      rw [hs] at h
      simp only [assemble] at h
      by_cases hw : (wrongName ss validSymbol "foreach" || wrongName ss validSymbol "forkey" || wrongName ss validSymbol "forval"
        || wrongName ss validFunction "fcn") = true
      · rw [if_pos hw] at h; cases h
      · rw [if_neg hw] at h
        simp only [ifObject, Bool.or_eq_true] at hv
        rcases hv with hv | hv
        · rw [formOf_congr hv] at h
          rw [show formOf ["if", "then"] = some .if_ by decide +kernel] at h
          simp only [build] at h
          obtain ⟨_, _, _, _, h⟩ := slot_ok h
          obtain ⟨_, _, _, _, h⟩ := slot_ok h
          obtain ⟨_, rfl⟩ := mk_ok h
          rfl
        · rw [formOf_congr hv] at h
          rw [show formOf ["if", "then", "else"] = some .ifElse by decide +kernel] at h
          simp only [build] at h
          obtain ⟨_, _, _, _, h⟩ := slot_ok h
          obtain ⟨_, _, _, _, h⟩ := slot_ok h
          obtain ⟨_, _, _, _, h⟩ := slot_ok h
          obtain ⟨_, rfl⟩ := mkElse_ok h
          rfl

/-- **C64, under a condition on the JSON.** -/
theorem read_errors_partial : ∀ (n : Nat) (v : Val), tame v = true → ∀ e, readArg n v = .error e → e = syn ∨ e = recErr
  | 0, v, _, e, h => by injection h with h; exact .inr h.symm
  | n + 1, v, ht, e, h => by
    have ih := read_errors_partial n
    simp only [readArg] at h
    match v, ht, h with
    | .null, _, h => exact mk_err h
    | .bool b, _, h => exact mk_err h
    | .int i, _, h =>
      simp only [readStep] at h
      by_cases h1 : -2 ^ 31 ≤ i ∧ i ≤ 2 ^ 31 - 1
      · rw [if_pos h1] at h; exact mk_err h
      · rw [if_neg h1] at h
        by_cases h2 : -2 ^ 63 ≤ i ∧ i ≤ 2 ^ 63 - 1
        · rw [if_pos h2] at h; exact mk_err h
        · rw [if_neg h2] at h; injection h with h; exact .inl h.symm
    | .flt f, _, h => exact mk_err h
    | .str s, _, h => exact readRef_err h
    | .bytes _, _, h => injection h with h; exact .inl h.symm
    | .arr xs, _, h =>
      match xs, h with
      | [.str s], h => exact mk_err h
      | [], h => injection h with h; exact .inl h.symm
      | [.null], h | [.bool _], h | [.int _], h | [.flt _], h | [.bytes _], h | [.arr _], h | [.dict _], h => injection h with h; exact .inl h.symm
      | _ :: _ :: _, h => simp [readStep] at h; exact .inl h.symm
    | .dict d, ht, h =>
      simp only [tame, Bool.and_eq_true, decide_eq_true_eq] at ht
      simp only [readStep] at h
      cases hs : readSlots (readArg n) (entries d) with
      | error e' =>
        rw [hs] at h; injection h with h; subst h
        refine mapR_err (P := Syn) hs (fun kv hkv e he => ?_)
        obtain ⟨h1, h2, h3⟩ := tameD_mem ht.1 kv.1 kv.2 (entries_mem hkv)
        exact readKind_err ih (read_if n) h3 h1 (app_err he)
      | ok ss =>
        rw [hs] at h
        refine assemble_err (readSlots_shape hs) (readSlots_keys hs) ht.2 ?_ h
        intro k s hks
        constructor
        · intro hk
          have hst : kindOf k = .string := by rcases hk with rfl | rfl | rfl <;> decide +kernel
          have := (tameD_mem ht.1 _ _ (entries_mem (readSlots_str hs hst hks))).2.1
          simpa [tameName, hk] using this
        · intro hk
          have hst : kindOf k = .string := by rw [hk]; decide +kernel
          have := (tameD_mem ht.1 _ _ (entries_mem (readSlots_str hs hst hks))).2.1
          simpa [tameName, hk] using this

/-- The condition is met, and the reading fails. -/
example : tame (.dict [("do", .arr [.dict [("foreach", .str "x"), ("in", .str "y")]])]) = true := by decide +kernel
example : tame (.dict [("base64", .str "A")]) = false := by decide +kernel

end Verif.Reader
