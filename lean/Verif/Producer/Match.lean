import Verif.Producer.Access
/-! # Patterns of JSON expressions: model and meaning (C82)

Models `titus/producer/tools.py` 91-375: `getmatch` and the classes of patterns.

Simplifications.  Regular expressions are given by two functions (does it match, what does it become).  `Approx` subtracts exactly.  An object is a list
of entries with distinct keys. -/

namespace Verif.Producer
open Avro

/-- The types that `Any` can be given. -/
inductive PyType where
  | dict | list | str | int | float | bool | none
deriving DecidableEq

/-- `isinstance(v, type)`; a `bool` is an `int`. -/
def PyType.has : PyType → Val → Bool
  | .dict, .dict _ => true
  | .list, .arr _ => true
  | .str, .str _ => true
  | .int, .int _ => true
  | .int, .bool _ => true
  | .float, .flt _ => true
  | .bool, .bool _ => true
  | .none, .null => true
  | _, _ => false

/-- A literal: `isinstance(pattern, (str, int, float))`, tools.py 145. -/
inductive Lit where
  | str (s : String) | int (i : Int) | flt (f : Flt) | bool (b : Bool)

/-- Patterns: JSON and the classes of lines 165-375. -/
inductive Pat where
  | dict (ps : List (String × Pat))
  | arr (ps : List Pat)
  | lit (l : Lit)
  | null
  | group (name : String) (p : Pat)
  | min (ps : List (String × Pat))
  | start (ps : List Pat)
  | end_ (ps : List Pat)
  | or (ps : List Pat)
  | and (ps : List Pat)
  | approx (central error : Flt)
  | lt (x : Flt) | le (x : Flt) | gt (x : Flt) | ge (x : Flt)
  | regex (ok : String → Bool) (sub : Option (String → String))
  | any (types : List PyType)

/-- Instance of Matcher: has a method `getmatch`. -/
def Pat.isMatcher : Pat → Bool
  | .dict _ | .arr _ | .lit _ | .null => false
  | _ => true

/-- Match, lines 93-107. -/
structure Match where
  original : Val
  modified : Val
  groups : PyDict String Val

/-! ## Numbers -/

/-- A number, as it is compared: `True` is 1. -/
def num? : Val → Option Flt
  | .int i => some (.fin i)
  | .flt f => some f
  | .bool b => some (.fin (if b then 1 else 0))
  | _ => none

/-- `a <= b`, false when one is nan. -/
def fle : Flt → Flt → Bool
  | .nan, _ => false
  | _, .nan => false
  | .ninf, _ => true
  | _, .pinf => true
  | .fin a, .fin b => decide (a ≤ b)
  | _, _ => false

/-- `a < b` -/
def flt : Flt → Flt → Bool
  | .nan, _ => false
  | _, .nan => false
  | a, b => !fle b a

/-- `abs(a - b)` -/
def fdist : Flt → Flt → Flt
  | .fin a, .fin b => .fin |a - b|
  | .nan, _ => .nan
  | _, .nan => .nan
  | .pinf, .pinf => .nan
  | .ninf, .ninf => .nan
  | _, _ => .pinf

/-- `pattern == haystack` for a literal. -/
def litEq : Lit → Val → Bool
  | .str s, .str t => decide (s = t)
  | .str _, _ => false
  | .int i, v => match num? v with | some f => fle (.fin i) f && fle f (.fin i) | none => false
  | .flt x, v => match num? v with | some f => fle x f && fle f x | none => false
  | .bool b, v => match num? v with | some f => fle (.fin (if b then 1 else 0)) f && fle f (.fin (if b then 1 else 0)) | none => false

/-- `Match(haystack, haystack)` if the test succeeds. -/
def same (b : Bool) (v : Val) : Res (Option Match) := .ok (if b then some ⟨v, v, []⟩ else none)

/-- The keys other than "@". -/
def names {α : Type} (d : List (String × α)) : List String := (PyDict.keys d).filter (· ≠ "@")

/-- The three dictionaries that are filled while the keys are gone through. -/
structure Fill where
  original : PyDict String Val
  modified : PyDict String Val
  groups : PyDict String Val

/-- An object without its position mark. -/
def bareD (d : List (String × Val)) : List (String × Val) := d.filter (fun kv => kv.1 ≠ "@")

/-- A match of a list that goes on with `rest` or starts with `before`. -/
def listMatch (before : List Val) (r : Option (List Match)) (rest : List Val) : Option Match := match r with
  | none => none
  | some ms => some ⟨.arr (before ++ ms.map (·.original) ++ rest), .arr (before ++ ms.map (·.modified) ++ rest),
      ms.foldl (fun g m => PyDict.update g m.groups) []⟩

mutual
/-- `getmatch`, tools.py 109-158, and the methods `getmatch` of the classes. -/
def getmatch : Pat → Val → Res (Option Match)
  | .dict ps, .dict d =>
    if (names ps).all (· ∈ names d) && (names d).all (· ∈ names ps) then
      match matchD ps d ⟨[], [], []⟩ with
      | .error e => .error e
      | .ok none => .ok none
      | .ok (some f) => .ok (some ⟨.dict f.original, .dict f.modified, f.groups⟩)
    else .ok none
  | .dict _, _ => .ok none
  | .arr ps, .arr xs => if ps.length ≠ xs.length then .ok none else Res.app (listMatch [] · []) (matchL ps xs)
  | .arr _, _ => .ok none
  | .lit l, v => same (litEq l v) v
  | .null, v => same (match v with | .null => true | _ => false) v
  | .group n p, v =>
    if p.isMatcher then
      match getmatch p v with
      | .error e => .error e
      | .ok none => .ok none
      | .ok (some m) => .ok (some { m with groups := PyDict.set m.groups n m.modified })
    else .error (.py "AttributeError")
  | .min ps, .dict d =>
    if (names ps).all (fun k => k ∈ PyDict.keys d) then
      match matchD ps d ⟨bareD d, bareD d, []⟩ with
      | .error e => .error e
      | .ok none => .ok none
      | .ok (some f) => .ok (some ⟨.dict f.original, .dict f.modified, f.groups⟩)
    else .ok none
  | .min _, _ => .ok none
  | .start ps, .arr xs => if ps.length > xs.length then .ok none else Res.app (listMatch [] · (xs.drop ps.length)) (matchL ps xs)
  | .start _, _ => .ok none
  | .end_ ps, .arr xs => if ps.length > xs.length then .ok none
      else Res.app (listMatch (xs.take (xs.length - ps.length)) · []) (matchL ps (xs.drop (xs.length - ps.length)))
  | .end_ _, _ => .ok none
  | .or ps, v => matchOr ps v
  | .and ps, v => matchAnd ps v none
  | .approx c e, v => match num? v with
    | none => .ok none
    | some x => same (!flt e (fdist x c)) v
  | .lt y, v => match num? v with | none => .ok none | some x => same (!fle y x) v
  | .le y, v => match num? v with | none => .ok none | some x => same (!flt y x) v
  | .gt y, v => match num? v with | none => .ok none | some x => same (!fle x y) v
  | .ge y, v => match num? v with | none => .ok none | some x => same (!flt x y) v
  | .regex ok sub, .str s =>
    if ok s then .ok (some ⟨.str s, .str (match sub with | none => s | some f => f s), []⟩) else .ok none
  | .regex _ _, _ => .ok none
  | .any types, v => same (types.isEmpty || types.any (·.has v)) v
/-- The loops over the keys of a pattern, lines 118-126 and 198-206. -/
def matchD : List (String × Pat) → List (String × Val) → Fill → Res (Option Fill)
  | [], _, f => .ok (some f)
  | (k, p) :: ps, d, f =>
    if k = "@" then matchD ps d f
    else match PyDict.get? d k with
      | none => .error keyErr
      | some v => match getmatch p v with
        | .error e => .error e
        | .ok none => .ok none
        | .ok (some m) => matchD ps d ⟨PyDict.set f.original k m.original, PyDict.set f.modified k m.modified, PyDict.update f.groups m.groups⟩
/-- The loops over the elements of a pattern, lines 135-142 and 222-229. -/
def matchL : List Pat → List Val → Res (Option (List Match))
  | [], _ => .ok (some [])
  | p :: ps, xs => match xs with
    | [] => .error indexErr
    | x :: xs => match getmatch p x with
      | .error e => .error e
      | .ok none => .ok none
      | .ok (some m) => match matchL ps xs with
        | .error e => .error e
        | .ok none => .ok none
        | .ok (some ms) => .ok (some (m :: ms))
/-- Or, lines 259-276. -/
def matchOr : List Pat → Val → Res (Option Match)
  | [], _ => .ok none
  | p :: ps, v => match getmatch p v with
    | .error e => .error e
    | .ok (some m) => .ok (some m)
    | .ok none => matchOr ps v
/-- And, lines 278-295; `last` is the match of the previous alternative. -/
def matchAnd : List Pat → Val → Option Match → Res (Option Match)
  | [], _, last => .ok last
  | p :: ps, v, _ => match getmatch p v with
    | .error e => .error e
    | .ok none => .ok none
    | .ok (some m) => matchAnd ps v (some m)
end

/-! ## Specification -/

/-- The number of a literal. -/
def Lit.num? : Lit → Option Flt
  | .int i => some (.fin i)
  | .flt f => some f
  | .bool b => some (.fin (if b then 1 else 0))
  | .str _ => none

/-- Order on the numbers with both infinities; nan is not comparable. -/
inductive FLe : Flt → Flt → Prop where
  | fin {a b : Rat} (h : a ≤ b) : FLe (.fin a) (.fin b)
  | ninf {f : Flt} (h : f ≠ .nan) : FLe .ninf f
  | pinf {f : Flt} (h : f ≠ .nan) : FLe f .pinf

/-- What a pattern means. -/
inductive Means : Pat → Val → Prop where
  | dict {ps : List (String × Pat)} {d : List (String × Val)} (hk : ∀ k, k ≠ "@" → (k ∈ PyDict.keys ps ↔ k ∈ PyDict.keys d))
      (h : ∀ k p, (k, p) ∈ ps → k ≠ "@" → ∀ v, PyDict.get? d k = some v → Means p v) : Means (.dict ps) (.dict d)
  | arr {ps : List Pat} {xs : List Val} (hl : ps.length = xs.length) (h : ∀ (i : Nat) p v, ps[i]? = some p → xs[i]? = some v → Means p v) :
      Means (.arr ps) (.arr xs)
  | str {s : String} : Means (.lit (.str s)) (.str s)
  | num {l : Lit} {x : Flt} {v : Val} (hl : l.num? = some x) (hv : num? v = some x) (hx : x ≠ .nan) : Means (.lit l) v
  | null : Means .null .null
  | group {n : String} {p : Pat} {v : Val} (h : Means p v) : Means (.group n p) v
  | min {ps : List (String × Pat)} {d : List (String × Val)} (hk : ∀ k, k ≠ "@" → k ∈ PyDict.keys ps → k ∈ PyDict.keys d)
      (h : ∀ k p, (k, p) ∈ ps → k ≠ "@" → ∀ v, PyDict.get? d k = some v → Means p v) : Means (.min ps) (.dict d)
  | start {ps : List Pat} {xs ys : List Val} (hl : ps.length = xs.length) (h : ∀ (i : Nat) p v, ps[i]? = some p → xs[i]? = some v → Means p v) :
      Means (.start ps) (.arr (xs ++ ys))
  | end_ {ps : List Pat} {xs ys : List Val} (hl : ps.length = xs.length) (h : ∀ (i : Nat) p v, ps[i]? = some p → xs[i]? = some v → Means p v) :
      Means (.end_ ps) (.arr (ys ++ xs))
  | or {ps : List Pat} {p : Pat} {v : Val} (hp : p ∈ ps) (h : Means p v) : Means (.or ps) v
  | and {ps : List Pat} {v : Val} (hn : ps ≠ []) (h : ∀ p ∈ ps, Means p v) : Means (.and ps) v
  | approx {c e x : Flt} {v : Val} (hv : num? v = some x) (h : FLe (fdist x c) e) : Means (.approx c e) v
  | lt {x y : Flt} {v : Val} (hv : num? v = some x) (h : FLe x y ∧ x ≠ y) : Means (.lt y) v
  | le {x y : Flt} {v : Val} (hv : num? v = some x) (h : FLe x y) : Means (.le y) v
  | gt {x y : Flt} {v : Val} (hv : num? v = some x) (h : FLe y x ∧ x ≠ y) : Means (.gt y) v
  | ge {x y : Flt} {v : Val} (hv : num? v = some x) (h : FLe y x) : Means (.ge y) v
  | regex {ok : String → Bool} {sub : Option (String → String)} {s : String} (h : ok s = true) : Means (.regex ok sub) (.str s)
  | anything {v : Val} : Means (.any []) v
  | any {types : List PyType} {t : PyType} {v : Val} (ht : t ∈ types) (h : t.has v = true) : Means (.any types) v

mutual
/-- Names of groups are only given to patterns of the classes, and no bound of a number is nan. -/
def Pat.safe : Pat → Bool
  | .dict ps => safeD ps
  | .min ps => safeD ps
  | .arr ps => safeL ps
  | .start ps => safeL ps
  | .end_ ps => safeL ps
  | .or ps => safeL ps
  | .and ps => safeL ps
  | .group _ p => p.isMatcher && p.safe
  | .approx c e => decide (c ≠ .nan) && decide (e ≠ .nan) && decide (c ≠ .pinf) && decide (c ≠ .ninf)
  | .lt x => decide (x ≠ .nan)
  | .le x => decide (x ≠ .nan)
  | .gt x => decide (x ≠ .nan)
  | .ge x => decide (x ≠ .nan)
  | _ => true
@[inherit_doc Pat.safe] def safeD : List (String × Pat) → Bool
  | [] => true
  | (_, p) :: ps => p.safe && safeD ps
@[inherit_doc Pat.safe] def safeL : List Pat → Bool
  | [] => true
  | p :: ps => p.safe && safeL ps
end

/-- No number in the document is nan. -/
def NoNan (v : Val) : Prop := ∀ js, ¬ Sub v js (.flt .nan)

/-! ## Numbers: lemmas -/

theorem fle_iff {a b : Flt} : fle a b = true ↔ FLe a b := by
  constructor
  · intro h
    cases a <;> cases b <;> simp [fle] at h <;> first | exact .fin h | exact .ninf (by simp) | exact .pinf (by simp)
  · intro h
    cases h with
    | fin h => simpa [fle] using h
    | ninf h => cases b <;> simp_all [fle]
    | pinf h => cases a <;> simp_all [fle]

theorem flt_iff {a b : Flt} (ha : a ≠ .nan) (hb : b ≠ .nan) : flt a b = true ↔ ¬ FLe b a := by
  rw [← fle_iff]
  cases a <;> cases b <;> simp_all [flt, fle]

theorem fle_total {a b : Flt} (ha : a ≠ .nan) (hb : b ≠ .nan) : ¬ FLe a b ↔ FLe b a ∧ b ≠ a := by
  rw [← fle_iff, ← fle_iff]
  cases a <;> cases b <;> simp_all [fle]
  rename_i p q
  exact lt_iff_le_and_ne

theorem fle_antisymm {a b : Flt} : (fle a b && fle b a) = true ↔ a = b ∧ a ≠ .nan := by
  cases a <;> cases b <;> simp [fle]
  exact ⟨fun h => le_antisymm h.1 h.2, fun h => by simp [h]⟩

theorem litEq_iff {l : Lit} {v : Val} : litEq l v = true ↔ Means (.lit l) v := by
  constructor
  · intro h
    cases l with
    | str s =>
      cases v <;> simp only [litEq, Bool.false_eq_true] at h
      rw [decide_eq_true_eq] at h
      subst h; exact .str
    | _ =>
      simp only [litEq] at h
      cases hv : num? v with
      | none => rw [hv] at h; cases h
      | some f =>
        rw [hv] at h
        obtain ⟨h1, h2⟩ := fle_antisymm.1 h
        subst h1
        exact .num rfl hv h2
  · intro h
    cases h with
    | str => simp [litEq]
    | @num _ x _ hl hv hx =>
      cases l <;> simp only [Lit.num?, Option.some.injEq, reduceCtorEq] at hl <;> subst hl <;> simp only [litEq, hv] <;>
        exact fle_antisymm.2 ⟨rfl, hx⟩

/-! ## Matching is what the pattern means -/

theorem NoNan.key {d : List (String × Val)} {k : String} {c : Val} (h : NoNan (.dict d)) (hm : (k, c) ∈ d) : NoNan c :=
  fun js hs => h (.key k :: js) (.key hm hs)

theorem NoNan.pos {xs : List Val} {i : Nat} {c : Val} (h : NoNan (.arr xs)) (hm : xs[i]? = some c) : NoNan c :=
  fun js hs => h (.pos i :: js) (.pos hm hs)

theorem NoNan.num {v : Val} {x : Flt} (h : NoNan v) (hv : num? v = some x) : x ≠ .nan := by
  rintro rfl
  cases v <;> simp [num?] at hv
  subst hv
  exact h [] (.here _)

/-- A result that says whether the pattern applies. -/
def Says (r : Res (Option Match)) (p : Prop) : Prop := ∃ o, r = .ok o ∧ (o.isSome = true ↔ p)

theorem says_same {b : Bool} {v : Val} {p : Prop} (h : b = true ↔ p) : Says (same b v) p := by
  refine ⟨_, rfl, ?_⟩
  rw [← h]
  cases b <;> simp

theorem names_mem {α : Type} {d : List (String × α)} {k : String} : k ∈ names d ↔ k ∈ PyDict.keys d ∧ k ≠ "@" := by simp [names]

theorem keys_cons {α : Type} {k : String} {a : α} {d : List (String × α)} : PyDict.keys ((k, a) :: d) = k :: PyDict.keys d := rfl

theorem get?_some_of_mem {α : Type} {d : List (String × α)} {k : String} (h : k ∈ PyDict.keys d) : ∃ v, PyDict.get? d k = some v :=
  Option.isSome_iff_exists.1 ((PyDict.get?_isSome_iff d k).2 h)

theorem says_none {p : Prop} (h : ¬ p) : Says (.ok none) p := ⟨none, rfl, by simpa using h⟩

theorem says_app {r : Res (Option (List Match))} {f : Option (List Match) → Option Match} {p q : Prop}
    (h : ∃ o, r = .ok o ∧ (o.isSome = true ↔ p)) (hf : ∀ o, (f o).isSome = o.isSome) (hpq : p ↔ q) : Says (Res.app f r) q := by
  obtain ⟨o, rfl, ho⟩ := h
  exact ⟨f o, rfl, by rw [hf, ho, hpq]⟩

theorem listMatch_isSome (a b : List Val) (o : Option (List Match)) : (listMatch a o b).isSome = o.isSome := by cases o <;> rfl

theorem says_num {v : Val} {f : Flt → Bool} {p : Prop} (h0 : num? v = none → ¬ p) (h1 : ∀ x, num? v = some x → (f x = true ↔ p)) :
    Says (match num? v with | none => .ok none | some x => same (f x) v) p := by
  cases hv : num? v with
  | none => exact says_none (h0 hv)
  | some x => exact says_same (h1 x hv)

theorem fdist_nan {x c : Flt} (hx : x ≠ .nan) (h1 : c ≠ .nan) (h2 : c ≠ .pinf) (h3 : c ≠ .ninf) : fdist x c ≠ .nan := by
  cases x <;> cases c <;> simp_all [fdist]

mutual
theorem getmatch_says : ∀ (p : Pat) (v : Val), p.safe = true → NoNan v → Says (getmatch p v) (Means p v)
  | .dict ps, v, hs, hv => by
    cases v with
    | dict d =>
      have hk : ((names ps).all (· ∈ names d) && (names d).all (· ∈ names ps)) = true ↔
          ∀ k, k ≠ "@" → (k ∈ PyDict.keys ps ↔ k ∈ PyDict.keys d) := by
        simp only [Bool.and_eq_true, List.all_eq_true, decide_eq_true_eq, names_mem]
        constructor
        · exact fun h k hk => ⟨fun hp => (h.1 k ⟨hp, hk⟩).1, fun hp => (h.2 k ⟨hp, hk⟩).1⟩
        · exact fun h => ⟨fun k hk => ⟨(h k hk.2).1 hk.1, hk.2⟩, fun k hk => ⟨(h k hk.2).2 hk.1, hk.2⟩⟩
      by_cases hc : ((names ps).all (· ∈ names d) && (names d).all (· ∈ names ps)) = true
      · obtain ⟨o, ho, hm⟩ := matchD_says ps d (by simpa only [Pat.safe] using hs) hv (fun k h1 h2 => ((hk.1 hc) k h2).1 h1) ⟨[], [], []⟩
        rw [getmatch, if_pos hc, ho]
        have hd : (∀ k p, (k, p) ∈ ps → k ≠ "@" → ∀ v, PyDict.get? d k = some v → Means p v) ↔ Means (.dict ps) (.dict d) :=
          ⟨fun h => .dict (hk.1 hc) h, fun h => by cases h with | dict _ h => exact h⟩
        rw [← hd, ← hm]
        cases o with
        | none => exact ⟨none, rfl, by simp⟩
        | some f => exact ⟨_, rfl, by simp⟩
      · rw [getmatch, if_neg hc]
        exact says_none fun h => by cases h with | dict h _ => exact hc (hk.2 h)
    | _ => exact says_none fun h => by cases h
  | .min ps, v, hs, hv => by
    cases v with
    | dict d =>
      have hk : ((names ps).all (fun k => decide (k ∈ PyDict.keys d))) = true ↔ ∀ k, k ≠ "@" → k ∈ PyDict.keys ps → k ∈ PyDict.keys d := by
        simp only [List.all_eq_true, decide_eq_true_eq, names_mem]
        exact ⟨fun h k h1 h2 => h k ⟨h2, h1⟩, fun h k hk => h k hk.2 hk.1⟩
      by_cases hc : ((names ps).all (fun k => decide (k ∈ PyDict.keys d))) = true
      · obtain ⟨o, ho, hm⟩ := matchD_says ps d (by simpa only [Pat.safe] using hs) hv (fun k h1 h2 => (hk.1 hc) k h2 h1) ⟨bareD d, bareD d, []⟩
        rw [getmatch, if_pos hc, ho]
        have hd : (∀ k p, (k, p) ∈ ps → k ≠ "@" → ∀ v, PyDict.get? d k = some v → Means p v) ↔ Means (.min ps) (.dict d) :=
          ⟨fun h => .min (hk.1 hc) h, fun h => by cases h with | min _ h => exact h⟩
        rw [← hd, ← hm]
        cases o with
        | none => exact ⟨none, rfl, by simp⟩
        | some f => exact ⟨_, rfl, by simp⟩
      · rw [getmatch, if_neg hc]
        exact says_none fun h => by cases h with | min h _ => exact hc (hk.2 h)
    | _ => exact says_none fun h => by cases h
  | .arr ps, v, hs, hv => by
    cases v with
    | arr xs =>
      by_cases hl : ps.length = xs.length
      · rw [getmatch, if_neg (not_not.2 hl)]
        exact says_app (matchL_says ps xs (by simpa only [Pat.safe] using hs) (fun i c hc => hv.pos hc) (le_of_eq hl)) (listMatch_isSome _ _)
          ⟨fun h => .arr hl h, fun h => by cases h with | arr _ h => exact h⟩
      · rw [getmatch, if_pos hl]
        exact says_none fun h => by cases h with | arr h _ => exact hl h
    | _ => exact says_none fun h => by cases h
  | .start ps, v, hs, hv => by
    cases v with
    | arr xs =>
      by_cases hl : ps.length > xs.length
      · rw [getmatch, if_pos hl]
        refine says_none fun h => ?_
        generalize he : Val.arr xs = w at h
        cases h with
        | start h _ => injection he with he; subst he; simp at hl; omega
      · rw [getmatch, if_neg hl]
        refine says_app (matchL_says ps xs (by simpa only [Pat.safe] using hs) (fun i c hc => hv.pos hc) (not_lt.1 hl)) (listMatch_isSome _ _) ⟨fun h => ?_, fun h => ?_⟩
        · have := Means.start (ps := ps) (xs := xs.take ps.length) (ys := xs.drop ps.length) (by simp; omega) (fun i p v h1 h2 => h i p v h1 (by
            rw [List.getElem?_take_of_lt (List.getElem?_eq_some_iff.1 h1).1] at h2; exact h2))
          rwa [List.take_append_drop] at this
        · generalize he : Val.arr xs = w at h
          cases h with
          | @start _ as bs hl' h =>
            injection he with he
            subst he
            intro i p v h1 h2
            have hi : i < as.length := hl' ▸ (List.getElem?_eq_some_iff.1 h1).1
            rw [List.getElem?_append_left hi] at h2
            exact h i p v h1 h2
    | _ => exact says_none fun h => by cases h
  | .end_ ps, v, hs, hv => by
    cases v with
    | arr xs =>
      by_cases hl : ps.length > xs.length
      · rw [getmatch, if_pos hl]
        refine says_none fun h => ?_
        generalize he : Val.arr xs = w at h
        cases h with
        | end_ h _ => injection he with he; subst he; simp at hl; omega
      · rw [getmatch, if_neg hl]
        refine says_app (matchL_says ps (xs.drop (xs.length - ps.length)) (by simpa only [Pat.safe] using hs)
          (fun i c hc => hv.pos (by rw [List.getElem?_drop] at hc; exact hc)) (by simp; omega)) (listMatch_isSome _ _) ⟨fun h => ?_, fun h => ?_⟩
        · have := Means.end_ (ps := ps) (xs := xs.drop (xs.length - ps.length)) (ys := xs.take (xs.length - ps.length)) (by simp; omega) h
          rwa [List.take_append_drop] at this
        · generalize he : Val.arr xs = w at h
          cases h with
          | @end_ _ as bs hl' h =>
            injection he with he
            subst he
            have : (bs ++ as).drop ((bs ++ as).length - ps.length) = as := by
              rw [List.length_append, hl', Nat.add_sub_cancel, List.drop_left]
            rw [this]
            exact h
    | _ => exact says_none fun h => by cases h
  | .lit l, v, _, _ => by rw [getmatch]; exact says_same litEq_iff
  | .null, v, _, _ => by
    cases v with
    | null => exact ⟨some ⟨.null, .null, []⟩, rfl, by simp [Means.null]⟩
    | _ => exact says_none fun h => by cases h
  | .group n p, v, hs, hv => by
    simp only [Pat.safe, Bool.and_eq_true] at hs
    obtain ⟨o, ho, hm⟩ := getmatch_says p v hs.2 hv
    rw [getmatch, if_pos hs.1, ho]
    have hd : Means p v ↔ Means (.group n p) v := ⟨.group, fun h => by cases h with | group h => exact h⟩
    rw [← hd, ← hm]
    cases o with
    | none => exact ⟨none, rfl, by simp⟩
    | some f => exact ⟨_, rfl, by simp⟩
  | .or ps, v, hs, hv => by
    rw [getmatch]
    obtain ⟨o, ho, hm⟩ := matchOr_says ps v (by simpa only [Pat.safe] using hs) hv
    exact ⟨o, ho, hm.trans ⟨fun ⟨p, hp, h⟩ => .or hp h, fun h => by cases h with | or hp h => exact ⟨_, hp, h⟩⟩⟩
  | .and ps, v, hs, hv => by
    rw [getmatch]
    cases ps with
    | nil => exact says_none fun h => by cases h with | and h _ => exact h rfl
    | cons p ps =>
      obtain ⟨o, ho, hm⟩ := matchAnd_says (p :: ps) v (by simpa only [Pat.safe] using hs) hv none
      refine ⟨o, ho, (hm (.inl (by simp))).trans ⟨fun h => .and (by simp) h, fun h => by cases h with | and _ h => exact h⟩⟩
  | .approx c e, v, hs, hv => by
    simp only [Pat.safe, Bool.and_eq_true, decide_eq_true_eq] at hs
    rw [getmatch]
    refine says_num (f := fun x => !flt e (fdist x c)) (fun hn h => by cases h with | approx h _ => simp [hn] at h) fun x hx => ?_
    have hd := fdist_nan (hv.num hx) hs.1.1.1 hs.1.2 hs.2
    rw [Bool.not_eq_true', ← Bool.not_eq_true, flt_iff hs.1.1.2 hd, not_not]
    exact ⟨fun h => .approx hx h, fun h => by cases h with | approx h1 h2 => rw [hx] at h1; injection h1 with h1; exact h1 ▸ h2⟩
  | .lt y, v, hs, hv => by
    simp only [Pat.safe, decide_eq_true_eq] at hs
    rw [getmatch]
    refine says_num (f := fun x => !fle y x) (fun hn h => by cases h with | lt h _ => simp [hn] at h) fun x hx => ?_
    rw [Bool.not_eq_true', ← Bool.not_eq_true, fle_iff, fle_total hs (hv.num hx)]
    exact ⟨fun h => .lt hx h, fun h => by cases h with | lt h1 h2 => rw [hx] at h1; injection h1 with h1; exact h1 ▸ h2⟩
  | .le y, v, hs, hv => by
    simp only [Pat.safe, decide_eq_true_eq] at hs
    rw [getmatch]
    refine says_num (f := fun x => !flt y x) (fun hn h => by cases h with | le h _ => simp [hn] at h) fun x hx => ?_
    rw [Bool.not_eq_true', ← Bool.not_eq_true, flt_iff hs (hv.num hx), not_not]
    exact ⟨fun h => .le hx h, fun h => by cases h with | le h1 h2 => rw [hx] at h1; injection h1 with h1; exact h1 ▸ h2⟩
  | .gt y, v, hs, hv => by
    simp only [Pat.safe, decide_eq_true_eq] at hs
    rw [getmatch]
    refine says_num (f := fun x => !fle x y) (fun hn h => by cases h with | gt h _ => simp [hn] at h) fun x hx => ?_
    rw [Bool.not_eq_true', ← Bool.not_eq_true, fle_iff, fle_total (hv.num hx) hs]
    exact ⟨fun h => .gt hx ⟨h.1, fun e => h.2 e.symm⟩, fun h => by
      cases h with | gt h1 h2 => rw [hx] at h1; injection h1 with h1; subst h1; exact ⟨h2.1, fun e => h2.2 e.symm⟩⟩
  | .ge y, v, hs, hv => by
    simp only [Pat.safe, decide_eq_true_eq] at hs
    rw [getmatch]
    refine says_num (f := fun x => !flt x y) (fun hn h => by cases h with | ge h _ => simp [hn] at h) fun x hx => ?_
    rw [Bool.not_eq_true', ← Bool.not_eq_true, flt_iff (hv.num hx) hs, not_not]
    exact ⟨fun h => .ge hx h, fun h => by cases h with | ge h1 h2 => rw [hx] at h1; injection h1 with h1; exact h1 ▸ h2⟩
  | .regex ok sub, v, _, _ => by
    cases v with
    | str s =>
      simp only [getmatch]
      by_cases h : ok s = true
      · rw [if_pos h]; exact ⟨_, rfl, ⟨fun _ => .regex h, fun _ => rfl⟩⟩
      · rw [if_neg h]; exact says_none fun h' => by cases h' with | regex h' => exact h h'
    | _ => exact says_none fun h => by cases h
  | .any types, v, _, _ => by
    rw [getmatch]
    refine says_same ?_
    rw [Bool.or_eq_true, List.isEmpty_iff, List.any_eq_true]
    constructor
    · rintro (rfl | ⟨t, ht, h⟩)
      · exact .anything
      · exact .any ht h
    · intro h
      cases h with
      | anything => exact .inl rfl
      | any ht h => exact .inr ⟨_, ht, h⟩
theorem matchD_says : ∀ (ps : List (String × Pat)) (d : List (String × Val)), safeD ps = true → NoNan (.dict d) →
    (∀ k ∈ PyDict.keys ps, k ≠ "@" → k ∈ PyDict.keys d) → ∀ f, ∃ o, matchD ps d f = .ok o ∧
      (o.isSome = true ↔ ∀ k p, (k, p) ∈ ps → k ≠ "@" → ∀ v, PyDict.get? d k = some v → Means p v)
  | [], d, _, _, _, f => ⟨some f, by rw [matchD], by simp⟩
  | (k, p) :: ps, d, hs, hv, hk, f => by
    simp only [safeD, Bool.and_eq_true] at hs
    have hk' : ∀ k ∈ PyDict.keys ps, k ≠ "@" → k ∈ PyDict.keys d := fun k' h => hk k' (by rw [keys_cons]; exact List.mem_cons_of_mem _ h)
    by_cases hat : k = "@"
    · obtain ⟨o, ho, hm⟩ := matchD_says ps d hs.2 hv hk' f
      refine ⟨o, by rw [matchD, if_pos hat]; exact ho, hm.trans ⟨fun h k' p' hm' hne => ?_, fun h k' p' hm' => h k' p' (List.mem_cons_of_mem _ hm')⟩⟩
      rcases List.mem_cons.1 hm' with he | he
      · injection he with he _; exact absurd (he.trans hat) hne
      · exact h k' p' he hne
    · obtain ⟨v, hg⟩ := get?_some_of_mem (hk k (by rw [keys_cons]; exact List.mem_cons_self) hat)
      obtain ⟨o, ho, hm⟩ := getmatch_says p v hs.1 (hv.key (PyDict.mem_of_get? hg))
      cases o with
      | none =>
        refine ⟨none, by rw [matchD, if_neg hat, hg]; simp only [ho], ?_⟩
        simp only [Option.isSome_none, Bool.false_eq_true, false_iff] at hm ⊢
        exact fun h => hm (h k p List.mem_cons_self hat v hg)
      | some m =>
        simp only [Option.isSome_some, true_iff] at hm
        obtain ⟨o, ho', hm'⟩ := matchD_says ps d hs.2 hv hk' ⟨PyDict.set f.original k m.original, PyDict.set f.modified k m.modified, PyDict.update f.groups m.groups⟩
        refine ⟨o, by rw [matchD, if_neg hat, hg]; simp only [ho]; exact ho', hm'.trans ⟨fun h k' p' hmem hne w hw => ?_,
          fun h k' p' hmem => h k' p' (List.mem_cons_of_mem _ hmem)⟩⟩
        rcases List.mem_cons.1 hmem with he | he
        · injection he with h1 h2
          subst h1; subst h2
          rw [hg] at hw; injection hw with hw; exact hw ▸ hm
        · exact h k' p' he hne w hw
theorem matchL_says : ∀ (ps : List Pat) (xs : List Val), safeL ps = true → (∀ (i : Nat) c, xs[i]? = some c → NoNan c) → ps.length ≤ xs.length →
    ∃ o, matchL ps xs = .ok o ∧ (o.isSome = true ↔ ∀ (i : Nat) p v, ps[i]? = some p → xs[i]? = some v → Means p v)
  | [], xs, _, _, _ => ⟨some [], by rw [matchL], by simp⟩
  | p :: ps, [], _, _, hl => by simp at hl
  | p :: ps, x :: xs, hs, hv, hl => by
    simp only [safeL, Bool.and_eq_true] at hs
    obtain ⟨o, ho, hm⟩ := getmatch_says p x hs.1 (hv 0 x rfl)
    cases o with
    | none =>
      refine ⟨none, by rw [matchL]; simp only [ho], ?_⟩
      simp only [Option.isSome_none, Bool.false_eq_true, false_iff] at hm ⊢
      exact fun h => hm (h 0 p x rfl rfl)
    | some m =>
      simp only [Option.isSome_some, true_iff] at hm
      obtain ⟨o, ho', hm'⟩ := matchL_says ps xs hs.2 (fun i c hc => hv (i + 1) c (by simpa using hc)) (by simpa using hl)
      have hi : (∀ (i : Nat) p v, ps[i]? = some p → xs[i]? = some v → Means p v) ↔
          ∀ (i : Nat) q v, (p :: ps)[i]? = some q → (x :: xs)[i]? = some v → Means q v := by
        constructor
        · intro h i q v h1 h2
          cases i with
          | zero => simp at h1 h2; subst h1; subst h2; exact hm
          | succ i => exact h i q v (by simpa using h1) (by simpa using h2)
        · intro h i q v h1 h2
          exact h (i + 1) q v (by simpa using h1) (by simpa using h2)
      cases o with
      | none => exact ⟨none, by rw [matchL]; simp only [ho, ho'], hm'.trans hi⟩
      | some ms => exact ⟨some (m :: ms), by rw [matchL]; simp only [ho, ho'], by rw [← hi, ← hm']; simp⟩
theorem matchOr_says : ∀ (ps : List Pat) (v : Val), safeL ps = true → NoNan v → ∃ o, matchOr ps v = .ok o ∧ (o.isSome = true ↔ ∃ p ∈ ps, Means p v)
  | [], v, _, _ => ⟨none, by rw [matchOr], by simp⟩
  | p :: ps, v, hs, hv => by
    simp only [safeL, Bool.and_eq_true] at hs
    obtain ⟨o, ho, hm⟩ := getmatch_says p v hs.1 hv
    cases o with
    | none =>
      simp only [Option.isSome_none, Bool.false_eq_true, false_iff] at hm
      obtain ⟨o, ho', hm'⟩ := matchOr_says ps v hs.2 hv
      exact ⟨o, by rw [matchOr]; simp only [ho, ho'], by rw [hm']; simp [hm]⟩
    | some m =>
      simp only [Option.isSome_some, true_iff] at hm
      exact ⟨some m, by rw [matchOr]; simp only [ho], by simp [hm]⟩
theorem matchAnd_says : ∀ (ps : List Pat) (v : Val), safeL ps = true → NoNan v → ∀ last, ∃ o, matchAnd ps v last = .ok o ∧
    (ps ≠ [] ∨ last.isSome = true → (o.isSome = true ↔ ∀ p ∈ ps, Means p v))
  | [], v, _, _, last => ⟨last, by rw [matchAnd], by simp⟩
  | p :: ps, v, hs, hv, last => by
    simp only [safeL, Bool.and_eq_true] at hs
    obtain ⟨o, ho, hm⟩ := getmatch_says p v hs.1 hv
    cases o with
    | none =>
      simp only [Option.isSome_none, Bool.false_eq_true, false_iff] at hm
      exact ⟨none, by rw [matchAnd]; simp only [ho], by simp [hm]⟩
    | some m =>
      simp only [Option.isSome_some, true_iff] at hm
      obtain ⟨o, ho', hm'⟩ := matchAnd_says ps v hs.2 hv (some m)
      exact ⟨o, by rw [matchAnd]; simp only [ho, ho'], fun _ => by rw [hm' (.inr rfl)]; simp [hm]⟩
end

/-- **C82.** A pattern matches exactly the documents that it means. -/
theorem getmatch_means {p : Pat} {v : Val} (hs : p.safe = true) (hv : NoNan v) : (∃ m, getmatch p v = .ok (some m)) ↔ Means p v := by
  obtain ⟨o, ho, h⟩ := getmatch_says p v hs hv
  rw [← h, ho]
  cases o <;> simp

/-- The hypotheses hold for this pattern and document, and the pattern means the document. -/
theorem means_example : (Pat.min [("x", .group "g" (.lt (.fin 3)))]).safe = true ∧ NoNan (.dict [("x", .int 2), ("y", .null)]) ∧
    Means (.min [("x", .group "g" (.lt (.fin 3)))]) (.dict [("x", .int 2), ("y", .null)]) := by
  refine ⟨rfl, fun js h => ?_, .min (fun k hk h => ?_) (fun k p h hk v hv => ?_)⟩
  · cases h with
    | key hm h => simp at hm; rcases hm with ⟨rfl, rfl⟩ | ⟨rfl, rfl⟩ <;> cases h
  · simp [PyDict.keys] at h ⊢; exact .inl h
  · simp at h
    obtain ⟨rfl, rfl⟩ := h
    simp [PyDict.get?] at hv
    subst hv
    exact .group (.lt (x := .fin 2) rfl ⟨.fin (by norm_num), by simp⟩)

/-! ## What is against the descriptions -/

/-- "Tag a subexpression with a name": a subexpression that is plain JSON cannot be tagged. -/
theorem group_violation (n : String) (l : Lit) (v : Val) : getmatch (.group n (.lit l)) v = .error (.py "AttributeError") := by
  rw [getmatch, if_neg (by simp [Pat.isMatcher])]

/-- "Match a number if it is less than some value", "… greater than …", "within a given range": nan, which is neither, is matched by all. -/
theorem nan_violation (y e : Flt) : (∃ m, getmatch (.lt y) (.flt .nan) = .ok (some m)) ∧ (∃ m, getmatch (.gt y) (.flt .nan) = .ok (some m)) ∧
    (∃ m, getmatch (.le y) (.flt .nan) = .ok (some m)) ∧ (∃ m, getmatch (.ge y) (.flt .nan) = .ok (some m)) ∧
    (∃ m, getmatch (.approx y e) (.flt .nan) = .ok (some m)) ∧ ∀ x, ¬ FLe .nan x ∧ ¬ FLe x .nan := by
  have h1 : ∀ y, fle .nan y = false := fun y => by cases y <;> rfl
  have h2 : ∀ y, fle y .nan = false := fun y => by cases y <;> rfl
  have h3 : ∀ y, flt .nan y = false := fun y => by cases y <;> rfl
  have h4 : ∀ y, flt y .nan = false := fun y => by cases y <;> rfl
  have h5 : fdist .nan y = .nan := by cases y <;> rfl
  refine ⟨?_, ?_, ?_, ?_, ?_, fun x => ⟨fun h => ?_, fun h => ?_⟩⟩
  · simp [getmatch, num?, h1, h2, same]
  · simp [getmatch, num?, h1, h2, same]
  · simp [getmatch, num?, h3, h4, same]
  · simp [getmatch, num?, h3, h4, same]
  · simp [getmatch, num?, h5, h4, same]
  · exact absurd (fle_iff.2 h) (by rw [h1]; simp)
  · exact absurd (fle_iff.2 h) (by rw [h2]; simp)

/-- The code compares `True`, `False` and `None` with `is`, but `True` and `False` are numbers to it before it comes to that: `true` matches 1. -/
theorem bool_violation : (∃ m, getmatch (.lit (.bool true)) (.int 1) = .ok (some m)) ∧ (∃ m, getmatch (.lit (.int 0)) (.bool false) = .ok (some m)) := by
  constructor <;> simp [getmatch, litEq, num?, fle, same]

end Verif.Producer
