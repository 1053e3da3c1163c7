import Verif.Producer.Search
/-! # Patterns of the inspector: model and meaning (C101)

Models `titus/inspector/parser.py` 36-429 (`value`, `regex` and `replacement` of the classes) and the actions of the grammar at 585-751 that build
patterns.

Simplifications.  A typed pattern is given as the tree of the productions that are used (`Src`), not as text.  Incomplete patterns, which are only used
to complete what is being typed, are left out.  Regular expressions are given by two functions, as in `Producer.Pat`.  A floating point number is a
rational number or an infinity. -/

namespace Verif.Inspector
open Avro Producer

/-- The operators of ranges. -/
inductive Cmp where
  | lt | le | gt | ge
deriving DecidableEq

/-- The keys of typed objects: WORD or STRING. -/
inductive Key where
  | word (s : String)
  | str (s : String)

/-! ## What is typed -/

/-- The productions of `value`, parser.py 585-751. -/
inductive Src where
  | under
  | word (s : String)
  | str (s : String)
  | int (i : Int)
  | flt (f : Flt)
  | regex (ok : String → Bool) (sub : Option (String → String))
  /-- `{ k: v, … }`, with `...` before or after the pairs if `dots`. -/
  | obj (pairs : List (Key × Src)) (dots : Bool)
  /-- `[ v, … ]` -/
  | arr (items : List Src)
  /-- `[ ... v, … ]` -/
  | ends (items : List Src)
  /-- `[ v, … ... ]` -/
  | starts (items : List Src)
  /-- `#` -/
  | number
  /-- `# < x` and the like -/
  | cmp (o : Cmp) (x : Flt)
  /-- `x < # < y`; the operators are `<=` if the flags say so. -/
  | between (x : Flt) (le1 le2 : Bool) (y : Flt)
  /-- `x +- y` -/
  | approx (x y : Flt)
  /-- `( v & … )` -/
  | all (vs : List Src)
  /-- `( v & … | v & … | … )` -/
  | alt (vss : List (List Src))

/-! ## The classes -/

/-- The classes of parser.py 37-429 that are patterns. -/
inductive Ast where
  | under
  | word (s : String)
  | str (s : String)
  | int (i : Int)
  | flt (f : Flt)
  | regex (ok : String → Bool) (sub : Option (String → String))
  | obj (pairs : List (Key × Ast)) (ellipsis : Bool)
  | arr (items : List Ast) (startEllipsis endEllipsis : Bool)
  | approx (central error : Flt)
  | group (item : Ast) (counter : Nat)
  | range (op : Option (Cmp × Flt))
  | orChain (chain : List Ast)
  | andChain (chain : List Ast)

/-- `reverse` in `p_range3`, parser.py 663. -/
def reverse (le : Bool) : Cmp := if le then .gt else .ge

/-- The upper bound of a range. -/
def upper (le : Bool) : Cmp := if le then .le else .lt

mutual
/-- The actions of the grammar, parser.py 585-751; the number is `groupCounter`. -/
def build : Src → Nat → Ast × Nat
  | .under, n => (.under, n)
  | .word s, n => (.word s, n)
  | .str s, n => (.str s, n)
  | .int i, n => (.int i, n)
  | .flt f, n => (.flt f, n)
  | .regex ok sub, n => (.regex ok sub, n)
  | .obj ps dots, n => (.obj (buildD ps n).1 dots, (buildD ps n).2)
  | .arr vs, n => (.arr (buildL vs n).1 false false, (buildL vs n).2)
  | .ends vs, n => (.arr (buildL vs n).1 true false, (buildL vs n).2)
  | .starts vs, n => (.arr (buildL vs n).1 false true, (buildL vs n).2)
  | .number, n => (.range none, n)
  | .cmp o x, n => (.range (some (o, x)), n)
  | .between x a b y, n => (.andChain [.range (some (reverse a, x)), .range (some (upper b, y))], n)
  | .approx x y, n => (.approx x y, n)
  | .all vs, n => (.group (.andChain (buildL vs n).1) (buildL vs n).2, (buildL vs n).2 + 1)
  | .alt vss, n => (.group (.orChain (buildA vss n).1) (buildA vss n).2, (buildA vss n).2 + 1)
/-- The pairs of an object (lines 707-751). -/
def buildD : List (Key × Src) → Nat → List (Key × Ast) × Nat
  | [], n => ([], n)
  | (k, v) :: ps, n => ((k, (build v n).1) :: (buildD ps (build v n).2).1, (buildD ps (build v n).2).2)
/-- Values one after another (lines 601-616, 677-685). -/
def buildL : List Src → Nat → List Ast × Nat
  | [], n => ([], n)
  | v :: vs, n => ((build v n).1 :: (buildL vs (build v n).2).1, (buildL vs (build v n).2).2)
/-- Alternatives (lines 667-675). -/
def buildA : List (List Src) → Nat → List Ast × Nat
  | [], n => ([], n)
  | vs :: vss, n => (.andChain (buildL vs n).1 :: (buildA vss (buildL vs n).2).1, (buildA vss (buildL vs n).2).2)
end

/-- `Parser.parse` starts at 1 (parser.py 771). -/
def parse (s : Src) : Ast := (build s 1).1

/-! ## Patterns -/

/-- Word.value, parser.py 129-137, as a pattern. -/
def wordPat (s : String) : Pat :=
  if s = "null" then .null else if s = "true" then .lit (.bool true) else if s = "false" then .lit (.bool false) else .lit (.str s)

/-- The value of a key; words that are constants are not strings. -/
def Key.text? : Key → Option String
  | .str s => some s
  | .word s => if s ∈ ["null", "true", "false"] then none else some s

/-- Range.regex, parser.py 313-325. -/
def rangePat : Option (Cmp × Flt) → Pat
  | none => .any [.int, .int, .float]
  | some (.lt, x) => .lt x
  | some (.le, x) => .le x
  | some (.gt, x) => .gt x
  | some (.ge, x) => .ge x

/-- `dict(…)` of pairs; nothing if some key is not a string. -/
def keyed {α : Type} : List (Key × α) → PyDict String α → Option (PyDict String α)
  | [], d => some d
  | (k, v) :: ps, d => match k.text? with
    | none => none
    | some s => keyed ps (PyDict.set d s v)

/-- The end of JsonObject.regex, parser.py 228-232.  `Min(**…)` wants keys that are strings, other than the name of its own parameter.  An object with
a key that is not a string is like no JSON, which `t.Or()` says. -/
def objPat (ps : List (Key × Pat)) (ellipsis : Bool) : Res Pat := match keyed ps [] with
  | none => if ellipsis then .error typeErr else .ok (.or [])
  | some d => if ellipsis then (if PyDict.has d "self" then .error typeErr else .ok (.min d)) else .ok (.dict d)

/-- JsonArray.value, parser.py 378-386: the second definition with this name. -/
def arrPat (ps : List Pat) : Bool → Bool → Res Pat
  | true, true => .error (.py "NotImplementedError")
  | true, false => .ok (.end_ ps)
  | false, true => .ok (.start ps)
  | false, false => .ok (.arr ps)

mutual
/-- The methods `regex`, parser.py 37-429. -/
def regex : Ast → Res Pat
  | .under => .ok (.any [])
  | .word s => .ok (wordPat s)
  | .str s => .ok (.lit (.str s))
  | .int i => .ok (.lit (.int i))
  | .flt f => .ok (.lit (.flt f))
  | .regex ok sub => .ok (.regex ok sub)
  | .obj ps e => match regexD ps with
    | .error e => .error e
    | .ok qs => objPat qs e
  | .arr vs a b => match regexL vs with
    | .error e => .error e
    | .ok qs => arrPat qs a b
  | .approx x y => .ok (.approx x y)
  | .group a n => match regex a with
    | .error e => .error e
    | .ok p => .ok (.group (toString n) p)
  | .range o => .ok (rangePat o)
  | .orChain vs => match regexL vs with
    | .error e => .error e
    | .ok qs => .ok (.or qs)
  | .andChain vs => match regexL vs with
    | .error e => .error e
    | .ok qs => .ok (.and qs)
/-- The values of an object. -/
def regexD : List (Key × Ast) → Res (List (Key × Pat))
  | [] => .ok []
  | (k, a) :: ps => match regex a with
    | .error e => .error e
    | .ok p => match regexD ps with
      | .error e => .error e
      | .ok qs => .ok ((k, p) :: qs)
/-- The elements of an array or of a chain. -/
def regexL : List Ast → Res (List Pat)
  | [] => .ok []
  | a :: as => match regex a with
    | .error e => .error e
    | .ok p => match regexL as with
      | .error e => .error e
      | .ok qs => .ok (p :: qs)
end

/-! ## Replacements -/

/-- What is put in the place of a match: JSON with references to groups (Replacement, parser.py 272-280). -/
inductive Rep where
  | leaf (v : Val)
  | ref (name : String)
  | obj (ps : List (String × Rep))
  | arr (rs : List Rep)

/-- Word.value, parser.py 129-137. -/
def wordVal (s : String) : Val :=
  if s = "null" then .null else if s = "true" then .bool true else if s = "false" then .bool false else .str s

/-- Group.replacement, parser.py 295-299: the reference of `(n)`. -/
def refOf : Ast → Res Rep
  | .andChain [.int i] => .ok (.ref (toString i))
  | _ => .error typeErr

mutual
/-- The methods `replacement`, parser.py 37-429.  An object with a key that is not a string is not JSON. -/
def replacement : Ast → Res Rep
  | .word s => .ok (.leaf (wordVal s))
  | .str s => .ok (.leaf (.str s))
  | .int i => .ok (.leaf (.int i))
  | .flt f => .ok (.leaf (.flt f))
  | .obj ps e => if e then .error typeErr else match replacementD ps with
    | .error e => .error e
    | .ok qs => match keyed qs [] with
      | none => .error notJson
      | some d => .ok (.obj d)
  | .arr vs a b => if a || b then .error typeErr else match replacementL vs with
    | .error e => .error e
    | .ok rs => .ok (.arr rs)
  | .group a _ => refOf a
  | _ => .error typeErr
/-- The values of an object. -/
def replacementD : List (Key × Ast) → Res (List (Key × Rep))
  | [] => .ok []
  | (k, a) :: ps => match replacement a with
    | .error e => .error e
    | .ok p => match replacementD ps with
      | .error e => .error e
      | .ok qs => .ok ((k, p) :: qs)
/-- The elements of an array. -/
def replacementL : List Ast → Res (List Rep)
  | [] => .ok []
  | a :: as => match replacement a with
    | .error e => .error e
    | .ok p => match replacementL as with
      | .error e => .error e
      | .ok qs => .ok (p :: qs)
end

/-! ## Specification -/

/-- A comparison of numbers, as it is written. -/
def Cmp.Holds : Cmp → Flt → Flt → Prop
  | .lt, x, y => FLe x y ∧ x ≠ y
  | .le, x, y => FLe x y
  | .gt, x, y => FLe y x ∧ x ≠ y
  | .ge, x, y => FLe y x

/-- The key that is written, without quotes. -/
def Key.written : Key → String
  | .word s => s
  | .str s => s

/-- What a typed pattern means.  The key "@" holds a position and is not looked at. -/
inductive Typed : Src → Val → Prop where
  | under {v : Val} : Typed .under v
  | null : Typed (.word "null") .null
  | true {v : Val} (h : num? v = some (.fin 1)) : Typed (.word "true") v
  | false {v : Val} (h : num? v = some (.fin 0)) : Typed (.word "false") v
  | word {s : String} (h : s ∉ ["null", "true", "false"]) : Typed (.word s) (.str s)
  | str {s : String} : Typed (.str s) (.str s)
  | int {i : Int} {v : Val} (h : num? v = some (.fin i)) : Typed (.int i) v
  | flt {f : Flt} {v : Val} (h : num? v = some f) (hf : f ≠ .nan) : Typed (.flt f) v
  | regex {ok : String → Bool} {sub : Option (String → String)} {s : String} (h : ok s = true) : Typed (.regex ok sub) (.str s)
  | obj {ps : List (Key × Src)} {dots : Bool} {d : List (String × Val)}
      (hk : ∀ k p, (k, p) ∈ ps → Key.written k ≠ "@" → Key.written k ∈ PyDict.keys d)
      (hd : dots = false → ∀ k, k ∈ PyDict.keys d → k ≠ "@" → k ∈ ps.map (Key.written ·.1))
      (h : ∀ k p, (k, p) ∈ ps → Key.written k ≠ "@" → ∀ v, PyDict.get? d (Key.written k) = some v → Typed p v) : Typed (.obj ps dots) (.dict d)
  | arr {ps : List Src} {xs : List Val} (hl : ps.length = xs.length) (h : ∀ (i : Nat) p v, ps[i]? = some p → xs[i]? = some v → Typed p v) :
      Typed (.arr ps) (.arr xs)
  | starts {ps : List Src} {xs ys : List Val} (hl : ps.length = xs.length) (h : ∀ (i : Nat) p v, ps[i]? = some p → xs[i]? = some v → Typed p v) :
      Typed (.starts ps) (.arr (xs ++ ys))
  | ends {ps : List Src} {xs ys : List Val} (hl : ps.length = xs.length) (h : ∀ (i : Nat) p v, ps[i]? = some p → xs[i]? = some v → Typed p v) :
      Typed (.ends ps) (.arr (ys ++ xs))
  | number {v : Val} {x : Flt} (h : num? v = some x) : Typed .number v
  | cmp {o : Cmp} {x y : Flt} {v : Val} (hv : num? v = some x) (h : o.Holds x y) : Typed (.cmp o y) v
  | between {x y z : Flt} {a b : Bool} {v : Val} (hv : num? v = some x) (hy : if a then Cmp.le.Holds y x else Cmp.lt.Holds y x)
      (hz : if b then Cmp.le.Holds x z else Cmp.lt.Holds x z) : Typed (.between y a b z) v
  | approx {c e x : Flt} {v : Val} (hv : num? v = some x) (h : FLe (fdist x c) e) : Typed (.approx c e) v
  | all {vs : List Src} {v : Val} (hn : vs ≠ []) (h : ∀ s ∈ vs, Typed s v) : Typed (.all vs) v
  | alt {vss : List (List Src)} {vs : List Src} {v : Val} (hm : vs ∈ vss) (hn : vs ≠ []) (h : ∀ s ∈ vs, Typed s v) : Typed (.alt vss) v

mutual
/-- What is needed for a typed pattern to be taken as it is written: no range with two bounds, keys of objects are distinct and not constants, and no key
`self` together with `...`; numbers are not nan, and what is approximated is finite. -/
def Src.fair : Src → Bool
  | .obj ps dots => (ps.map (·.1)).all (·.text?.isSome) && decide ((ps.map (Key.written ·.1)).Nodup) && (!dots || decide ("self" ∉ ps.map (Key.written ·.1))) && fairD ps
  | .arr vs => fairL vs
  | .ends vs => fairL vs
  | .starts vs => fairL vs
  | .cmp _ x => decide (x ≠ .nan)
  | .between _ _ _ _ => false
  | .approx c e => decide (c ≠ .nan) && decide (e ≠ .nan) && decide (c ≠ .pinf) && decide (c ≠ .ninf)
  | .all vs => fairL vs
  | .alt vss => fairA vss
  | _ => true
@[inherit_doc Src.fair] def fairD : List (Key × Src) → Bool
  | [] => true
  | (_, v) :: ps => v.fair && fairD ps
@[inherit_doc Src.fair] def fairL : List Src → Bool
  | [] => true
  | v :: vs => v.fair && fairL vs
@[inherit_doc Src.fair] def fairA : List (List Src) → Bool
  | [] => true
  | vs :: vss => fairL vs && fairA vss
end

end Verif.Inspector
