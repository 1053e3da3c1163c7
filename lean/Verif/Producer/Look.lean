import Verif.Producer.Search
/-! # The outline of a JSON document: model (C102)

Models `titus/producer/tools.py` 459-545: `look`, `_look`, `_dropAt` and `_acceptableDepth`.

Simplifications.  The texts that `json.dumps` gives for scalars and for keys are parameters; those of lists and objects are made from them, with the
separators that Python uses.  Documents are JSON: `bytes` are not looked at.  What is written to the stream is a list of texts, one for each call. -/

namespace Verif.Producer
open Avro

/-- `json.dumps` of scalars and of keys. -/
structure Texts where
  leaf : Val → List Char
  key : String → List Char

/-- A row: the index column and the data column. -/
abbrev Row := List Char × List Char

mutual
/-- `json.dumps` with its default separators. -/
def dumps (T : Texts) : Val → List Char
  | .dict d => '{' :: dumpsD T d ++ ['}']
  | .arr xs => '[' :: dumpsL T xs ++ [']']
  | v => T.leaf v
@[inherit_doc dumps] def dumpsD (T : Texts) : List (String × Val) → List Char
  | [] => []
  | (k, v) :: d => T.key k ++ [':', ' '] ++ dumps T v ++ (if d.isEmpty then [] else [',', ' ']) ++ dumpsD T d
@[inherit_doc dumps] def dumpsL (T : Texts) : List Val → List Char
  | [] => []
  | v :: xs => dumps T v ++ (if xs.isEmpty then [] else [',', ' ']) ++ dumpsL T xs
end

mutual
/-- `_dropAt`, tools.py 478-484; the depth is not used there. -/
def dropAt : Val → Val
  | .dict d => .dict (dropAtD d)
  | .arr xs => .arr (dropAtL xs)
  | v => v
@[inherit_doc dropAt] def dropAtD : List (String × Val) → List (String × Val)
  | [] => []
  | (k, v) :: d => if k = "@" then dropAtD d else (k, dropAt v) :: dropAtD d
@[inherit_doc dropAt] def dropAtL : List Val → List Val
  | [] => []
  | v :: xs => dropAt v :: dropAtL xs
end

mutual
/-- `_acceptableDepth`, tools.py 486-494. -/
def acceptable : Val → Int → Bool
  | .dict d, l => if l < 0 then false else acceptableD d (l - 1)
  | .arr xs, l => if l < 0 then false else acceptableL xs (l - 1)
  | _, l => if l < 0 then false else true
@[inherit_doc acceptable] def acceptableD : List (String × Val) → Int → Bool
  | [], _ => true
  | (_, v) :: d, l => acceptable v l && acceptableD d l
@[inherit_doc acceptable] def acceptableL : List Val → Int → Bool
  | [], _ => true
  | v :: xs, l => acceptable v l && acceptableL xs l
end

/-- `str` of a step of an index. -/
def Ix.chars : Ix → List Char
  | .key s => s.toList
  | .pos i => Lib.Num.fmt 10 i

/-- `s[:n]`. -/
def upTo (s : List Char) (n : Int) : List Char := if 0 ≤ n then s.take n.toNat else s.take (s.length - (-n).toNat)

/-- `reprindex`, tools.py 506-508. -/
def indexText (w : Int) (ix : List Ix) : List Char :=
  if ([','].intercalate (ix.map Ix.chars)).length > w then upTo ([','].intercalate (ix.map Ix.chars)) (w - 3) ++ ['.', '.', '.']
  else [','].intercalate (ix.map Ix.chars)

/-- `lstrip()`. -/
def lstrip (s : List Char) : List Char := s.dropWhile Char.isWhitespace

/-- `rstrip(",")`. -/
def rstripComma (s : List Char) : List Char := (s.reverse.dropWhile (· = ',')).reverse

/-- Changing the data column of the last row, `block[-1][1] = …`. -/
def onLast (f : List Char → List Char) : List Row → Res (List Row)
  | [] => .error indexErr
  | [(x, s)] => .ok [(x, f s)]
  | r :: r' :: rs => match onLast f (r' :: rs) with
    | .error e => .error e
    | .ok b => .ok (r :: b)

/-- The cases `_Pair` and `_Item`, tools.py 510-522: `pre` is the key with a colon, or nothing. -/
def headed (w : Int) (ix : List Ix) (ind pre : List Char) : List Row → Res (List Row)
  | [] => .error indexErr
  | (_, s) :: b => onLast (· ++ [',']) ((indexText w ix, ind ++ pre ++ lstrip s) :: b)

mutual
/-- `_look`, tools.py 505-545: `i` is inlineDepth, `w` is indexWidth, `m` is maxDepth.  A scalar for which inlineDepth is negative gives None, and that is a
TypeError where it is used. -/
def rows (T : Texts) (i w : Int) : Int → List Ix → List Char → Val → Res (List Row)
  | m, ix, ind, .dict d =>
    if acceptable (.dict d) i then .ok [(indexText w ix, ind ++ dumps T (.dict d))]
    else if m > 0 then match rowsD T i w (m - 1) ix (ind ++ [' ', ' ']) d with
      | .error e => .error e
      | .ok b => match onLast rstripComma b with
        | .error e => .error e
        | .ok b' => .ok ((indexText w ix, ind ++ ['{']) :: b' ++ [([], ind ++ ['}'])])
    else .ok [(indexText w ix, ind ++ ['{', '.', '.', '.', '}'])]
  | m, ix, ind, .arr xs =>
    if acceptable (.arr xs) i then .ok [(indexText w ix, ind ++ dumps T (.arr xs))]
    else if m > 0 then match rowsL T i w (m - 1) ix (ind ++ [' ', ' ']) 0 xs with
      | .error e => .error e
      | .ok b => match onLast rstripComma b with
        | .error e => .error e
        | .ok b' => .ok ((indexText w ix, ind ++ ['[']) :: b' ++ [([], ind ++ [']'])])
    else .ok [(indexText w ix, ind ++ ['[', '.', '.', '.', ']'])]
  | _, ix, ind, v => if acceptable v i then .ok [(indexText w ix, ind ++ dumps T v)] else .error typeErr
/-- The loop over the entries, lines 530-531. -/
def rowsD (T : Texts) (i w : Int) : Int → List Ix → List Char → List (String × Val) → Res (List Row)
  | _, _, _, [] => .ok []
  | m, ix, ind, (k, v) :: d => match rows T i w m (ix ++ [.key k]) ind v with
    | .error e => .error e
    | .ok b => match headed w (ix ++ [.key k]) ind (T.key k ++ [':', ' ']) b with
      | .error e => .error e
      | .ok b' => match rowsD T i w m ix ind d with
        | .error e => .error e
        | .ok c => .ok (b' ++ c)
/-- The loop over the elements, lines 540-541. -/
def rowsL (T : Texts) (i w : Int) : Int → List Ix → List Char → Nat → List Val → Res (List Row)
  | _, _, _, _, [] => .ok []
  | m, ix, ind, n, v :: xs => match rows T i w m (ix ++ [.pos n]) ind v with
    | .error e => .error e
    | .ok b => match headed w (ix ++ [.pos n]) ind [] b with
      | .error e => .error e
      | .ok b' => match rowsL T i w m ix ind (n + 1) xs with
        | .error e => .error e
        | .ok c => .ok (b' ++ c)
end

/-- One line of the output, tools.py 472-476: the index is filled up to the width. -/
def written (w : Int) (r : Row) : List Char := r.1 ++ List.replicate (w.natAbs - r.1.length) ' ' ++ [' '] ++ r.2 ++ ['\n']

/-- `look`, tools.py 461-476: what is written. -/
def look (T : Texts) (v : Val) (m i w : Int) (drop : Bool) : Res (List (List Char)) :=
  match rows T i w m [] [] (if drop then dropAt v else v) with
  | .error e => .error e
  | .ok b => .ok (written w ("index".toList, "data".toList) :: (List.replicate (w * 2).toNat '-' ++ ['\n']) :: b.map (written w))

/-! ## Specification -/

mutual
/-- How many lists and objects are around the innermost part; empty ones do not count. -/
def height : Val → Nat
  | .dict d => heightD d
  | .arr xs => heightL xs
  | _ => 0
@[inherit_doc height] def heightD : List (String × Val) → Nat
  | [] => 0
  | (_, v) :: d => max (height v + 1) (heightD d)
@[inherit_doc height] def heightL : List Val → Nat
  | [] => 0
  | v :: xs => max (height v + 1) (heightL xs)
end

/-- Blanks and new lines. -/
def White (s : List Char) : Prop := ∀ c ∈ s, c = ' ' ∨ c = '\n'

mutual
/-- `Shows T cut m v s`: the text `s` is JSON for `v`, where white space is free before a value, a key and a closing bracket; but the parts that
`cut` names are shown with three dots.  The number says how many levels are still to be shown. -/
inductive Shows (T : Texts) (cut : Int → Val → Prop) : Int → Val → List Char → Prop where
  | leaf {m : Int} {v : Val} (h1 : ∀ d, v ≠ .dict d) (h2 : ∀ xs, v ≠ .arr xs) : Shows T cut m v (T.leaf v)
  | cutDict {m : Int} {d : List (String × Val)} (h : cut m (.dict d)) : Shows T cut m (.dict d) "{...}".toList
  | cutArr {m : Int} {xs : List Val} (h : cut m (.arr xs)) : Shows T cut m (.arr xs) "[...]".toList
  | noDict {m : Int} (h : ¬ cut m (.dict [])) : Shows T cut m (.dict []) "{}".toList
  | noArr {m : Int} (h : ¬ cut m (.arr [])) : Shows T cut m (.arr []) "[]".toList
  | dict {m : Int} {d : List (String × Val)} {r e : List Char} (h : ¬ cut m (.dict d)) (hr : ShowsD T cut (m - 1) d r) (he : White e) :
      Shows T cut m (.dict d) ('{' :: (r ++ e ++ ['}']))
  | arr {m : Int} {xs : List Val} {r e : List Char} (h : ¬ cut m (.arr xs)) (hr : ShowsL T cut (m - 1) xs r) (he : White e) :
      Shows T cut m (.arr xs) ('[' :: (r ++ e ++ [']']))
/-- Entries with commas between them. -/
inductive ShowsD (T : Texts) (cut : Int → Val → Prop) : Int → List (String × Val) → List Char → Prop where
  | one {m : Int} {k : String} {v : Val} {a b s : List Char} (ha : White a) (hb : White b) (h : Shows T cut m v s) :
      ShowsD T cut m [(k, v)] (a ++ T.key k ++ ':' :: (b ++ s))
  | more {m : Int} {k : String} {v : Val} {d : List (String × Val)} {a b s r : List Char} (ha : White a) (hb : White b) (h : Shows T cut m v s)
      (hr : ShowsD T cut m d r) : ShowsD T cut m ((k, v) :: d) (a ++ T.key k ++ ':' :: (b ++ s) ++ ',' :: r)
/-- Elements with commas between them. -/
inductive ShowsL (T : Texts) (cut : Int → Val → Prop) : Int → List Val → List Char → Prop where
  | one {m : Int} {v : Val} {a s : List Char} (ha : White a) (h : Shows T cut m v s) : ShowsL T cut m [v] (a ++ s)
  | more {m : Int} {v : Val} {xs : List Val} {a s r : List Char} (ha : White a) (h : Shows T cut m v s) (hr : ShowsL T cut m xs r) :
      ShowsL T cut m (v :: xs) (a ++ s ++ ',' :: r)
end

/-- The text is JSON for the document. -/
def Spells (T : Texts) (v : Val) (s : List Char) : Prop := Shows T (fun _ _ => False) 0 v s

/-- What is left out: lists and objects that are too deep down, unless they fit on a line. -/
def tooDeep (i m : Int) (v : Val) : Prop := m ≤ 0 ∧ i < height v

/-- `Part i m v p c`: `p` leads to `c` in the document, through lists and objects that are not on one line, over at most `m` steps. -/
inductive Part (i : Int) : Int → Val → List Ix → Val → Prop where
  | here {m : Int} (v : Val) : Part i m v [] v
  | key {m : Int} {d : List (String × Val)} {k : String} {c w : Val} {p : List Ix} (hi : i < height (.dict d)) (hm : 0 < m) (hk : (k, c) ∈ d)
      (h : Part i (m - 1) c p w) : Part i m (.dict d) (.key k :: p) w
  | pos {m : Int} {xs : List Val} {n : Nat} {c w : Val} {p : List Ix} (hi : i < height (.arr xs)) (hm : 0 < m) (hk : xs[n]? = some c)
      (h : Part i (m - 1) c p w) : Part i m (.arr xs) (.pos n :: p) w

/-- What stands on the line of a part: all of it, or its opening bracket, or dots. -/
inductive Opens (T : Texts) (i : Int) : Int → Val → List Char → Prop where
  | all {m : Int} {v : Val} (h : height v ≤ i) : Opens T i m v (dumps T v)
  | dict {m : Int} {d : List (String × Val)} (h : i < height (.dict d)) (hm : 0 < m) : Opens T i m (.dict d) ['{']
  | arr {m : Int} {xs : List Val} (h : i < height (.arr xs)) (hm : 0 < m) : Opens T i m (.arr xs) ['[']
  | cutDict {m : Int} {d : List (String × Val)} (h : i < height (.dict d)) (hm : m ≤ 0) : Opens T i m (.dict d) "{...}".toList
  | cutArr {m : Int} {xs : List Val} (h : i < height (.arr xs)) (hm : m ≤ 0) : Opens T i m (.arr xs) "[...]".toList

/-- The key of an entry stands before it. -/
def keyText (T : Texts) (p : List Ix) : List Char := match p.getLast? with
  | some (.key k) => T.key k ++ [':', ' ']
  | _ => []

/-- A row is for a part: the index column is its place, and the data column is what opens it, with its key. -/
def RowFor (T : Texts) (i w m : Int) (v : Val) (p : List Ix) (r : Row) : Prop :=
  ∃ c o a e, Part i m v p c ∧ Opens T i (m - p.length) c o ∧ White a ∧ (e = [] ∨ e = [',']) ∧ r = (indexText w p, a ++ keyText T p ++ o ++ e)

/-- A row with nothing but a closing bracket. -/
def Closing (r : Row) : Prop := ∃ a b e, White a ∧ (b = '}' ∨ b = ']') ∧ (e = [] ∨ e = [',']) ∧ r = ([], a ++ [b] ++ e)

/-- The texts of scalars begin with something visible and do not end with a comma. -/
def Texts.plain (T : Texts) : Prop := ∀ v, (∃ c s, T.leaf v = c :: s ∧ c.isWhitespace = false) ∧ ∃ s c, T.leaf v = s ++ [c] ∧ c ≠ ','

end Verif.Producer
