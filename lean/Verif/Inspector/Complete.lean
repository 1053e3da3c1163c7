import Verif.Inspector.Change
import Verif.Lib.Num
import Mathlib.Data.Nat.Log
/-! # Completion of what is typed in square brackets: model (C107)

Models `extcomplete` of `titus/inspector/defs.py` 219-258, and of `titus/inspector/parser.py` the tokens that may stand in square brackets (441-529)
with the productions `extract`, `index` and `indexes` (560-585).

Simplifications.  `math.ceil(math.log10(n))` is the least `k` with `n ≤ 10 ** k`.  Strings with a backslash are not read (`none`), nor are two
commas in a row, and what follows the closing bracket is left out. -/

namespace Verif.Inspector
open Avro Producer

/-- Is it an object or a list? -/
def isPart : Val → Bool
  | .dict _ => true
  | .arr _ => true
  | _ => false

/-- What comes after a completion, 251 and 255. -/
def ending (v : Val) : List Char := if isPart v then [',', ' '] else [']']

/-- `quote`, 244-248. -/
def quote (x : List Char) : List Char := if ' ' ∈ x then '"' :: x ++ ['"'] else x

/-- `"%0kd" % x` for a number that is not negative, 254. -/
def padded (k : Nat) (x : Nat) : List Char := List.replicate (k - (Lib.Num.fmt 10 x).length) '0' ++ Lib.Num.fmt 10 x

/-- `node` after the loop, 229-242; `none` where an empty list is returned. -/
def descend : Val → List Ix → Res (Option Val)
  | v, [] => .ok (some v)
  | .dict d, .key k :: is => match PyDict.get? d k with
    | some w => descend w is
    | none => .ok none
  | .arr xs, .pos i :: is =>
    if i < xs.length then match step (.arr xs) (.pos i) with
      | .ok w => descend w is
      | .error e => .error e
    else .ok none
  | _, _ => .ok none

/-- `extcomplete`, 219-258. -/
def completions (v : Val) (items : List Ix) : Res (List (List Char)) := match descend v items with
  | .error e => .error e
  | .ok (some (.dict d)) => .ok (d.map fun kv => quote kv.1.toList ++ ending kv.2)
  | .ok (some (.arr [])) => .error (.py "ValueError")
  | .ok (some (.arr xs)) => .ok (xs.zipIdx.map fun p => quote (padded (Nat.clog 10 xs.length) p.2) ++ ending p.1)
  | .ok _ => .ok []

/-! ## What is read -/

/-- `[A-Za-z0-9_\.]` -/
def wordChar (c : Char) : Bool := c.isAlphanum || c == '_' || c == '.'

/-- `[A-Za-z0-9_\.~@$%\-\+\\]` -/
def pathChar (c : Char) : Bool := wordChar c || c == '~' || c == '@' || c == '$' || c == '%' || c == '-' || c == '+' || c == '\\'

/-- Does the text begin with this character? -/
def begins (c : Char) : List Char → Bool
  | [] => false
  | x :: _ => x == c

/-- Does a number go on as a FLOATING, 515? -/
def floats : List Char → Bool
  | '.' :: _ => true
  | c :: '-' :: d :: _ => (c == 'e' || c == 'E') && d.isDigit
  | c :: '+' :: d :: _ => (c == 'e' || c == 'E') && d.isDigit
  | c :: d :: _ => (c == 'e' || c == 'E') && d.isDigit
  | _ => false

/-- INTEGER, 519-522, after FLOATING. -/
def integer (sign cs : List Char) : Option (Ix × List Char) :=
  if (cs.takeWhile Char.isDigit).isEmpty || floats (cs.dropWhile Char.isDigit) then none
  else match Lib.Num.pyInt 10 (sign ++ cs.takeWhile Char.isDigit) with
    | some i => some (.pos i, cs.dropWhile Char.isDigit)
    | none => none

/-- STRING, 504-507, without backslashes; `literal_eval` refuses line breaks, and every PARTSTRING, 509-512. -/
def quoted (cs : List Char) : Option (Ix × List Char) :=
  match cs.dropWhile fun c => c != '"' && c != '\\' with
  | '"' :: rest => if (cs.takeWhile fun c => c != '"' && c != '\\').any (fun c => c == '\n' || c == '\r') then none
    else some (.key (String.ofList (cs.takeWhile fun c => c != '"' && c != '\\')), rest)
  | _ => none

/-- The first token of the text if it is an `index`, 566-571: the rules are tried in the order of the file. -/
def index1 : List Char → Option (Ix × List Char)
  | [] => none
  | c :: cs =>
    if c == '_' then none
    else if c.isAlpha && begins '[' (cs.dropWhile wordChar) then none
    else if begins '/' ((c :: cs).dropWhile pathChar) then none
    else if c.isAlpha then some (.key (String.ofList (c :: cs.takeWhile wordChar)), cs.dropWhile wordChar)
    else if c == '"' then quoted cs
    else if c == '-' then integer ['-'] cs
    else integer [] (c :: cs)

/-- `t_ignore`, 529. -/
def skipBlanks (cs : List Char) : List Char := cs.dropWhile fun c => c == ' ' || c == '\t'

/-- What stands after the opening bracket, 573-585, and whether it is closed, 560-564. -/
def readIndexes : Nat → List Char → Option (List Ix × Bool)
  | 0, _ => none
  | fuel + 1, cs => match index1 (skipBlanks cs) with
    | none => none
    | some (i, rest) => match skipBlanks rest with
      | [] => some ([i], false)
      | ']' :: _ => some ([i], true)
      | ',' :: rest => if (skipBlanks rest).isEmpty then some ([i], false) else match readIndexes fuel rest with
        | some (is, b) => some (i :: is, b)
        | none => none
      | _ => none

end Verif.Inspector
