import Verif.Py.Basic
import Verif.Avro.Basic
/-! # Documents kept in memory by the inspector (C109)

Models the commands `load`, `rename`, `drop` and `save` of `titus/inspector/main.py` 41-146, `pfa externalize` and `pfa internalize` of
`titus/inspector/pfagadget.py` 540-719 (the methods `action`), and of `titus/inspector/defs.py` the class `Model` (338-376) and
`SimpleCommand.action` (509-533).

Simplifications.  A file is the JSON value it holds, or `none` when it holds no JSON; writing a value and reading it back gives the value.  Two
paths name the same file only when they are equal.  `jsonToAst`, the right to write a file, and what a URL returns are parameters.  What is
printed is left out.  The property `engine` is not modelled, only `engineConfig`.  A failing command changes nothing: in each of them every
statement that may raise comes before the first assignment, so the model returns either the new state or the exception. -/

namespace Verif.Inspector.Memory
open Avro

/-- What a command is given, `titus/inspector/parser.py` 89-165 and 166-190: a `Word`, another `FilePath` (a path or a string), an `Option` with
what `value()` returns (`none` for a TypeError), or anything else. -/
inductive Arg where
  | word (s : String)
  | file (s : String)
  | option (k : String) (v : Option Val)
  | other

/-- `InspectorError`. -/
def insp : Err := .py "InspectorError"

/-- `isinstance(x, parser.FilePath)` and its `text`; `Word` is a subclass of `FilePath`. -/
def Arg.path? : Arg → Option String
  | .word s => some s
  | .file s => some s
  | _ => none

/-- `Model`, defs.py 338-351. -/
structure Slot (C : Type) where
  obj : Val
  cfg : Option C

/-- What the inspector meets outside: `jsonToAst` with its errors turned into InspectorError (361-363), whether a file can be opened for writing,
whether a text matches the pattern for URLs (pfagadget.py 709), and what is read from a URL (710). -/
structure Env (C : Type) where
  parse : Val → Res C
  writable : String → Bool
  isUrl : String → Bool
  fetch : String → Res Val

/-- `pfaFiles` and the files. -/
structure St (C : Type) where
  mem : PyDict String (Slot C)
  disk : PyDict String (Option Val)

variable {C : Type}

/-- `json.load(open(p))`; `e` is what a missing file raises. -/
def readFile (e : Err) (disk : PyDict String (Option Val)) (p : String) : Res Val :=
  match PyDict.get? disk p with
  | none => .error e
  | some none => .error (.py "ValueError")
  | some (some v) => .ok v

/-- `LoadCommand.action`, main.py 58-68. -/
def load (st : St C) : List Arg → Res (St C)
  | [.word "help"] => .ok st
  | [a, .word "as", .word n] => match a.path? with
    | some p => match readFile insp st.disk p with
      | .ok v => .ok { st with mem := PyDict.set st.mem n ⟨v, none⟩ }
      | .error e => .error e
    | none => .error insp
  | _ => .error insp

/-- `RenameCommand.action`, main.py 84-93. -/
def rename (st : St C) : List Arg → Res (St C)
  | [.word "help"] => .ok st
  | [.word a, .word "as", .word b] => match PyDict.get? st.mem a with
    | none => .error insp
    | some s => .ok { st with mem := PyDict.del (PyDict.set st.mem b s) a }
  | _ => .error insp

/-- `DropCommand.action`, main.py 107-115. -/
def drop (st : St C) : List Arg → Res (St C)
  | [.word "help"] => .ok st
  | [.word a] => match PyDict.get? st.mem a with
    | none => .error insp
    | some _ => .ok { st with mem := PyDict.del st.mem a }
  | _ => .error insp

/-- `SaveCommand.action`, main.py 133-146. -/
def save (env : Env C) (st : St C) : List Arg → Res (St C)
  | [.word "help"] => .ok st
  | [.word n, .word "to", f] => match f.path? with
    | some p => match PyDict.get? st.mem n with
      | none => .error insp
      | some s => if env.writable p then .ok { st with disk := PyDict.set st.disk p (some s.obj) } else .error insp
    | none => .error insp
  | _ => .error insp

/-- The loop over the options, pfagadget.py 552-561 and 674-683, on the reversed arguments. -/
def popOptions : List Arg → Val → Res (Val × List Arg)
  | .option k v :: r, cur => if k = "cell" then match v with
      | some w => popOptions r w
      | none => .error insp
    else .error insp
  | r, cur => .ok (cur, r.reverse)

/-- The options and the other arguments, pfagadget.py 551-564 and 673-686. -/
def options (args : List Arg) : Res (Bool × List Arg) :=
  match popOptions args.reverse (.bool true) with
  | .error e => .error e
  | .ok (.bool b, r) => .ok (b, r)
  | .ok _ => .error insp

/-- `cells.get(name)` when `cells` is a dict, and not None. -/
def item (d : List (String × Val)) (sec name : String) : Option Val :=
  match PyDict.get? d sec with
  | some (.dict e) => match PyDict.get? e name with
    | some .null => none
    | r => r
  | _ => none

/-- The cell or pool that is meant, with the section it is in, pfagadget.py 571-588 and 693-710. -/
def choose (cell : Bool) (d : List (String × Val)) (name : String) : Option (String × Val) :=
  let first := if cell then "cells" else "pools"
  let second := if cell then "pools" else "cells"
  match item d first name with
  | some v => some (first, v)
  | none => match item d second name with
    | some v => some (second, v)
    | none => none

/-- The document after the object found was changed in place. -/
def put (d : List (String × Val)) (sec name : String) (v : Val) : List (String × Val) :=
  match PyDict.get? d sec with
  | some (.dict e) => PyDict.set d sec (.dict (PyDict.set e name v))
  | _ => d

/-- `obj.get("source", "embedded")` is the text `s`. -/
def sourceIs (o : List (String × Val)) (s : String) : Bool :=
  match PyDict.get? o "source" with
  | none => "embedded" == s
  | some (.str t) => t == s
  | some _ => false

/-- What `externalize` does to the document, 569-599: the new document and what is written. -/
def extern (cell : Bool) (name file : String) : Val → Res (Val × Val)
  | .dict d => match choose cell d name with
    | none => .error insp
    | some (sec, .dict o) =>
      if sourceIs o "embedded" then
        .ok (.dict (put d sec name (.dict (PyDict.set (PyDict.set o "source" (.str "json")) "init" (.str file)))),
          (PyDict.get? o "init").getD .null)
      else .error insp
    | some _ => .error (.py "AttributeError")
  | _ => .error (.py "AttributeError")

/-- `ExternalizeCommand.action`, pfagadget.py 540-602. -/
def externalize (env : Env C) (st : St C) : List Arg → Res (St C)
  | [.word "help"] => .ok st
  | args => match options args with
    | .error e => .error e
    | .ok (cell, [.word n, .word x, .word f]) => match PyDict.get? st.mem n with
      | none => .error insp
      | some s => match extern cell x f s.obj with
        | .error e => .error e
        | .ok (obj, v) =>
          if env.writable f then .ok ⟨PyDict.set st.mem n { s with obj := obj }, PyDict.set st.disk f (some v)⟩ else .error (.py "OSError")
    | .ok _ => .error insp

/-- `json.load(urlopen(url))` or `json.load(open(url))`, 708-712. -/
def fetchInit (env : Env C) (disk : PyDict String (Option Val)) (url : String) : Res Val :=
  if env.isUrl url then env.fetch url else readFile (.py "OSError") disk url

/-- What `internalize` does to the document, 691-715. -/
def intern (get : String → Res Val) (cell : Bool) (name : String) : Val → Res Val
  | .dict d => match choose cell d name with
    | none => .error insp
    | some (sec, .dict o) =>
      if sourceIs o "json" then match PyDict.get? o "init" with
        | some (.str url) => match get url with
          | .ok v => .ok (.dict (put d sec name (.dict (PyDict.set (PyDict.del o "source") "init" v))))
          | .error e => .error e
        | _ => .error insp
      else .error insp
    | some _ => .error (.py "AttributeError")
  | _ => .error (.py "AttributeError")

/-- `InternalizeCommand.action`, pfagadget.py 662-719. -/
def internalize (env : Env C) (st : St C) : List Arg → Res (St C)
  | [.word "help"] => .ok st
  | args => match options args with
    | .error e => .error e
    | .ok (cell, [.word n, .word x]) => match PyDict.get? st.mem n with
      | none => .error insp
      | some s => match intern (fetchInit env st.disk) cell x s.obj with
        | .error e => .error e
        | .ok obj => .ok { st with mem := PyDict.set st.mem n { s with obj := obj } }
    | .ok _ => .error insp

/-- The property `engineConfig` of the document `n`, defs.py 357-364, as `pfa valid`, `pfa cells`, `pfa pools` and others use it. -/
def view (env : Env C) (st : St C) (n : String) : Res (C × St C) :=
  match PyDict.get? st.mem n with
  | none => .error insp
  | some s => match s.cfg with
    | some c => .ok (c, st)
    | none => match env.parse s.obj with
      | .ok c => .ok (c, { st with mem := PyDict.set st.mem n { s with cfg := some c } })
      | .error e => .error e

/-- `json change` leaving the document `v`, with `model.reset()`: jsongadget.py 593 (what `v` is: `Verif.Inspector.Change`). -/
def change (st : St C) (n : String) (v : Val) : Res (St C) :=
  match PyDict.get? st.mem n with
  | none => .error insp
  | some _ => .ok { st with mem := PyDict.set st.mem n ⟨v, none⟩ }

/-- One line typed to the inspector. -/
inductive Cmd where
  | load (args : List Arg)
  | rename (args : List Arg)
  | drop (args : List Arg)
  | save (args : List Arg)
  | externalize (args : List Arg)
  | internalize (args : List Arg)
  | view (n : String)
  | change (n : String) (v : Val)

/-- What one line does. -/
def exec (env : Env C) (st : St C) : Cmd → Res (St C)
  | .load a => load st a
  | .rename a => rename st a
  | .drop a => drop st a
  | .save a => save env st a
  | .externalize a => externalize env st a
  | .internalize a => internalize env st a
  | .view n => match view env st n with
    | .ok (_, st) => .ok st
    | .error e => .error e
  | .change n v => change st n v

/-- The read-eval-print loop, defs.py 378-430: the exception of a line is shown and the next line is read. -/
def session (env : Env C) : St C → List Cmd → St C
  | st, [] => st
  | st, c :: cs => session env (match exec env st c with | .ok st' => st' | .error _ => st) cs

/-- `SimpleCommand.action`, defs.py 519-533: `arity` is what the lambda takes (`none`: any number). -/
def simple (min max arity : Option Nat) (args : List Arg) : Res (Option (List String)) :=
  match args with
  | [.word "help"] => .ok none
  | _ => match args.mapM Arg.path? with
    | none => .error insp
    | some xs =>
      if min.any (fun m => xs.length < m) then .error insp
      else if max.any (fun m => xs.length < m) then .error insp
      else if arity.any (fun m => xs.length ≠ m) then .error (.py "TypeError")
      else .ok (some xs)

end Verif.Inspector.Memory
