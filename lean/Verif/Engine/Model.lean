import Verif.Path.Model
/-! # The generated engine class: cells, pools, backups, action, merge, begin, end

Models the Python heap objects explicitly: `Cell` and `Pool` objects have identities (they are
shared between engine instances), and the dict of a pool has its own identity, because
`pool-to` and `pool-del` mutate it in place while the backup is a copy. -/

namespace Verif.Engine
open Verif.Avro Verif.Path

/-- Total-function update at one point. -/
def upd {α : Type _} (f : Nat → α) (i : Nat) (a : α) : Nat → α := fun j => if j = i then a else f j

/-- A `Cell` object (genpy.py 515-556).  `oldvalue` exists after the first backup. -/
structure CellObj where
  value : Val
  oldvalue : Option Val
  shared : Bool
  rollback : Bool

/-- A `Pool` object (genpy.py 558-608); `value` and `oldvalue` are references to dicts. -/
structure PoolObj where
  value : Nat
  oldvalue : Option Nat
  shared : Bool
  rollback : Bool

/-- The heap: cell objects, pool objects, dict objects and, per emit callback, what was emitted. -/
structure World where
  cell : Nat → CellObj
  pool : Nat → PoolObj
  dict : Nat → PyDict String Val
  nextCell : Nat
  nextPool : Nat
  nextDict : Nat
  emitted : Nat → List Val

/-- `self.value = v` on cell `i`. -/
def World.setCell (w : World) (i : Nat) (v : Val) : World :=
  { w with cell := upd w.cell i { w.cell i with value := v } }

/-- In-place mutation of dict object `r`. -/
def World.setDict (w : World) (r : Nat) (d : PyDict String Val) : World :=
  { w with dict := upd w.dict r d }

/-- Everything the body of a PFA routine can do to the engine, as a tree of interactions: what
is done next may depend on every value read so far.  Pure computation (variables, library
functions, control flow) is in the Lean functions between interactions.  A finite tree stands
for an execution that terminates. -/
inductive Prog where
  | ret (v : Val)
  | raise (e : Err)
  | cellGet (name : String) (path : Path) (k : Val → Prog)
  | cellTo (name : String) (path : Path) (repl : Val → Prog) (k : Val → Prog)
  | poolGet (name : String) (path : Path) (k : Val → Prog)
  | poolTo (name : String) (head : String) (tail : Path) (repl : Val → Prog) (init : Val)
      (k : Val → Prog)
  | poolDel (name : String) (item : String) (k : Prog)
  | tryCatch (body : Prog) (catches : Err → Bool) (k : Val → Prog)
  | emit (v : Val) (k : Prog)

/-- `Cell.update` (genpy.py 538-548) and `CellTo` (387-388); locks are modelled separately in
`Verif.Lock`.  `f` is the evaluation of the replacement. -/
def cellUpdate (i : Nat) (path : Path) (f : Val → SM World Val) : SM World Val := fun w =>
  match updateM 2006 2007 f path (w.cell i).value w with
  | (.ok v, w) => (.ok v, w.setCell i v)
  | (.error e, w) => (.error e, w)

/-- `Pool.update` (genpy.py 573-600) and `PoolTo` (393-394): the initial value is inserted in
place before the replacement runs. -/
def poolUpdate (i : Nat) (head : String) (tail : Path) (init : Val) (f : Val → SM World Val) :
    SM World Val := fun w =>
  let r := (w.pool i).value
  let w := if PyDict.has (w.dict r) head then w else w.setDict r (PyDict.set (w.dict r) head init)
  match PyDict.get? (w.dict r) head with
  | none => (.error (.py "KeyError"), w)
  | some old =>
    match updateM 2010 2011 f tail old w with
    | (.ok v, w) =>
      let r := (w.pool i).value
      (.ok v, w.setDict r (PyDict.set (w.dict r) head v))
    | (.error e, w) => (.error e, w)

/-- Run the body of a routine.  `cs`, `ps` are `self.cells` and `self.pools`: name to object;
`o` identifies the callback `self.emit`. -/
def run (cs ps : PyDict String Nat) (o : Nat) : Prog → SM World Val
  | .ret v, w => (.ok v, w)
  | .raise e, w => (.error e, w)
  -- CellGet, genpy.py 384-385
  | .cellGet name path k, w =>
    match PyDict.get? cs name with
    | none => (.error (.py "KeyError"), w)
    | some i =>
      match get 2004 2005 (w.cell i).value path with
      | .ok v => run cs ps o (k v) w
      | .error e => (.error e, w)
  -- CellTo, genpy.py 387-388
  | .cellTo name path repl k, w =>
    match PyDict.get? cs name with
    | none => (.error (.py "KeyError"), w)
    | some i =>
      match cellUpdate i path (fun v => run cs ps o (repl v)) w with
      | (.ok v, w) => run cs ps o (k v) w
      | (.error e, w) => (.error e, w)
  -- PoolGet, genpy.py 390-391
  | .poolGet name path k, w =>
    match PyDict.get? ps name with
    | none => (.error (.py "KeyError"), w)
    | some i =>
      match get 2008 2009 (.dict (w.dict (w.pool i).value)) path with
      | .ok v => run cs ps o (k v) w
      | .error e => (.error e, w)
  -- PoolTo, genpy.py 393-394
  | .poolTo name head tail repl init k, w =>
    match PyDict.get? ps name with
    | none => (.error (.py "KeyError"), w)
    | some i =>
      match poolUpdate i head tail init (fun v => run cs ps o (repl v)) w with
      | (.ok v, w) => run cs ps o (k v) w
      | (.error e, w) => (.error e, w)
  -- pooldel, genpy.py 297-303: deletes in place, a missing key is ignored
  | .poolDel name item k, w =>
    match PyDict.get? ps name with
    | none => (.error (.py "KeyError"), w)
    | some i => run cs ps o k (w.setDict (w.pool i).value (PyDict.del (w.dict (w.pool i).value) item))
  -- tryCatch, genpy.py 1280-1300: no rollback, the result is null when caught
  | .tryCatch body catches k, w =>
    match run cs ps o body w with
    | (.ok v, w) => run cs ps o (k v) w
    | (.error e, w) => if catches e then run cs ps o (k .null) w else (.error e, w)
  | .emit v k, w => run cs ps o k { w with emitted := upd w.emitted o (w.emitted o ++ [v]) }

/-- `Cell.maybeSaveBackup` (genpy.py 550-552). -/
def saveCell (w : World) (i : Nat) : World :=
  if (w.cell i).rollback then
    { w with cell := upd w.cell i { w.cell i with oldvalue := some (w.cell i).value } }
  else w

/-- `Cell.maybeRestoreBackup` (genpy.py 554-556). -/
def restoreCell (w : World) (i : Nat) : World :=
  if (w.cell i).rollback then
    match (w.cell i).oldvalue with
    | some v => { w with cell := upd w.cell i { w.cell i with value := v } }
    | none => w
  else w

/-- `Pool.maybeSaveBackup` (genpy.py 602-604): `dict(self.value)` allocates a copy. -/
def savePool (w : World) (i : Nat) : World :=
  if (w.pool i).rollback then
    { w with
      dict := upd w.dict w.nextDict (w.dict (w.pool i).value)
      pool := upd w.pool i { w.pool i with oldvalue := some w.nextDict }
      nextDict := w.nextDict + 1 }
  else w

/-- `Pool.maybeRestoreBackup` (genpy.py 606-608). -/
def restorePool (w : World) (i : Nat) : World :=
  if (w.pool i).rollback then
    match (w.pool i).oldvalue with
    | some r => { w with pool := upd w.pool i { w.pool i with value := r } }
    | none => w
  else w

/-- The two save loops of `action` and `merge` (genpy.py 235-238, 259-262). -/
def saveAll (cs ps : PyDict String Nat) (w : World) : World :=
  (ps.map Prod.snd).foldl savePool ((cs.map Prod.snd).foldl saveCell w)

/-- The two restore loops (genpy.py 247-250, 270-273). -/
def restoreAll (cs ps : PyDict String Nat) (w : World) : World :=
  (ps.map Prod.snd).foldl restorePool ((cs.map Prod.snd).foldl restoreCell w)

/-- `method` of the engine configuration. -/
inductive Method where
  | map | emit | fold
deriving DecidableEq

/-- What the scope of `action` contains (genpy.py 241, 128). -/
structure ActionIn where
  input : Val
  actionsStarted : Nat
  actionsFinished : Nat
  tally : Val

/-- A compiled engine document: how input is checked and the bodies of its routines. -/
structure Def where
  method : Method
  check : Val → Res Val
  action : ActionIn → Prog
  merge : Val → Val → Prog
  begin : Prog
  «end» : Nat → Nat → Val → Prog

/-- An engine instance (genpy.py 182-198). -/
structure Inst where
  cells : PyDict String Nat
  pools : PyDict String Nat
  started : Nat
  finished : Nat
  tally : Val
  out : Nat

/-- `action` (genpy.py 230-252 with the suffixes of 112-132). -/
def action (e : Def) (input : Val) (s : Inst) (w : World) : Res Val × Inst × World :=
  match e.check input with
  | .error err => (.error err, s, w)
  | .ok input =>
    let w := saveAll s.cells s.pools w
    let s := { s with started := s.started + 1 }
    match run s.cells s.pools s.out (e.action ⟨input, s.started, s.finished, s.tally⟩) w with
    | (.ok last, w) =>
      match e.method with
      | .map => (.ok last, { s with finished := s.finished + 1 }, w)
      | .emit => (.ok .null, { s with finished := s.finished + 1 }, w)
      | .fold => (.ok last, { s with finished := s.finished + 1, tally := last }, w)
    | (.error err, w) => (.error err, s, restoreAll s.cells s.pools w)

/-- `merge` (genpy.py 256-275 with the suffix of 134-139). -/
def merge (e : Def) (tallyOne tallyTwo : Val) (s : Inst) (w : World) : Res Val × Inst × World :=
  let w := saveAll s.cells s.pools w
  match run s.cells s.pools s.out (e.merge tallyOne tallyTwo) w with
  | (.ok last, w) => (.ok last, { s with tally := last }, w)
  | (.error err, w) => (.error err, s, restoreAll s.cells s.pools w)

/-- `begin` (genpy.py 209-219): no backup. -/
def begin_ (e : Def) (s : Inst) (w : World) : Res Val × Inst × World :=
  match run s.cells s.pools s.out e.begin w with
  | (.ok _, w) => (.ok .null, s, w)
  | (.error err, w) => (.error err, s, w)

/-- `end` (genpy.py 283-293): no backup. -/
def end_ (e : Def) (s : Inst) (w : World) : Res Val × Inst × World :=
  match run s.cells s.pools s.out (e.«end» s.started s.finished s.tally) w with
  | (.ok _, w) => (.ok .null, s, w)
  | (.error err, w) => (.error err, s, w)

/-- The calls a host program can make on an engine instance. -/
inductive Call where
  | begin | action (input : Val) | merge (a b : Val) | «end»

def call (e : Def) : Call → Inst → World → Res Val × Inst × World
  | .begin => begin_ e
  | .action input => action e input
  | .merge a b => merge e a b
  | .end => end_ e

/-- A history of calls, with the outcome of each. -/
def history (e : Def) : List Call → Inst → World → List (Res Val) × Inst × World
  | [], s, w => ([], s, w)
  | c :: cs, s, w =>
    match call e c s w with
    | (r, s, w) => match history e cs s w with
      | (rs, s, w) => (r :: rs, s, w)

end Verif.Engine
