import Verif.Engine.Model
/-! # What a user expects of an engine instance

No heap objects here: a cell is a named value, a pool is a named dict, and a failing action or
merge leaves the ones marked `rollback` as they were before the call. -/

namespace Verif.Engine
open Verif.Avro Verif.Path

/-- The state a user can observe: contents by name, and what was emitted. -/
structure Store where
  cells : String → Option Val
  pools : String → Option (PyDict String Val)
  emitted : List Val

def Store.setCell (st : Store) (n : String) (v : Val) : Store :=
  { st with cells := fun m => if m = n then some v else st.cells m }

def Store.setPool (st : Store) (n : String) (d : PyDict String Val) : Store :=
  { st with pools := fun m => if m = n then some d else st.pools m }

/-- The effect of a body on named contents. -/
def srun : Prog → SM Store Val
  | .ret v, st => (.ok v, st)
  | .raise e, st => (.error e, st)
  | .cellGet name path k, st =>
    match st.cells name with
    | none => (.error (.py "KeyError"), st)
    | some c =>
      match get 2004 2005 c path with
      | .ok v => srun (k v) st
      | .error e => (.error e, st)
  | .cellTo name path repl k, st =>
    match st.cells name with
    | none => (.error (.py "KeyError"), st)
    | some c =>
      match updateM 2006 2007 (fun v => srun (repl v)) path c st with
      | (.ok v, st) => srun (k v) (st.setCell name v)
      | (.error e, st) => (.error e, st)
  | .poolGet name path k, st =>
    match st.pools name with
    | none => (.error (.py "KeyError"), st)
    | some d =>
      match get 2008 2009 (.dict d) path with
      | .ok v => srun (k v) st
      | .error e => (.error e, st)
  | .poolTo name head tail repl init k, st =>
    match st.pools name with
    | none => (.error (.py "KeyError"), st)
    | some d =>
      -- a missing item starts as `init`
      let old := (PyDict.get? d head).getD init
      let st := if PyDict.has d head then st else st.setPool name (PyDict.set d head init)
      match updateM 2010 2011 (fun v => srun (repl v)) tail old st with
      | (.ok v, st) =>
        srun (k v) (st.setPool name (PyDict.set ((st.pools name).getD []) head v))
      | (.error e, st) => (.error e, st)
  | .poolDel name item k, st =>
    match st.pools name with
    | none => (.error (.py "KeyError"), st)
    | some d => srun k (st.setPool name (PyDict.del d item))
  | .tryCatch body catches k, st =>
    match srun body st with
    | (.ok v, st) => srun (k v) st
    | (.error e, st) => if catches e then srun (k .null) st else (.error e, st)
  | .emit v k, st => srun k { st with emitted := st.emitted ++ [v] }

/-- The observable state of an instance. -/
structure Abs where
  store : Store
  started : Nat
  finished : Nat
  tally : Val

/-- What remains after a failure: `before` for the names marked rollback, `failed` for the others
(and for what has been emitted). -/
def rolledBack (rbc rbp : String → Bool) (before failed : Store) : Store where
  cells n := if rbc n then before.cells n else failed.cells n
  pools n := if rbp n then before.pools n else failed.pools n
  emitted := failed.emitted

/-- One call, in terms of what a user observes. -/
def scall (rbc rbp : String → Bool) (e : Def) : Call → Abs → Res Val × Abs
  | .begin, a =>
    match srun e.begin a.store with
    | (.ok _, st) => (.ok .null, { a with store := st })
    | (.error err, st) => (.error err, { a with store := st })
  | .end, a =>
    match srun (e.«end» a.started a.finished a.tally) a.store with
    | (.ok _, st) => (.ok .null, { a with store := st })
    | (.error err, st) => (.error err, { a with store := st })
  | .merge x y, a =>
    match srun (e.merge x y) a.store with
    | (.ok v, st) => (.ok v, { a with store := st, tally := v })
    | (.error err, st) => (.error err, { a with store := rolledBack rbc rbp a.store st })
  | .action input, a =>
    match e.check input with
    | .error err => (.error err, a)
    | .ok x =>
      match srun (e.action ⟨x, a.started + 1, a.finished, a.tally⟩) a.store with
      | (.ok v, st) =>
        (.ok (if e.method = .emit then .null else v),
          { store := st, started := a.started + 1, finished := a.finished + 1,
            tally := if e.method = .fold then v else a.tally })
      | (.error err, st) =>
        (.error err, { a with started := a.started + 1, store := rolledBack rbc rbp a.store st })

/-- A history of calls. -/
def shistory (rbc rbp : String → Bool) (e : Def) : List Call → Abs → List (Res Val) × Abs
  | [], a => ([], a)
  | c :: cs, a =>
    match scall rbc rbp e c a with
    | (r, a) => match shistory rbc rbp e cs a with
      | (rs, a) => (r :: rs, a)

end Verif.Engine
