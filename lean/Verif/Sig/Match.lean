import Verif.Sig.Broadest
import Verif.Sig.Version
import Verif.Lib.Combin
/-!
# Matching argument types with signatures: model (C38)

Models `titus/signature.py` 287-383 (LabelData, Sigs, Sig.accepts), 385-564 (Sig.check), 566-687
(assign, assignRet), the patterns of `titus/P.py` and `fromType` (365-406).

* Python keeps label data in a dictionary from labels to mutable objects.  The union case copies the
  dictionary but not the objects, so a failed attempt leaves its traces in them.  Here a dictionary maps
  labels to references into a list of objects (`Heap`).
* The full name in a pattern is a string in Python (`"ns.name"`, or `"name"`); here it is a `Name`.
  Equality is the same as long as names contain no dot.
* Record patterns carry names; the result type of such a pattern is taken to be the record of that name
  (`P.toType` 353-359 builds a new one from the fields of the pattern).  Patterns for named types
  without name do not occur in results (`assignRet`): Python would generate a fresh name.
-/

namespace Verif.Sig

open Avro

/-- Type patterns (P.py 42-310). -/
inductive Pat where
  | null | boolean | int | long | float | double | bytes | string
  | array (items : Pat)
  | map (values : Pat)
  | union (types : List Pat)
  | fixed (size : Nat) (name : Option Name)
  | enum (symbols : List String) (name : Option Name)
  | record (fields : List (String × Pat)) (name : Option Name)
  | fcn (params : List Pat) (ret : Pat)
  | wild (label : String) (oneOf : Option (List AType))
  | wildRecord (label : String) (fields : List (String × Pat))
  | wildEnum (label : String)
  | wildFixed (label : String)
  | enumFields (label : String) (wildRecord : String)

/-- A LabelData object (signature.py 287-292). -/
structure LD where
  members : List CType
  expected : Option (List String)

/-- The dictionary `labelData` and the objects. -/
abbrev LDict := PyDict String Nat
@[inherit_doc LDict] abbrev Heap := List LD

/-- The outcome of a check: the answer and the new state. -/
abbrev Out := Res (Bool × LDict × Heap)

/-- What a pattern does with an argument: the flags are `strict` and `reversed`. -/
abbrev Checker := CType → Bool → Bool → LDict → Heap → Out

/-- `if not label in labelData: labelData[label] = LabelData()` and `labelData[label].add(arg)`
(526-528 and the like). -/
def addMember (l : String) (a : CType) (d : LDict) (h : Heap) : LDict × Heap :=
  match d.get? l with
  | some r => (d, h.modify r (fun ld => { ld with members := ld.members ++ [a] }))
  | none => (d.set l h.length, h ++ [⟨[a], none⟩])

/-- The numeric cases (411-441): exact match, promotion of the argument, or promotion of the pattern in
reversed position. -/
def checkInt (a : CType) (strict rev : Bool) : Bool :=
  match a with
  | .avro .int => true
  | .avro .long => !strict && rev
  | .avro .float => !strict && rev
  | .avro .double => !strict && rev
  | _ => false
@[inherit_doc checkInt] def checkLong (a : CType) (strict rev : Bool) : Bool :=
  match a with
  | .avro .int => !strict && !rev
  | .avro .long => true
  | .avro .float => !strict && rev
  | .avro .double => !strict && rev
  | _ => false
@[inherit_doc checkInt] def checkFloat (a : CType) (strict rev : Bool) : Bool :=
  match a with
  | .avro .int => !strict && !rev
  | .avro .long => !strict && !rev
  | .avro .float => true
  | .avro .double => !strict && rev
  | _ => false
@[inherit_doc checkInt] def checkDouble (a : CType) (strict rev : Bool) : Bool :=
  match a with
  | .avro .int => !strict && !rev
  | .avro .long => !strict && !rev
  | .avro .float => !strict && !rev
  | .avro .double => true
  | _ => false

/-- A check without effect. -/
def pureC (f : CType → Bool → Bool → Bool) : Checker := fun a s r d h => .ok (f a s r, d, h)

/-- `all(...)` over checks. -/
def allC : List (LDict → Heap → Out) → LDict → Heap → Out
  | [], d, h => .ok (true, d, h)
  | c :: cs, d, h =>
    match c d h with
    | .error e => .error e
    | .ok (false, d, h) => .ok (false, d, h)
    | .ok (true, d, h) => allC cs d h

/-- `any(...)` over checks. -/
def anyC : List (LDict → Heap → Out) → LDict → Heap → Out
  | [], d, h => .ok (false, d, h)
  | c :: cs, d, h =>
    match c d h with
    | .error e => .error e
    | .ok (true, d, h) => .ok (true, d, h)
    | .ok (false, d, h) => anyC cs d h

/-- The loop over the available patterns for one member (470-475); on success the pattern is removed. -/
def pick (a : AType) (rev : Bool) : List Checker → LDict → Heap → Res (Option (List Checker) × LDict × Heap)
  | [], d, h => .ok (none, d, h)
  | c :: cs, d, h =>
    match c (.avro a) true rev d h with
    | .error e => .error e
    | .ok (true, d, h) => .ok (some cs, d, h)
    | .ok (false, d, h) =>
      match pick a rev cs d h with
      | .error e => .error e
      | .ok (none, d, h) => .ok (none, d, h)
      | .ok (some cs', d, h) => .ok (some (c :: cs'), d, h)

/-- The loop over the members in one order (467-479). -/
def tryPerm (rev : Bool) : List Checker → List AType → LDict → Heap → Out
  | _, [], d, h => .ok (true, d, h)
  | cs, a :: as, d, h =>
    match pick a rev cs d h with
    | .error e => .error e
    | .ok (none, d, h) => .ok (false, d, h)
    | .ok (some cs', d, h) => tryPerm rev cs' as d h

/-- The loop over the orders (457-485): after a failure the dictionary is the original one again. -/
def tryPerms (rev : Bool) (cs : List Checker) (d0 : LDict) : List (List AType) → LDict → Heap → Out
  | [], d2, h => .ok (false, d2, h)
  | p :: ps, d2, h =>
    match tryPerm rev cs p d2 h with
    | .error e => .error e
    | .ok (true, d2, h) => .ok (true, d2, h)
    | .ok (false, _, h) => tryPerms rev cs d0 ps d0 h

/-- A union pattern against a union (450-488). -/
def unionUnion (cs : List Checker) (ts : List AType) (rev : Bool) (d : LDict) (h : Heap) : Out :=
  match tryPerms rev cs d (Lib.permutations ts) d h with
  | .error e => .error e
  | .ok (found, d2, h) => .ok (found, d.update d2, h)

/-- The checks of the fields of a record, strictly (518, 543). -/
def fieldChecks (cs : List (String × Checker)) (afs : List Field) (rev : Bool) : List (LDict → Heap → Out) :=
  cs.map (fun c => match afs.find? (fun f => f.name = c.1) with
    | some f => c.2 (.avro f.type) true rev
    | none => fun _ _ => .error (.py "KeyError"))

/-- `labelData[pat.wildRecord].expectedFields = arg.symbols` (561) -/
def expect (l : String) (syms : List String) (d : LDict) (h : Heap) : Out :=
  match d.get? l with
  | some r => .ok (true, d, h.modify r (fun ld => { ld with expected := some syms }))
  | none => .error (.py "KeyError")

/-- `pat.oneOf is None or arg in pat.oneOf` (525) -/
def allowed (oneOf : Option (List AType)) (a : CType) : Bool :=
  match oneOf with
  | none => true
  | some ts => ts.any (fun t => decide (a = .avro t))

mutual
/-- `Sig.check` (385-564). -/
def check (env : Env) : Pat → Checker
  | .null => pureC (fun a _ _ => match a with | .avro .null => true | _ => false)
  | .boolean => pureC (fun a _ _ => match a with | .avro .boolean => true | _ => false)
  | .int => pureC checkInt
  | .long => pureC checkLong
  | .float => pureC checkFloat
  | .double => pureC checkDouble
  | .bytes => pureC (fun a _ _ => match a with | .avro .bytes => true | _ => false)
  | .string => pureC (fun a _ _ => match a with | .avro .string => true | _ => false)
  | .array p => fun a s r d h => match a with
    | .avro (.array i) => check env p (.avro i) s r d h
    | _ => .ok (false, d, h)
  | .map p => fun a s r d h => match a with
    | .avro (.map i) => check env p (.avro i) s r d h
    | _ => .ok (false, d, h)
  | .union ps => fun a s r d h => match a with
    | .avro (.union ts) => unionUnion (checkL env ps) ts r d h
    | .avro t => anyC ((checkL env ps).map (fun c => c (.avro t) s r)) d h
    | _ => .ok (false, d, h)
  | .fixed size name => pureC (fun a _ _ => match a with
    | .avro (.fixed n s) => match name with | some m => decide (m = n) | none => decide (size = s)
    | _ => false)
  | .enum symbols name => pureC (fun a _ _ => match a with
    | .avro (.enum n s) => match name with | some m => decide (m = n) | none => decide (symbols = s)
    | _ => false)
  | .record fields name => fun a _ r d h => match a with
    | .avro (.record n) => match name with
      | some m => .ok (decide (m = n), d, h)
      | none =>
        let afs := (env.fields? n).getD []
        if (fields.all fun kp => decide (kp.1 ∈ afs.map Field.name)) && (afs.all fun f => decide (f.name ∈ fields.map Prod.fst)) then
          allC (fieldChecks (checkF env fields) afs r) d h
        else .ok (false, d, h)
    | _ => .ok (false, d, h)
  | .fcn ps ret => fun a s _ d h => match a with
    | .fcn qs aret =>
      match allC (((checkL env ps).zip qs).map (fun cq => cq.1 cq.2 s true)) d h with
      | .error e => .error e
      | .ok (false, d, h) => .ok (false, d, h)
      | .ok (true, d, h) => check env ret aret s false d h
    | _ => .ok (false, d, h)
  | .wild l oneOf => fun a _ _ d h => match a with
    | .exc => .ok (false, d, h)
    | a => if allowed oneOf a then .ok (true, addMember l a d h)
      else .ok (false, d, h)
  | .wildRecord l fields => fun a _ r d h => match a with
    | .avro (.record n) =>
      let st := addMember l a d h
      let afs := (env.fields? n).getD []
      if fields.all fun kp => decide (kp.1 ∈ afs.map Field.name) then
        allC (fieldChecks (checkF env fields) afs r) st.1 st.2
      else .ok (false, st)
    | _ => .ok (false, d, h)
  | .wildEnum l => fun a _ _ d h => match a with
    | .exc => .ok (false, d, h)
    | a => .ok (true, addMember l a d h)
  | .wildFixed l => fun a _ _ d h => match a with
    | .exc => .ok (false, d, h)
    | a => .ok (true, addMember l a d h)
  | .enumFields l wr => fun a _ _ d h => match a with
    | .avro (.enum n syms) =>
      let st := addMember l (.avro (.enum n syms)) d h
      expect wr syms st.1 st.2
    | _ => .ok (false, d, h)
@[inherit_doc check] def checkL (env : Env) : List Pat → List Checker
  | [] => []
  | p :: ps => check env p :: checkL env ps
@[inherit_doc check] def checkF (env : Env) : List (String × Pat) → List (String × Checker)
  | [] => []
  | (k, p) :: ps => (k, check env p) :: checkF env ps
end

/-- `determineAssignment` (294-302).  A result `none` is the ValueError object of `broadestType`. -/
def determine (env : Env) (ld : LD) : Res (Option CType) :=
  match broadest env ld.members with
  | .error e => .error e
  | .ok out => match ld.expected with
    | none => .ok out
    | some names => match out with
      | some (.avro (.record n)) =>
        if names = ((env.fields? n).getD []).map Field.name then .ok out else .error incompatible
      | _ => .error incompatible

/-- `dict((l, ld.determineAssignment()) for l, ld in labelData.items())` (375) -/
def determineAll (env : Env) (h : Heap) : LDict → Res (PyDict String (Option CType))
  | [] => .ok []
  | (l, r) :: d =>
    match h[r]? with
    | none => .error (.py "unreachable")
    | some ld => match determine env ld with
      | .error e => .error e
      | .ok t => match determineAll env h d with
        | .error e => .error e
        | .ok σ => .ok ((l, t) :: σ)

/-- `assignments[label]` -/
def label (σ : PyDict String (Option CType)) (l : String) : Res CType :=
  match σ.get? l with
  | some (some t) => .ok t
  | some none => .error (.py "ValueError object")
  | none => .error (.py "KeyError")

/-- `AvroArray(P.mustBeAvro(t))` and the like. -/
def wrapAvro (f : AType → AType) : Res CType → Res CType
  | .ok (.avro t) => .ok (.avro (f t))
  | .ok _ => .error (.py "TypeError")
  | .error e => .error e

/-- `Sig.assign` (566-629) -/
def assign (σ : PyDict String (Option CType)) : Pat → CType → Res CType
  | .null, .avro .null => .ok (.avro .null)
  | .boolean, .avro .boolean => .ok (.avro .boolean)
  | .int, .avro .int => .ok (.avro .int)
  | .long, .avro .int | .long, .avro .long => .ok (.avro .long)
  | .float, .avro .int | .float, .avro .long | .float, .avro .float => .ok (.avro .float)
  | .double, .avro .int | .double, .avro .long | .double, .avro .float | .double, .avro .double => .ok (.avro .double)
  | .bytes, .avro .bytes => .ok (.avro .bytes)
  | .string, .avro .string => .ok (.avro .string)
  | .array p, .avro (.array i) => wrapAvro .array (assign σ p (.avro i))
  | .map p, .avro (.map i) => wrapAvro .map (assign σ p (.avro i))
  | .union _, .avro t => .ok (.avro t)
  | .fixed _ _, .avro (.fixed n s) => .ok (.avro (.fixed n s))
  | .enum _ _, .avro (.enum n s) => .ok (.avro (.enum n s))
  | .record _ _, .avro (.record n) => .ok (.avro (.record n))
  | .fcn _ _, .fcn qs s => .ok (.fcn qs s)
  | .wild l _, _ => label σ l
  | .wildRecord l _, _ => label σ l
  | .wildEnum l, _ => label σ l
  | .wildFixed l, _ => label σ l
  | .enumFields l _, _ => label σ l
  | _, _ => .error (.py "Exception")

mutual
/-- `Sig.assignRet` (631-687) -/
def assignRet (σ : PyDict String (Option CType)) : Pat → Res CType
  | .null => .ok (.avro .null)
  | .boolean => .ok (.avro .boolean)
  | .int => .ok (.avro .int)
  | .long => .ok (.avro .long)
  | .float => .ok (.avro .float)
  | .double => .ok (.avro .double)
  | .bytes => .ok (.avro .bytes)
  | .string => .ok (.avro .string)
  | .array p => wrapAvro .array (assignRet σ p)
  | .map p => wrapAvro .map (assignRet σ p)
  | .union ps => match assignRetL σ ps with
    | .error e => .error e
    | .ok ts => match mkUnion ts with
      | .error e => .error e
      | .ok t => .ok (.avro t)
  | .fixed size (some n) => .ok (.avro (.fixed n size))
  | .enum syms (some n) => .ok (.avro (.enum n syms))
  | .record _ (some n) => .ok (.avro (.record n))
  | .fixed _ none => .error (.py "not modelled")
  | .enum _ none => .error (.py "not modelled")
  | .record _ none => .error (.py "not modelled")
  | .fcn _ _ => .error (.py "TypeError")
  | .wild l _ => label σ l
  | .wildRecord l _ => label σ l
  | .wildEnum l => label σ l
  | .wildFixed l => label σ l
  | .enumFields l _ => label σ l
@[inherit_doc assignRet] def assignRetL (σ : PyDict String (Option CType)) : List Pat → Res (List AType)
  | [] => .ok []
  | p :: ps => match assignRet σ p with
    | .error e => .error e
    | .ok (.avro t) => match assignRetL σ ps with
      | .error e => .error e
      | .ok ts => .ok (t :: ts)
    | .ok _ => .error (.py "AttributeError")
end

/-- `[self.assign(p, a, assignments) for p, a in zip(self.params, args)]` (376) -/
def assignAll (σ : PyDict String (Option CType)) : List Pat → List CType → Res (List CType)
  | p :: ps, a :: as =>
    match assign σ p a with
    | .error e => .error e
    | .ok t => match assignAll σ ps as with
      | .error e => .error e
      | .ok ts => .ok (t :: ts)
  | _, _ => .ok []

/-- A Sig (342-357). -/
structure Sig1 where
  params : List (String × Pat)
  ret : Pat
  life : Lifespan := ⟨none, none, none⟩

/-- `try: ... except IncompatibleTypes: return None` (374-381) -/
def orNone {α : Type} : Res α → Res (Option α)
  | .ok a => .ok (some a)
  | .error e => if e = incompatible then .ok none else .error e

/-- Lines 375-378. -/
def finish (env : Env) (sig : Sig1) (args : List CType) (d : LDict) (h : Heap) : Res (List CType × CType) :=
  match determineAll env h d with
  | .error e => .error e
  | .ok σ => match assignAll σ (sig.params.map Prod.snd) args with
    | .error e => .error e
    | .ok ps => match assignRet σ sig.ret with
      | .error e => .error e
      | .ok r => .ok (ps, r)

/-- `Sig.accepts` (359-383): parameter types and result type, or None. -/
def Sig1.accepts (env : Env) (sig : Sig1) (args : List CType) (version : Ver) : Res (Option (List CType × CType)) :=
  if sig.life.current version || sig.life.deprecated version then
    if sig.params.length = args.length then
      match allC (((checkL env (sig.params.map Prod.snd)).zip args).map (fun ca => ca.1 ca.2 false false)) [] [] with
      | .error e => .error e
      | .ok (false, _, _) => .ok none
      | .ok (true, d, h) => orNone (finish env sig args d h)
    else .ok none
  else .ok none

/-- `Sigs.accepts` (321-335): the first case that accepts. -/
def sigsAccept (env : Env) : List Sig1 → List CType → Ver → Res (Option (Sig1 × List CType × CType))
  | [], _, _ => .ok none
  | s :: ss, args, v =>
    match s.accepts env args v with
    | .error e => .error e
    | .ok (some r) => .ok (some (s, r))
    | .ok none => sigsAccept env ss args v

mutual
/-- `P.fromType` (365-406) for Avro types.  The fields of a record pattern are left out; a pattern with a
name does not look at them (`check`, 505-509). -/
def fromType : AType → Pat
  | .null => .null | .boolean => .boolean | .int => .int | .long => .long | .float => .float
  | .double => .double | .bytes => .bytes | .string => .string
  | .array i => .array (fromType i)
  | .map i => .map (fromType i)
  | .union ts => .union (fromTypeL ts)
  | .fixed n s => .fixed s (some n)
  | .enum n s => .enum s (some n)
  | .record n => .record [] (some n)
@[inherit_doc fromType] def fromTypeL : List AType → List Pat
  | [] => []
  | t :: ts => fromType t :: fromTypeL ts
end

/-- `UserFcn.fromFcnDef` (pfaast.py 332-343): the signature of a user-defined function. -/
def userSig (params : List (String × AType)) (ret : AType) : Sig1 :=
  ⟨params.map (fun p => (p.1, fromType p.2)), fromType ret, ⟨none, none, none⟩⟩

end Verif.Sig
