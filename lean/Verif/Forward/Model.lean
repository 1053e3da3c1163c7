import Verif.Py.Basic
/-!
# Type declarations in any order: model (C11)

Models ForwardDeclarationParser.parse and AvroTypeBuilder (`titus/datatype.py` 701-749, 816-869).

`avro.schema.SchemaFromJSONData` belongs to the library `avro`, which is not part of the repository.
Assumed of it: it goes through a declaration from left to right with a dictionary of names, raises SchemaParseException
at a name that is not in the dictionary and at a definition of a name that is, adds the name of a record before
its fields, and raises SchemaParseException for some declarations whatever the names are (`wf`).  A failed call may leave names behind
in the dictionary; the code restores it (730-736).
-/

namespace Verif.Forward

/-- A declaration as JSON: a primitive type, a name, an array or map, a union, or the definition of a record, enum or
fixed.  `attrs` stands for the kind of the definition and everything but the types of its fields. -/
inductive Decl where
  | prim (name : String)
  | ref (name : String)
  | coll (kind : String) (item : Decl)
  | union (members : List Decl)
  | named (ns : Option String) (name attrs : String) (fields : List Decl)
deriving Inhabited

mutual
def Decl.beq : Decl → Decl → Bool
  | .prim a, .prim b => a == b
  | .ref a, .ref b => a == b
  | .coll a x, .coll b y => a == b && Decl.beq x y
  | .union xs, .union ys => Decl.beqL xs ys
  | .named a b c xs, .named a' b' c' ys => a == a' && b == b' && c == c' && Decl.beqL xs ys
  | _, _ => false
def Decl.beqL : List Decl → List Decl → Bool
  | [], [] => true
  | x :: xs, y :: ys => Decl.beq x y && Decl.beqL xs ys
  | _, _ => false
end

mutual
theorem Decl.beq_iff : ∀ (x y : Decl), Decl.beq x y = true ↔ x = y
  | .prim a, y => by cases y <;> simp [Decl.beq]
  | .ref a, y => by cases y <;> simp [Decl.beq]
  | .coll a x, y => by cases y with
    | coll b y => simp [Decl.beq, Decl.beq_iff x y]
    | _ => simp [Decl.beq]
  | .union xs, y => by cases y with
    | union ys => simp [Decl.beq, Decl.beqL_iff xs ys]
    | _ => simp [Decl.beq]
  | .named a b c xs, y => by cases y with
    | named a' b' c' ys => simp [Decl.beq, Decl.beqL_iff xs ys, and_assoc]
    | _ => simp [Decl.beq]
theorem Decl.beqL_iff : ∀ (xs ys : List Decl), Decl.beqL xs ys = true ↔ xs = ys
  | [], ys => by cases ys <;> simp [Decl.beqL]
  | x :: xs, ys => by cases ys with
    | nil => simp [Decl.beqL]
    | cons y ys => simp [Decl.beqL, Decl.beq_iff x y, Decl.beqL_iff xs ys]
end

instance : DecidableEq Decl := fun x y => decidable_of_iff _ (Decl.beq_iff x y)

/-- The full name (Avro specification): a name with dots is full already, others get the namespace. -/
def full (ns name : String) : String := if '.' ∈ name.toList ∨ ns = "" then name else ns ++ "." ++ name

/-- The namespace of a full name: what stands before the last dot. -/
def nsOf (name : String) : String := String.ofList ((name.toList.reverse.dropWhile (· ≠ '.')).drop 1).reverse

/-- Names that are known, with their definitions and the namespaces around these. -/
abbrev Names := PyDict String (String × Decl)

section
variable (wf : String → Decl → Bool)

/-- Conditions on a declaration that do not depend on the names known; a name alone has none. -/
def okHere (ns : String) : Decl → Bool
  | .ref _ => true
  | d => wf ns d

mutual
/-- `avro.schema.SchemaFromJSONData(obj, names)`; `none` is SchemaParseException. -/
def parse (ns : String) (d : Decl) (T : Names) : Option Names :=
  if okHere wf ns d then match d with
    | .prim _ => some T
    | .ref n => if T.has (full ns n) then some T else none
    | .coll _ x => parse ns x T
    | .union xs => parseL ns xs T
    | .named nm name _ fields =>
      if T.has (full (nm.getD ns) name) then none
      else parseL (nsOf (full (nm.getD ns) name)) fields (T.set (full (nm.getD ns) name) (ns, d))
  else none
/-- The same for the members of a union or the fields of a record, in order. -/
def parseL (ns : String) : List Decl → Names → Option Names
  | [], T => some T
  | d :: ds, T => match parse ns d T with
    | some T => parseL ns ds T
    | none => none
end

variable (load : String → Decl)

/-- `schemae` (its keys) and `self.names`. -/
structure Prog where
  done : List String
  names : Names

/-- The body of the `for` (721-739). -/
def attempt (σ : Prog) (s : String) : Prog :=
  if s ∈ σ.done then σ
  else match load s with
    | .ref n =>
      if σ.names.has n then { σ with done := σ.done ++ [s] }
      else match parse wf "" (.ref n) σ.names with
        | some T => ⟨σ.done ++ [s], T⟩
        | none => σ
    | d => match parse wf "" d σ.names with
      | some T => ⟨σ.done ++ [s], T⟩
      | none => σ

/-- `for jsonString in jsonStrings` -/
def pass (ss : List String) (σ : Prog) : Prog := ss.foldl (attempt wf load) σ

/-- Lines 741-742. -/
def unresolved (ss : List String) (σ : Prog) : List String := ss.filter (fun s => decide (s ∉ σ.done))

/-- The end of the loop: types resolved, or the declarations named in the exception, or still going. -/
inductive Outcome where
  | ok (names : Names)
  | failed (report : List String)
  | going

/-- `while unresolvedSize != 0` (720-748); `size` and `last` are `unresolvedSize` and `lastUnresolvedSize`. -/
def loop (ss : List String) : Nat → Int → Int → Prog → Outcome
  | 0, _, _, _ => .going
  | n + 1, size, last, σ =>
    if size = 0 then .ok σ.names
    else
      let σ' := pass wf load ss σ
      let un := unresolved ss σ'
      if (un.length : Int) = last then .failed un
      else loop ss n un.length un.length σ'

/-- `parse(jsonStrings)` of a parser that knows the names `T` already. -/
def resolve (ss : List String) (T : Names) : Outcome := loop wf load ss (ss.length + 3) (-1) (-1) ⟨[], T⟩

end

/-! ## Removing duplicates -/

/-- The name under which a definition is remembered (837-840). -/
def memoKey (ns : Option String) (name : String) : String := match ns with | some ns => ns ++ "." ++ name | none => name

mutual
/-- `removeDuplicateNames` (835-856): the first definition of a name stays, equal later ones become references. -/
def dedup (d : Decl) (memo : PyDict String Decl) : Option (Decl × PyDict String Decl) :=
  match d with
  | .prim a => some (.prim a, memo)
  | .ref n => some (.ref n, memo)
  | .coll k x => match dedup x memo with
    | some (x, memo) => some (.coll k x, memo)
    | none => none
  | .union xs => match dedupL xs memo with
    | some (xs, memo) => some (.union xs, memo)
    | none => none
  | .named ns name attrs fields =>
    match memo.get? (memoKey ns name) with
    | some d' => if d' = .named ns name attrs fields then some (.ref (memoKey ns name), memo) else none
    | none => match dedupL fields (memo.set (memoKey ns name) (.named ns name attrs fields)) with
      | some (fields, memo) => some (.named ns name attrs fields, memo)
      | none => none
/-- The same for lists (852-853). -/
def dedupL : List Decl → PyDict String Decl → Option (List Decl × PyDict String Decl)
  | [], memo => some ([], memo)
  | d :: ds, memo => match dedup d memo with
    | some (d, memo) => match dedupL ds memo with
      | some (ds, memo) => some (d :: ds, memo)
      | none => none
    | none => none
end

end Verif.Forward
