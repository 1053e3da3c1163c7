import Verif.Py.Basic
import Mathlib.Algebra.BigOperators.Group.List.Basic
/-! # The linear algebra library (`titus/lib/la.py`)

Each Python function is written once per signature; its `isinstance` tests select the branch of the signature, except
that an empty array or map also passes the test for a matrix, where both branches give the same result.  Numbers are
of any type with the operations used.  Python sets of keys have no specified order; here they are lists without
repetition, and the theorems speak about entries only.  `numpy.dot` is the sum of products (exact arithmetic).
Not modelled: `la.inverse`, `la.det`, `la.eigenBasis`, which are computed by `numpy.linalg`. -/

namespace Verif.La

variable {α : Type}

/-- An array of arrays. -/
abbrev Rows (α : Type) := List (List α)
/-- A map of maps. -/
abbrev Maps (α : Type) := PyDict String (PyDict String α)

/-- The union of two Python sets. -/
def union (a b : List String) : List String := a ++ b.filter (· ∉ a)

/-- `rowKeys` (la.py 42-43). -/
def rowKeys {β : Type} (x : PyDict String β) : List String := x.keys

/-- `colKeys` (la.py 45-49). -/
def colKeys (x : Maps α) : List String := x.foldl (fun a r => union a r.2.keys) []

/-- `x.get(i, {}).get(j, 0.0)`. -/
def at0 [Zero α] (x : Maps α) (i j : String) : α := (((x.get? i).getD []).get? j).getD 0

/-- `x.get(i, 0.0)`. -/
def get0 [Zero α] (x : PyDict String α) (i : String) : α := (x.get? i).getD 0

/-- `dict((i, f(i)) for i in keys)`. -/
def build {β : Type} (keys : List String) (f : String → β) : PyDict String β := keys.map fun i => (i, f i)

/-- `la.map` on arrays (88-89), for a user function without effects. -/
def mapRows {β : Type} (f : α → β) (x : Rows α) : Rows β := x.map (List.map f)

/-- `la.map` on maps (91-92). -/
def mapMaps {β : Type} (f : α → β) (x : Maps α) : Maps β := x.map fun r => (r.1, r.2.map fun c => (c.1, f c.2))

/-- `la.scale` (96-111), in the order of its signatures. -/
def scaleVec [Mul α] (x : List α) (a : α) : List α := x.map (· * a)
def scaleRows [Mul α] (x : Rows α) (a : α) : Rows α := x.map fun r => r.map (· * a)
def scaleMap [Mul α] (x : PyDict String α) (a : α) : PyDict String α := x.map fun c => (c.1, c.2 * a)
def scaleMaps [Mul α] (x : Maps α) (a : α) : Maps α := x.map fun r => (r.1, r.2.map fun c => (c.1, c.2 * a))

/-- `any(len(xi) != len(yi) for xi, yi in zip(x, y))` -/
def rowsDiffer (x y : Rows α) : Bool := (x.zip y).any fun p => p.1.length ≠ p.2.length

/-- `la.zipmap` on arrays (121-125), also the body of `la.add` and `la.sub` on arrays of arrays (143-147, 174-178). -/
def zipRows (base : Int) (f : α → α → α) (x y : Rows α) : Res (Rows α) :=
  if x.length ≠ y.length || rowsDiffer x y then .error (.rt base)
  else .ok (List.zipWith (List.zipWith f) x y)

/-- `la.zipmap` on maps (127-131), also the body of `la.add` and `la.sub` on maps of maps (154-158, 185-189). -/
def zipMaps [Zero α] (f : α → α → α) (x y : Maps α) : Maps α :=
  build (union (rowKeys x) (rowKeys y)) fun i =>
    build (union (colKeys x) (colKeys y)) fun j => f (at0 x i j) (at0 y i j)

/-- `la.add` and `la.sub` on arrays (149-152, 180-183). -/
def zipVec (base : Int) (f : α → α → α) (x y : List α) : Res (List α) :=
  if x.length ≠ y.length then .error (.rt base) else .ok (List.zipWith f x y)

/-- `la.add` and `la.sub` on maps (160-162, 191-193). -/
def zipMap [Zero α] (f : α → α → α) (x y : PyDict String α) : PyDict String α :=
  build (union (rowKeys x) (rowKeys y)) fun i => f (get0 x i) (get0 y i)

/-- `la.add` (135-162). -/
def addVec [Add α] : List α → List α → Res (List α) := zipVec 24030 (· + ·)
def addRows [Add α] : Rows α → Rows α → Res (Rows α) := zipRows 24030 (· + ·)
def addMap [Add α] [Zero α] : PyDict String α → PyDict String α → PyDict String α := zipMap (· + ·)
def addMaps [Add α] [Zero α] : Maps α → Maps α → Maps α := zipMaps (· + ·)
/-- `la.sub` (166-193). -/
def subVec [Sub α] : List α → List α → Res (List α) := zipVec 24040 (· - ·)
def subRows [Sub α] : Rows α → Rows α → Res (Rows α) := zipRows 24040 (· - ·)
def subMap [Sub α] [Zero α] : PyDict String α → PyDict String α → PyDict String α := zipMap (· - ·)
def subMaps [Sub α] [Zero α] : Maps α → Maps α → Maps α := zipMaps (· - ·)

/-- `raggedArray` (75-77), for at least one row. -/
def ragged (x : Rows α) : Bool := x.any fun r => r.length ≠ (x.headD []).length

/-- `numpy.matrix(x)` (51-52): refuses rows of different lengths.  The shape of `[]` is one row without columns. -/
def npMatrix (x : Rows α) : Res (Nat × Nat × Rows α) :=
  if x.isEmpty then .ok (1, 0, [[]])
  else if ragged x then .error (.py "ValueError")
  else .ok (x.length, (x.headD []).length, x)

/-- Column `j`. -/
def col (x : Rows α) (j : Nat) : List α := x.filterMap (·[j]?)

/-- The sum of products of two rows. -/
def inner [Add α] [Mul α] [Zero α] (x y : List α) : α := (List.zipWith (· * ·) x y).sum

/-- `numpy.dot` of matrices whose shapes fit. -/
def npDot [Add α] [Mul α] [Zero α] (x y : Rows α) (cols : Nat) : Rows α :=
  x.map fun r => (List.range cols).map fun j => inner r (col y j)

/-- `la.dot` of two arrays of arrays (206-218); `bad` is `math.isnan(z) or math.isinf(z)`. -/
def dotRows [Add α] [Mul α] [Zero α] (bad : α → Bool) (x y : Rows α) : Res (Rows α) :=
  let b := x.any (·.any bad) || y.any (·.any bad)
  do
  let (xr, xc, xm) ← npMatrix x
  let (yr, yc, ym) ← npMatrix y
  if xr = 0 ∨ xc = 0 ∨ yr = 0 ∨ yc = 0 then .error (.rt 24051)
  else if b then .error (.rt 24052)
  else if xc ≠ yr then .error (.rt 24050)
  else .ok (npDot xm ym yc)

/-- `la.dot` of an array of arrays and an array (220-232): the vector is a matrix with one column. -/
def dotVec [Add α] [Mul α] [Zero α] (bad : α → Bool) (x : Rows α) (y : List α) : Res (List α) :=
  let b := x.any (·.any bad) || y.any bad
  do
  let (xr, xc, xm) ← npMatrix x
  if xr = 0 ∨ xc = 0 ∨ y.length = 0 then .error (.rt 24051)
  else if b then .error (.rt 24052)
  else if xc ≠ y.length then .error (.rt 24050)
  else .ok (xm.map fun r => inner r y)

/-- `la.dot` of two maps of maps (234-247). -/
def dotMaps [Add α] [Mul α] [Zero α] (bad : α → Bool) (x y : Maps α) : Res (Maps α) :=
  let b := x.any (·.2.any (bad ·.2)) || y.any (·.2.any (bad ·.2))
  let rows := rowKeys x
  let inter := union (colKeys x) (rowKeys y)
  let cols := colKeys y
  if rows.length = 0 ∨ inter.length = 0 ∨ cols.length = 0 then .error (.rt 24051)
  else if b then .error (.rt 24052)
  else .ok (build rows fun i => build cols fun j => (inter.map fun k => at0 x i k * at0 y k j).sum)

/-- `la.dot` of a map of maps and a map (249-260). -/
def dotMap [Add α] [Mul α] [Zero α] (bad : α → Bool) (x : Maps α) (y : PyDict String α) : Res (PyDict String α) :=
  let b := x.any (·.2.any (bad ·.2)) || y.any (bad ·.2)
  let rows := rowKeys x
  let cols := union (colKeys x) (rowKeys y)
  if rows.length = 0 ∨ cols.length = 0 then .error (.rt 24051)
  else if b then .error (.rt 24052)
  else .ok (build rows fun i => (cols.map fun k => at0 x i k * get0 y k).sum)

/-- `la.transpose` on arrays (270-279). -/
def transposeRows (x : Rows α) : Res (Rows α) :=
  if x.length < 1 then .error (.rt 24060)
  else
    let cols := (x.headD []).length
    if cols < 1 then .error (.rt 24060)
    else if ragged x then .error (.rt 24061)
    else .ok ((List.range cols).map fun c => col x c)

/-- `raggedMap` (79-80). -/
def raggedMap (x : Maps α) : Bool := !(decide ((x.map (·.2.length)).dedup.length = 1))

/-- `x[r][c]` for all `r`, or KeyError. -/
def column (x : Maps α) (rows : List String) (c : String) : Res (PyDict String α) :=
  match rows with
  | [] => .ok []
  | r :: rs =>
    match ((x.get? r).getD []).get? c with
    | none => .error (.py "KeyError")
    | some v => (column x rs c).map ((r, v) :: ·)

/-- `dict((c, dict((r, x[r][c]) for r in rows)) for c in cols)`. -/
def columns (x : Maps α) (rows : List String) : List String → Res (Maps α)
  | [] => .ok []
  | c :: cs => do
    let d ← column x rows c
    let ds ← columns x rows cs
    .ok ((c, d) :: ds)

/-- `la.transpose` on maps (281-288). -/
def transposeMaps (x : Maps α) : Res (Maps α) :=
  let rows := rowKeys x
  let cols := colKeys x
  if rows.length < 1 ∨ cols.length < 1 then .error (.rt 24060)
  else if raggedMap x then .error (.rt 24061)
  else columns x rows cols

/-- `la.trace` on arrays (325-333). -/
def traceRows [Add α] [Zero α] (x : Rows α) : Res α :=
  if x.length = 0 then .ok 0
  else if ragged x then .error (.rt 24080)
  else .ok ((List.range (min x.length (x.headD []).length)).filterMap (fun i => (x[i]?).bind (·[i]?))).sum

/-- The sum over `x[i][i]`, or KeyError. -/
def diagSum [Add α] [Zero α] (x : Maps α) : List String → Res α
  | [] => .ok 0
  | k :: ks =>
    match ((x.get? k).getD []).get? k with
    | none => .error (.py "KeyError")
    | some v => (diagSum x ks).map (v + ·)

/-- `la.trace` on maps (335-337). -/
def traceMaps [Add α] [Zero α] (x : Maps α) : Res α :=
  diagSum x ((rowKeys x).filter (· ∈ colKeys x))

/-- `la.symmetric` on arrays (390-401), `same` is the comparison of two entries (380-388). -/
def symmetricRows (same : α → α → Bool) (x : Rows α) : Res Bool :=
  if x.length < 1 then .error (.rt 24100)
  else
    let cols := (x.headD []).length
    if cols < 1 then .error (.rt 24100)
    else if ragged x then .error (.rt 24101)
    else if x.length ≠ cols then .error (.rt 24102)
    else .ok ((List.range x.length).all fun i => (List.range cols).all fun j =>
      match (x[i]?).bind (·[j]?), (x[j]?).bind (·[i]?) with
      | some a, some b => same a b
      | _, _ => false)

/-- `la.symmetric` on maps (403-407). -/
def symmetricMaps [Zero α] (same : α → α → Bool) (x : Maps α) : Res Bool :=
  let keys := union (rowKeys x) (colKeys x)
  if keys.length < 1 || x.all (fun r => r.2.length = 0) then .error (.rt 24100)
  else .ok (keys.all fun i => keys.all fun j => same (at0 x i j) (at0 x j i))

/-- `la.truncate` on arrays (468-477): `x[:keep]` with a negative `keep` set to 0. -/
def truncateRows (x : Rows α) (keep : Int) : Res (Rows α) :=
  if x.length < 1 then .error (.rt 24120)
  else if (x.headD []).length < 1 then .error (.rt 24120)
  else if ragged x then .error (.rt 24121)
  else .ok (x.take keep.toNat)

/-- `la.truncate` on maps (479-484). -/
def truncateMaps (x : Maps α) (keep : List String) : Res (Maps α) :=
  if (rowKeys x).length < 1 ∨ (colKeys x).length < 1 then .error (.rt 24120)
  else .ok (x.filter fun r => r.1 ∈ keep)

end Verif.La
