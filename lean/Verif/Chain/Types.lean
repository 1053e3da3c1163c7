import Verif.Chain.Doc
/-!
# Chaining of engines: the types between engines (C83)

`ast` compares the output of each engine with the input of the next one (`chainPair`) and gives both the same names.
-/

namespace Verif.Chain
open Avro Scope Path Sig Ast Lang

/-! ## Types without names -/

mutual
/-- A type without a name in it. -/
def Plain : AType → Prop
  | .fixed _ _ => False
  | .enum _ _ => False
  | .record _ => False
  | .array t => Plain t
  | .map t => Plain t
  | .union ts => PlainL ts
  | _ => True
@[inherit_doc Plain] def PlainL : List AType → Prop
  | [] => True
  | t :: ts => Plain t ∧ PlainL ts
end

theorem plainL_mem {ts : List AType} (h : PlainL ts) : ∀ t ∈ ts, Plain t := by
  induction ts with
  | nil => intro t ht; cases ht
  | cons u ts ih =>
    intro t ht
    rcases List.mem_cons.1 ht with rfl | ht
    · exact h.1
    · exact ih h.2 t ht

mutual
/-- Types without names are not changed. -/
theorem rename_plain (m : NameMap) : ∀ t, Plain t → rename m t = t
  | .null, _ | .boolean, _ | .int, _ | .long, _ | .float, _ | .double, _ | .bytes, _ | .string, _ => by simp [rename]
  | .fixed _ _, h => h.elim
  | .enum _ _, h => h.elim
  | .record _, h => h.elim
  | .array t, h => by rw [rename, rename_plain m t (by rw [Plain] at h; exact h)]
  | .map t, h => by rw [rename, rename_plain m t (by rw [Plain] at h; exact h)]
  | .union ts, h => by rw [rename, renameL_plain m ts (by rw [Plain] at h; exact h)]
theorem renameL_plain (m : NameMap) : ∀ ts, PlainL ts → rename.renameL m ts = ts
  | [], _ => rfl
  | t :: ts, h => by rw [rename.renameL, rename_plain m t h.1, renameL_plain m ts h.2]
end

/-- What `chainPair` asks of types without names: equal but for unions, where every member of the second must go with a
member of the first. -/
inductive Into : AType → AType → Prop
  | null : Into .null .null
  | boolean : Into .boolean .boolean
  | int : Into .int .int
  | long : Into .long .long
  | float : Into .float .float
  | double : Into .double .double
  | bytes : Into .bytes .bytes
  | string : Into .string .string
  | array {a b} : Into a b → Into (.array a) (.array b)
  | map {a b} : Into a b → Into (.map a) (.map b)
  | union {xs ys} (pick : AType → AType) : (∀ y ∈ ys, pick y ∈ xs) → (∀ y ∈ ys, Into (pick y) y) → Into (.union xs) (.union ys)

theorem into_union {xs ys : List AType} : Into (.union xs) (.union ys) ↔ ∀ y ∈ ys, ∃ x ∈ xs, Into x y := by
  constructor
  · rintro ⟨⟩
    next pick h2 h1 => exact fun y hy => ⟨pick y, h1 y hy, h2 y hy⟩
  · intro h
    classical
    refine Into.union (fun y => if hy : y ∈ ys then (h y hy).choose else y) (fun y hy => ?_) (fun y hy => ?_)
    · rw [dif_pos hy]; exact (h y hy).choose_spec.1
    · rw [dif_pos hy]; exact (h y hy).choose_spec.2

section
variable {rec : AType → AType → List Name × NameMap → Res (Bool × (List Name × NameMap))} {st : List Name × NameMap}

theorem some_plain {y : AType} : ∀ {xs : List AType}, (∀ x ∈ xs, ∃ r, rec x y st = .ok (r, st) ∧ (r = true ↔ Into x y)) →
    ∃ r, chainPair.some_ rec y xs st = .ok (r, st) ∧ (r = true ↔ ∃ x ∈ xs, Into x y)
  | [], _ => ⟨false, rfl, by simp⟩
  | x :: xs, h => by
    obtain ⟨r, h1, h2⟩ := h x (List.mem_cons_self ..)
    rw [chainPair.some_, h1]
    cases r with
    | true => exact ⟨true, rfl, by simpa using .inl (h2.1 rfl)⟩
    | false =>
      obtain ⟨r, h3, h4⟩ := some_plain (fun x hx => h x (List.mem_cons_of_mem _ hx))
      have : ¬ Into x y := fun hi => by cases h2.2 hi
      exact ⟨r, h3, by rw [h4]; simp [this]⟩

theorem every_plain {xs : List AType} : ∀ {ys : List AType}, (∀ x ∈ xs, ∀ y ∈ ys, ∃ r, rec x y st = .ok (r, st) ∧ (r = true ↔ Into x y)) →
    ∃ r, chainPair.every rec xs ys st = .ok (r, st) ∧ (r = true ↔ ∀ y ∈ ys, ∃ x ∈ xs, Into x y)
  | [], _ => ⟨true, rfl, by simp⟩
  | y :: ys, h => by
    obtain ⟨r, h1, h2⟩ := some_plain (fun x hx => h x hx y (List.mem_cons_self ..))
    rw [chainPair.every, h1]
    cases r with
    | true =>
      obtain ⟨r, h3, h4⟩ := every_plain (fun x hx z hz => h x hx z (List.mem_cons_of_mem _ hz))
      exact ⟨r, h3, by rw [h4]; simp [h2.1 rfl]⟩
    | false =>
      refine ⟨false, rfl, ⟨fun h => (by cases h), fun hh => ?_⟩⟩
      have := h2.2 (hh y (List.mem_cons_self ..))
      cases this

end

/-- C83: `chainPair` on types without names. -/
theorem chainPair_plain {e1 e2 : Env} {new : NameMap} : ∀ (n : Nat) (a b : AType) (st : List Name × NameMap), Plain a → Plain b → sizeOf a ≤ n →
    ∃ r, chainPair e1 e2 new n a b st = .ok (r, st) ∧ (r = true ↔ Into a b)
  | 0, a, b, st, _, _, hn => by
    exfalso
    have : 0 < sizeOf a := by cases a <;> simp <;> omega
    omega
  | n + 1, a, b, st, ha, hb, hn => by
    cases a with
    | fixed => exact ha.elim
    | enum => exact ha.elim
    | record => exact ha.elim
    | array a => cases b with
      | array b =>
        rw [Plain] at ha hb
        obtain ⟨r, h1, h2⟩ := chainPair_plain n a b st ha hb (by simp at hn; omega)
        exact ⟨r, h1, h2.trans ⟨.array, fun h => by cases h; assumption⟩⟩
      | _ => exact ⟨false, rfl, by simp; intro h; cases h⟩
    | map a => cases b with
      | map b =>
        rw [Plain] at ha hb
        obtain ⟨r, h1, h2⟩ := chainPair_plain n a b st ha hb (by simp at hn; omega)
        exact ⟨r, h1, h2.trans ⟨.map, fun h => by cases h; assumption⟩⟩
      | _ => exact ⟨false, rfl, by simp; intro h; cases h⟩
    | union xs => cases b with
      | union ys =>
        rw [Plain] at ha hb
        obtain ⟨r, h1, h2⟩ := every_plain (rec := chainPair e1 e2 new n) (st := st) (xs := xs) (ys := ys)
          (fun x hx y hy => chainPair_plain n x y st (plainL_mem ha x hx) (plainL_mem hb y hy) (by
            have := sizeOf_mem_union hx
            omega))
        exact ⟨r, h1, h2.trans into_union.symm⟩
      | _ => exact ⟨false, rfl, by simp; intro h; cases h⟩
    | _ => cases b <;> first | exact ⟨true, rfl, by simp; constructor⟩ | exact ⟨false, rfl, by simp; intro h; cases h⟩

/-- Without unions, too. -/
def Narrow : AType → Prop
  | .array t => Narrow t
  | .map t => Narrow t
  | .union _ => False
  | .record _ => False
  | _ => True

/-- Types without unions and names go together when they are equal. -/
theorem into_eq {a b : AType} (h : Into a b) : Narrow a → b = a := by
  induction h with
  | array _ ih => intro ha; rw [ih ha]
  | map _ ih => intro ha; rw [ih ha]
  | union => intro ha; exact ha.elim
  | _ => intro _; rfl

/-- C83: if `chainPair` accepts two types without unions and records, they get the same names, so that the types are the
same in the chain. -/
theorem chainPair_same_names {e1 e2 : Env} {new : NameMap} : ∀ (n : Nat) (a b : AType) {st st' : List Name × NameMap}, Narrow a →
    chainPair e1 e2 new n a b st = .ok (true, st') → rename st'.2 b = rename new a
  | 0, a, b, st, st', _, h => by cases h
  | n + 1, a, b, st, st', ha, h => by
    cases a with
    | union => exact ha.elim
    | record => exact ha.elim
    | array a => cases b with
      | array b => rw [rename, rename, chainPair_same_names n a b ha h]
      | _ => cases h
    | map a => cases b with
      | map b => rw [rename, rename, chainPair_same_names n a b ha h]
      | _ => cases h
    | fixed x k => cases b with
      | fixed y l =>
        rw [chainPair] at h
        by_cases hk : k = l
        · rw [if_pos hk] at h
          cases hx : PyDict.get? new x with
          | none => rw [hx] at h; cases h
          | some z =>
            rw [hx] at h
            cases h
            rw [rename, rename, PyDict.get?_set_self, hx, hk]
            rfl
        · rw [if_neg hk] at h; cases h
      | _ => cases h
    | enum x k => cases b with
      | enum y l =>
        rw [chainPair] at h
        by_cases hk : k = l
        · rw [if_pos hk] at h
          cases hx : PyDict.get? new x with
          | none => rw [hx] at h; cases h
          | some z =>
            rw [hx] at h
            cases h
            rw [rename, rename, PyDict.get?_set_self, hx, hk]
            rfl
        · rw [if_neg hk] at h; cases h
      | _ => cases h
    | _ => cases b <;> first | (cases h; rfl) | cases h

/-! ## All engines -/

/-- Names before the comparison (254-285): those in the input of the first engine and in the output of the last are kept. -/
def initMaps (depth : Nat) : Nat → List Step → List Part
  | _, [] => []
  | i, [s] => [(s, (trivialName s.env depth s.output ([], first i s)).2)]
  | i, s :: rest => (s, first i s) :: initMaps depth (i + 1) rest
where
  /-- the names of one engine, without a look at its output -/
  first (i : Nat) (s : Step) : NameMap := if i = 0 then (trivialName s.env depth s.input ([], initialMap 0 s)).2 else initialMap i s

/-- The comparison of neighbours (339-344). -/
def link (depth : Nat) (p : Part) : List Part → Res (List Part)
  | [] => .ok [p]
  | q :: rest => match chainPair p.1.env q.1.env p.2 depth p.1.output q.1.input ([], q.2) with
    | .error e => .error e
    | .ok (false, _) => .error (.py "PFAChainError")
    | .ok (true, st) => match link depth (q.1, st.2) rest with
      | .error e => .error e
      | .ok l => .ok (p :: l)

/-- The names of all engines (254-344), and the test of the method (396-401). -/
def assign (depth : Nat) (steps : List Step) : Res (List Part) :=
  match initMaps depth 0 steps with
  | [] => .error (.py "IndexError")
  | p :: rest => match link depth p rest with
    | .error e => .error e
    | .ok l => if steps.any (fun s => decide (s.method = .fold)) then .error (.py "NotImplementedError") else .ok l

theorem initMaps_fst {depth : Nat} : ∀ (steps : List Step) (i : Nat), (initMaps depth i steps).map Prod.fst = steps
  | [], _ => rfl
  | [s], _ => rfl
  | s :: t :: rest, i => by
    rw [initMaps]
    · rw [List.map_cons, initMaps_fst (t :: rest)]
    · intro h; cases h

/-- Each engine takes the output of the one before, for types without names. -/
def Line : List Step → Prop
  | [] => True
  | [_] => True
  | s :: t :: rest => Into s.output t.input ∧ Line (t :: rest)

theorem link_plain {depth : Nat} : ∀ (rest : List Part) (p : Part), (∀ q ∈ p :: rest, Plain q.1.input ∧ Plain q.1.output ∧ sizeOf q.1.output ≤ depth) →
    (Line ((p :: rest).map Prod.fst) → ∃ l, link depth p rest = .ok (p :: l) ∧ l.map Prod.fst = rest.map Prod.fst) ∧
    (¬ Line ((p :: rest).map Prod.fst) → link depth p rest = .error (.py "PFAChainError"))
  | [], p, _ => ⟨fun _ => ⟨[], rfl, rfl⟩, fun h => absurd trivial h⟩
  | q :: rest, p, h => by
    obtain ⟨r, h1, h2⟩ := chainPair_plain (e1 := p.1.env) (e2 := q.1.env) (new := p.2) depth p.1.output q.1.input ([], q.2) (h p (List.mem_cons_self ..)).2.1
      (h q (List.mem_cons_of_mem _ (List.mem_cons_self ..))).1 (h p (List.mem_cons_self ..)).2.2
    have ih := link_plain rest (q.1, q.2) (fun x hx => h x (List.mem_cons_of_mem _ hx))
    rw [link, h1]
    cases r with
    | false =>
      refine ⟨fun hl => ?_, fun _ => rfl⟩
      have := h2.2 hl.1
      cases this
    | true =>
      have hi := h2.1 rfl
      constructor
      · intro hl
        obtain ⟨l, h3, h4⟩ := ih.1 hl.2
        refine ⟨q :: l, ?_, by rw [List.map_cons, h4, List.map_cons]⟩
        show (match link depth (q.1, q.2) rest with | .error e => _ | .ok l => _) = _
        rw [h3]
      · intro hl
        show (match link depth (q.1, q.2) rest with | .error e => _ | .ok l => _) = _
        rw [ih.2 (fun h => hl ⟨hi, h⟩)]

/-- C83: for engines whose inputs and outputs have no names, `ast` goes on exactly if each engine takes the output of the
one before; otherwise it raises PFAChainError. -/
theorem assign_plain {depth : Nat} {steps : List Step} (hne : steps ≠ []) (hm : ∀ s ∈ steps, s.method ≠ .fold)
    (h : ∀ s ∈ steps, Plain s.input ∧ Plain s.output ∧ sizeOf s.output ≤ depth) :
    (Line steps → ∃ ps, assign depth steps = .ok ps ∧ ps.map Prod.fst = steps) ∧ (¬ Line steps → assign depth steps = .error (.py "PFAChainError")) := by
  have h1 := initMaps_fst (depth := depth) steps 0
  have hany : (steps.any fun s => decide (s.method = .fold)) = false := by
    rw [List.any_eq_false]
    intro s hs
    simpa using hm s hs
  unfold assign
  cases hi : initMaps depth 0 steps with
  | nil => rw [hi] at h1; exact absurd h1.symm hne
  | cons p rest =>
    rw [hi] at h1
    have h2 := link_plain (depth := depth) rest p (fun q hq => h q.1 (by rw [← h1]; exact List.mem_map_of_mem hq))
    rw [h1] at h2
    constructor
    · intro hl
      obtain ⟨l, h3, h4⟩ := h2.1 hl
      refine ⟨p :: l, ?_, ?_⟩
      · simp only [h3, hany]
        rfl
      · rw [List.map_cons, h4, ← List.map_cons, h1]
    · intro hl
      simp only [h2.2 hl]

/-- Without unions the types are equal, which is what the theorems on the document ask for. -/
theorem line_fits : ∀ {ps : List Part}, Line (ps.map Prod.fst) → (∀ p ∈ ps, Narrow p.1.output) → ∀ p q l r, ps = l ++ p :: q :: r → q.1.input = p.1.output
  | [], _, _, p, q, l, r, h => by cases l <;> cases h
  | [a], _, _, p, q, l, r, h => by
    cases l with
    | nil => cases h
    | cons x l => cases l <;> cases h
  | a :: b :: ps, hl, hn, p, q, l, r, h => by
    cases l with
    | nil =>
      cases h
      exact into_eq hl.1 (hn _ (List.mem_cons_self ..))
    | cons x l =>
      have h' := (List.cons.inj h).2
      exact line_fits (ps := b :: ps) hl.2 (fun p hp => hn p (List.mem_cons_of_mem _ hp)) p q l r h'

/-! ## Negative results -/

/-- C83: unions are compared the wrong way round.  An engine that may give null is put before one that does not take it; an
engine is refused before one that takes more. -/
theorem chain_union_violation :
    (chainPair [] [] [] 9 (.union [.int, .string, .null]) (.union [.int, .string]) ([], []) = .ok (true, [], []) ∧
      accepts [] [] (.union [.int, .string]) (.union [.int, .string, .null]) = false) ∧
    (chainPair [] [] [] 9 (.union [.int, .string]) (.union [.int, .string, .null]) ([], []) = .ok (false, [], []) ∧
      accepts [] [] (.union [.int, .string, .null]) (.union [.int, .string]) = true) := by decide +kernel

/-- C83: an int is not taken by an engine for doubles, nor by one for a union with int. -/
theorem chain_promotion_violation :
    chainPair [] [] [] 9 .int .double ([], []) = .ok (false, [], []) ∧ accepts [] [] .double .int = true ∧
    chainPair [] [] [] 9 .int (.union [.int, .null]) ([], []) = .ok (false, [], []) ∧ accepts [] [] (.union [.int, .null]) .int = true := by decide +kernel

def twoEnv : Env := [(⟨"", "Pair"⟩, [{ name := "a", type := .record ⟨"", "Item"⟩ }, { name := "b", type := .record ⟨"", "Item"⟩ }]), (⟨"", "Item"⟩, [{ name := "x", type := .int }])]

def treeEnv : Env := [(⟨"", "Tree"⟩, [{ name := "x", type := .int }, { name := "next", type := .union [.record ⟨"", "Tree"⟩, .null] }])]

/-- Names as at the start. -/
def itself (env : Env) : NameMap := env.map (fun r => (r.1, r.1))

/-- C83: a type with a record that occurs twice, or that contains itself, does not go with itself. -/
theorem chain_record_violation :
    Res.app Prod.fst (chainPair twoEnv twoEnv (itself twoEnv) 9 (.record ⟨"", "Pair"⟩) (.record ⟨"", "Pair"⟩) ([], itself twoEnv)) = .ok false ∧
    Res.app Prod.fst (chainPair treeEnv treeEnv (itself treeEnv) 9 (.record ⟨"", "Tree"⟩) (.record ⟨"", "Tree"⟩) ([], itself treeEnv)) = .ok false := by decide +kernel

def fixEnv1 : Env := [(⟨"", "P"⟩, [{ name := "a", type := .fixed ⟨"", "A"⟩ 4 }, { name := "b", type := .fixed ⟨"", "B"⟩ 4 }])]
def fixEnv2 : Env := [(⟨"", "Q"⟩, [{ name := "a", type := .fixed ⟨"", "C"⟩ 4 }, { name := "b", type := .fixed ⟨"", "C"⟩ 4 }])]

/-- C83: two types of the first engine may go with the same type of the second, which can only get one of their names. -/
theorem chain_names_violation :
    Res.app (fun r => (r.1, PyDict.get? r.2.2 ⟨"", "C"⟩)) (chainPair fixEnv1 fixEnv2 [(⟨"", "P"⟩, ⟨"", "P"⟩), (⟨"", "A"⟩, ⟨"", "A"⟩), (⟨"", "B"⟩, ⟨"", "B"⟩)] 9
      (.record ⟨"", "P"⟩) (.record ⟨"", "Q"⟩) ([], [])) = .ok (true, some ⟨"", "B"⟩) := by decide +kernel

/-- Two types have the same shape: the same fields in the same order, the same symbols, the same sizes; each type of the second union has one of the
first (the names of the types do not matter). -/
inductive Alike (e1 e2 : Env) : AType → AType → Prop
  | null : Alike e1 e2 .null .null
  | boolean : Alike e1 e2 .boolean .boolean
  | int : Alike e1 e2 .int .int
  | long : Alike e1 e2 .long .long
  | float : Alike e1 e2 .float .float
  | double : Alike e1 e2 .double .double
  | bytes : Alike e1 e2 .bytes .bytes
  | string : Alike e1 e2 .string .string
  | fixed (x y : Name) (k : Nat) : Alike e1 e2 (.fixed x k) (.fixed y k)
  | enum (x y : Name) (k : List String) : Alike e1 e2 (.enum x k) (.enum y k)
  | array {a b : AType} : Alike e1 e2 a b → Alike e1 e2 (.array a) (.array b)
  | map {a b : AType} : Alike e1 e2 a b → Alike e1 e2 (.map a) (.map b)
  | record {x y : Name} : ((e1.fields? x).getD []).map Field.name = ((e2.fields? y).getD []).map Field.name →
      (∀ p ∈ ((e1.fields? x).getD []).zip ((e2.fields? y).getD []), Alike e1 e2 p.1.type p.2.type) → Alike e1 e2 (.record x) (.record y)
  | union {xs ys : List AType} (g : AType → AType) : (∀ y ∈ ys, g y ∈ xs) → (∀ y ∈ ys, Alike e1 e2 (g y) y) → Alike e1 e2 (.union xs) (.union ys)

/-- C83: types that go together have the same shape, with names and records. -/
theorem chainPair_alike {e1 e2 : Env} {new : NameMap} : ∀ (n : Nat) (a b : AType) (st st' : List Name × NameMap),
    chainPair e1 e2 new n a b st = .ok (true, st') → Alike e1 e2 a b := by
  intro n
  induction n with
  | zero => intro a b st st' h; cases a <;> cases b <;> cases h
  | succ n ih =>
    have hf : ∀ (ps : List (Field × Field)) (st st' : List Name × NameMap), chainPair.fields (chainPair e1 e2 new n) ps st = .ok (true, st') →
        (∀ p ∈ ps, p.1.name = p.2.name ∧ Alike e1 e2 p.1.type p.2.type) := by
      intro ps
      induction ps with
      | nil => intro st st' _ p hp; cases hp
      | cons q ps ihp =>
        obtain ⟨f, g⟩ := q
        intro st st' h
        unfold chainPair.fields at h
        by_cases hn : f.name = g.name
        · rw [if_neg (by simpa using hn)] at h
          cases hr : chainPair e1 e2 new n f.type g.type st with
          | error e => rw [hr] at h; cases h
          | ok r =>
            obtain ⟨b, st1⟩ := r
            rw [hr] at h
            cases b with
            | false => cases h
            | true =>
              intro p hp
              rcases List.mem_cons.1 hp with rfl | hp
              · exact ⟨hn, ih _ _ _ _ hr⟩
              · exact ihp st1 st' h p hp
        · rw [if_pos (by simpa using hn)] at h; cases h
    have hs : ∀ (y : AType) (xs : List AType) (st st' : List Name × NameMap), chainPair.some_ (chainPair e1 e2 new n) y xs st = .ok (true, st') →
        ∃ x ∈ xs, Alike e1 e2 x y := by
      intro y xs
      induction xs with
      | nil => intro st st' h; cases h
      | cons x xs ihx =>
        intro st st' h
        unfold chainPair.some_ at h
        cases hr : chainPair e1 e2 new n x y st with
        | error e => rw [hr] at h; cases h
        | ok r =>
          obtain ⟨b, st1⟩ := r
          rw [hr] at h
          cases b with
          | true => exact ⟨x, by simp, ih _ _ _ _ hr⟩
          | false =>
            obtain ⟨x', h1, h2⟩ := ihx st1 st' h
            exact ⟨x', by simp [h1], h2⟩
    have he : ∀ (xs ys : List AType) (st st' : List Name × NameMap), chainPair.every (chainPair e1 e2 new n) xs ys st = .ok (true, st') →
        ∀ y ∈ ys, ∃ x ∈ xs, Alike e1 e2 x y := by
      intro xs ys
      induction ys with
      | nil => intro st st' _ y hy; cases hy
      | cons y ys ihy =>
        intro st st' h
        unfold chainPair.every at h
        cases hr : chainPair.some_ (chainPair e1 e2 new n) y xs st with
        | error e => rw [hr] at h; cases h
        | ok r =>
          obtain ⟨b, st1⟩ := r
          rw [hr] at h
          cases b with
          | false => cases h
          | true =>
            intro z hz
            rcases List.mem_cons.1 hz with rfl | hz
            · exact hs _ _ _ _ hr
            · exact ihy st1 st' h z hz
    intro a b st st' h
    cases a <;> cases b <;> (try (cases h; done)) <;> simp only [chainPair] at h
    case null.null => exact .null
    case boolean.boolean => exact .boolean
    case int.int => exact .int
    case long.long => exact .long
    case float.float => exact .float
    case double.double => exact .double
    case bytes.bytes => exact .bytes
    case string.string => exact .string
    case fixed.fixed x k y l =>
      by_cases hk : k = l
      · subst hk; exact .fixed _ _ _
      · rw [if_neg hk] at h; cases h
    case enum.enum x k y l =>
      by_cases hk : k = l
      · subst hk; exact .enum _ _ _
      · rw [if_neg hk] at h; cases h
    case array.array x y => exact .array (ih _ _ _ _ h)
    case map.map x y => exact .map (ih _ _ _ _ h)
    case union.union xs ys =>
      have h1 := he _ _ _ _ h
      classical
      refine .union (fun y => if hy : ∃ x ∈ xs, Alike e1 e2 x y then hy.choose else y) ?_ ?_
      · intro y hy
        rw [dif_pos (h1 y hy)]
        exact (h1 y hy).choose_spec.1
      · intro y hy
        rw [dif_pos (h1 y hy)]
        exact (h1 y hy).choose_spec.2
    case record.record x y =>
      by_cases hx : x ∈ st.1
      · rw [if_pos hx] at h; cases h
      rw [if_neg hx] at h
      by_cases hl : ((e1.fields? x).getD []).length = ((e2.fields? y).getD []).length
      · rw [if_neg (by simpa using hl)] at h
        cases hr : chainPair.fields (chainPair e1 e2 new n) (((e1.fields? x).getD []).zip ((e2.fields? y).getD [])) (x :: st.1, st.2) with
        | error e => rw [hr] at h; cases h
        | ok r =>
          obtain ⟨b, st1⟩ := r
          rw [hr] at h
          cases b with
          | false => cases h
          | true =>
            have := hf _ _ _ hr
            refine .record ?_ fun p hp => (this p hp).2
            apply List.ext_getElem
            · simp [hl]
            · intro i h1 h2
              simp only [List.length_map] at h1 h2
              have hz := this (((e1.fields? x).getD [])[i], ((e2.fields? y).getD [])[i]) (by
                rw [List.mem_iff_getElem]
                exact ⟨i, by rw [List.length_zip]; omega, by simp⟩)
              simpa using hz.1
      · rw [if_pos (by simpa using hl)] at h; cases h

def recIn : Step where
  name := "In"
  method := .map
  input := .record ⟨"", "Rec"⟩
  output := .int
  action := [.attrGet (.ref "input") [.litString "x"]]
  names := [⟨"", "Rec"⟩]
  env := [(⟨"", "Rec"⟩, [{ name := "x", type := .int }])]

def recOut : Step where
  name := "Out"
  method := .map
  input := .int
  output := .record ⟨"", "Rec"⟩
  action := [.newObject [("y", .litString "")] (.record ⟨"", "Rec"⟩)]
  names := [⟨"", "Rec"⟩]
  env := [(⟨"", "Rec"⟩, [{ name := "y", type := .string }])]

/-- C83: the names in the input of the first and in the output of the last engine are kept, so that two different records
have the same name in the document. -/
theorem chain_kept_violation :
    Res.app (fun ps => ps.map (fun p => PyDict.get? p.2 ⟨"", "Rec"⟩)) (assign 9 [recIn, recOut]) = .ok [some ⟨"", "Rec"⟩, some ⟨"", "Rec"⟩] := by decide +kernel

def recGet : Step where
  name := "Get"
  method := .map
  input := .record ⟨"", "Q"⟩
  output := .string
  action := [.attrGet (.ref "input") [.litString "y"]]
  names := [⟨"", "Q"⟩, ⟨"", "Rec"⟩]
  env := [(⟨"", "Q"⟩, [{ name := "y", type := .string }])]

/-- In the middle of a chain names get prefixes, and types that go together get the same. -/
example : Res.app (fun ps => ps.map Prod.snd) (assign 9 [recOut, recGet]) =
    .ok [[(⟨"", "Rec"⟩, ⟨"", "Step1_Out_Rec"⟩)], [(⟨"", "Q"⟩, ⟨"", "Step1_Out_Rec"⟩), (⟨"", "Rec"⟩, ⟨"", "Step2_Get_Rec"⟩)]] := by decide +kernel
example : assign 9 [recOut, recIn] = .error (.py "PFAChainError") := rfl
example : assign 9 [] = .error (.py "IndexError") := rfl

end Verif.Chain
