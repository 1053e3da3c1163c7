import Verif.Avro.Json
import Verif.Lib.Eff
/-!
# Walking decision trees (C52)

Models `titus/lib/model/tree.py`: the loops of SimpleWalk (206-223), MissingWalk (230-250), SimpleTree (257-274),
and CompoundTest (147-166), SurrogateTest (193-201).

The test is an arbitrary computation (a user function, `Lib.Eff`).  A node is a Python dict whose entries
`pass`, `fail`, `missing` are tagged unions or None.
-/

namespace Verif.Tree
open Avro Lib

/-! ## Model -/

/-- `d[k]` of a dict -/
def look (v : Val) (k : String) : Res Val :=
  match v with
  | .dict d => match PyDict.get? d k with
    | some x => .ok x
    | none => .error (.py "KeyError")
  | _ => .error (.py "TypeError")

/-- The second half of the loop body (214-221): leave the loop with a score, or go on with a node.
`(utype, node), = list(union.items())` raises ValueError unless there is one item. -/
def descend (name : String) (union : Val) : Res (Val ⊕ Val) :=
  match union with
  | .null => .ok (.inl .null)
  | .dict [(utype, node)] => .ok (if utype ≠ name then .inl node else .inr node)
  | .dict _ => .error (.py "ValueError")
  | _ => .error (.py "AttributeError")

/-- `while True` (209-222): `choose` tests a node and gives the name of the branch to follow; `fuel` bounds the
number of rounds (see `walk_ends`: the size of the tree is enough). -/
def walk {σ : Type} (name : String) (choose : Val → Eff σ String) : Nat → Val → Eff σ Val
  | 0, _, s => (.error (.py "unfinished"), s)
  | n + 1, node, s =>
    match choose node s with
    | (.error e, s') => (.error e, s')
    | (.ok b, s') => match look node b with
      | .error e => (.error e, s')
      | .ok union => match descend name union with
        | .error e => (.error e, s')
        | .ok (.inl score) => (.ok score, s')
        | .ok (.inr node') => walk name choose n node' s'

/-- Lines 210-213: the test returns a boolean. -/
def choose2 {σ : Type} (test : Val → Eff σ Bool) (node : Val) : Eff σ String := fun s =>
  match test node s with
  | (.ok b, s') => (.ok (if b then "pass" else "fail"), s')
  | (.error e, s') => (.error e, s')

/-- Lines 234-240: the test returns None, a boolean, or a tagged boolean.  Another value would leave `union`
unassigned in the first round (later rounds would use the union of the round before; the types exclude it). -/
def choose3 {σ : Type} (test : Val → Eff σ Val) (node : Val) : Eff σ String := fun s =>
  match test node s with
  | (.error e, s') => (.error e, s')
  | (.ok v, s') =>
    if v = .bool true ∨ v = .dict [("boolean", .bool true)] then (.ok "pass", s')
    else if v = .bool false ∨ v = .dict [("boolean", .bool false)] then (.ok "fail", s')
    else if v = .null then (.ok "missing", s')
    else (.error (.py "UnboundLocalError"), s')

/-- `SimpleWalk.__call__` (206-223) -/
def simpleWalk {σ : Type} (name : String) (test : Val → Eff σ Bool) : Nat → Val → Eff σ Val := walk name (choose2 test)

/-- `MissingWalk.__call__` (230-250) -/
def missingWalk {σ : Type} (name : String) (test : Val → Eff σ Val) : Nat → Val → Eff σ Val := walk name (choose3 test)

/-- The loops of CompoundTest for `and` (148-152, `stop` is false) and `or` (153-157, `stop` is true). -/
def untilIs {σ : Type} (stop : Bool) (test : Val → Eff σ Bool) : List Val → Eff σ Bool
  | [], s => (.ok (!stop), s)
  | c :: cs, s => match test c s with
    | (.error e, s') => (.error e, s')
    | (.ok b, s') => if b = stop then (.ok stop, s') else untilIs stop test cs s'

/-- The loop for `xor` (158-163). -/
def countTrue {σ : Type} (test : Val → Eff σ Bool) : Nat → List Val → Eff σ Bool
  | k, [], s => (.ok (decide (k % 2 = 1)), s)
  | k, c :: cs, s => match test c s with
    | (.error e, s') => (.error e, s')
    | (.ok b, s') => countTrue test (if b then k + 1 else k) cs s'

/-- `CompoundTest.__call__` (147-166) -/
def compoundTest {σ : Type} (operator : String) (cs : List Val) (test : Val → Eff σ Bool) : Eff σ Bool := fun s =>
  if operator = "and" then untilIs false test cs s
  else if operator = "or" then untilIs true test cs s
  else if operator = "xor" then countTrue test 0 cs s
  else (.error (.rt 32020), s)

/-- `isinstance(result, dict) and list(result.keys()) == ["boolean"]` (197-198) -/
def untagBool : Val → Val
  | .dict [(k, v)] => if k = "boolean" then v else .dict [(k, v)]
  | v => v

/-- `SurrogateTest.__call__` (193-201) -/
def surrogateTest {σ : Type} (missingTest : Val → Eff σ Val) : List Val → Eff σ Val
  | [], s => (.error (.rt 32030), s)
  | c :: cs, s => match missingTest c s with
    | (.error e, s') => (.error e, s')
    | (.ok v, s') => if v = .null then surrogateTest missingTest cs s' else (.ok (untagBool v), s')

/-! ## Specification -/

/-- `Path name n p x`: the list `p` of nodes and branches starts at the node `n`, goes from each node along the
branch to the next node, and ends at the score `x`. -/
inductive Path (name : String) : Val → List (Val × String) → Val → Prop
  | null {d : List (String × Val)} {b : String} : PyDict.get? d b = some .null → Path name (.dict d) [(.dict d, b)] .null
  | score {d : List (String × Val)} {b t : String} {x : Val} : PyDict.get? d b = some (.dict [(t, x)]) → t ≠ name →
      Path name (.dict d) [(.dict d, b)] x
  | node {d : List (String × Val)} {b : String} {n x : Val} {p : List (Val × String)} :
      PyDict.get? d b = some (.dict [(name, n)]) → Path name n p x → Path name (.dict d) ((.dict d, b) :: p) x

/-- The branch is there: no score, or something with a tag. -/
def Branch (d : List (String × Val)) (b : String) : Prop :=
  PyDict.get? d b = some .null ∨ ∃ t x, PyDict.get? d b = some (.dict [(t, x)])

/-- Every node satisfies `P` and has the branches, and where they lead to a node that is a tree as well. -/
inductive IsTree (name : String) (branches : List String) (P : Val → Prop) : Val → Prop
  | mk {d : List (String × Val)} : P (.dict d) → (∀ b ∈ branches, Branch d b) →
      (∀ b ∈ branches, ∀ n, PyDict.get? d b = some (.dict [(name, n)]) → IsTree name branches P n) →
      IsTree name branches P (.dict d)

/-! ## Proofs -/

theorem get?_mem {d : List (String × Val)} {k : String} {x : Val} (h : PyDict.get? d k = some x) : (k, x) ∈ d := by
  induction d with
  | nil => cases h
  | cons a d ih =>
    rw [PyDict.get?_cons] at h
    split at h
    · next e => cases h; subst e; exact List.mem_cons_self ..
    · exact List.mem_cons_of_mem _ (ih h)

/-- A node below another one is smaller. -/
theorem size_lt {d : List (String × Val)} {k t : String} {n : Val} (h : PyDict.get? d k = some (.dict [(t, n)])) :
    sizeOf n < sizeOf (Val.dict d) := by
  have h1 := List.sizeOf_lt_of_mem (get?_mem h)
  simp only [Prod.mk.sizeOf_spec, Val.dict.sizeOf_spec, List.cons.sizeOf_spec] at h1 ⊢
  omega

section
variable {σ : Type} {name : String} {choose : Val → Eff σ String}

/-- **C52.** The walk gives a score exactly if the branches that the tests choose, one after the other, make
a path to that score. -/
theorem walk_iff (n : Nat) (v : Val) (hn : sizeOf v ≤ n) (s s' : σ) (x : Val) :
    walk name choose n v s = (.ok x, s') ↔ ∃ p, Path name v p x ∧ Chain choose s p s' := by
  induction n generalizing v s with
  | zero => cases v <;> simp at hn
  | succ n ih =>
    rw [walk]
    constructor
    · intro h
      split at h
      · cases h
      · next b s1 hc =>
        split at h
        · cases h
        · next u hu =>
          cases v with
          | dict d =>
            simp only [look] at hu
            split at hu
            · next y hy =>
              injection hu with hu; subst hu
              cases y with
              | null =>
                simp only [descend] at h
                cases h
                exact ⟨_, .null hy, .cons hc (.nil _)⟩
              | dict e =>
                match e with
                | [] => simp [descend] at h
                | _ :: _ :: _ => simp [descend] at h
                | [(t, w)] =>
                  simp only [descend] at h
                  by_cases ht : t = name
                  · subst ht
                    simp only [ne_eq, not_true, if_false] at h
                    obtain ⟨p, hp, hch⟩ := (ih w (by have := size_lt hy; omega) s1).1 h
                    exact ⟨_, .node hy hp, .cons hc hch⟩
                  · simp only [ne_eq, ht, not_false_eq_true, if_true] at h
                    cases h
                    exact ⟨_, .score hy ht, .cons hc (.nil _)⟩
              | _ => simp [descend] at h
            · cases hu
          | _ => simp [look] at hu
    · rintro ⟨p, hp, hch⟩
      cases hp with
      | null hy =>
        cases hch with
        | cons hc h2 => cases h2; simp [hc, look, hy, descend]
      | score hy ht =>
        cases hch with
        | cons hc h2 => cases h2; simp [hc, look, hy, descend, ht]
      | node hy hp =>
        cases hch with
        | cons hc h2 =>
          simp only [hc, look, hy, descend, ne_eq, not_true, if_false]
          exact (ih _ (by have := size_lt hy; omega) _).2 ⟨_, hp, h2⟩

/-- The loop ends: more rounds than the size of the tree change nothing, and it never runs out of them. -/
theorem walk_ends (n : Nat) (v : Val) (hn : sizeOf v ≤ n) (s : σ) :
    walk name choose n v s = walk name choose (sizeOf v) v s ∧
      ((∀ v s s', choose v s ≠ (.error (.py "unfinished"), s')) → ∀ s', walk name choose n v s ≠ (.error (.py "unfinished"), s')) := by
  have key : ∀ (m n : Nat) (v : Val), sizeOf v ≤ m → sizeOf v ≤ n → ∀ s : σ,
      walk name choose n v s = walk name choose m v s ∧
      ((∀ v s s', choose v s ≠ (.error (.py "unfinished"), s')) → ∀ s', walk name choose n v s ≠ (.error (.py "unfinished"), s')) := by
    intro m
    induction m with
    | zero => intro n v hv; cases v <;> simp at hv
    | succ m ih =>
      intro n v hm hn s
      cases n with
      | zero => cases v <;> simp at hn
      | succ n =>
        rw [walk, walk]
        cases hc : choose v s with
        | mk r s1 =>
          cases r with
          | error e => exact ⟨rfl, fun hs s' he => hs v s s1 (by rw [hc]; injection he with a b; injection a with a; rw [a])⟩
          | ok b =>
            simp only
            cases hl : look v b with
            | error e =>
              refine ⟨rfl, fun _ s' he => ?_⟩
              cases v <;> simp [look] at hl <;> try (subst hl; simp at he)
              split at hl <;> simp at hl
              subst hl; simp at he
            | ok u =>
              simp only
              cases hd : descend name u with
              | error e =>
                refine ⟨rfl, fun _ s' he => ?_⟩
                simp only [Prod.mk.injEq, Except.error.injEq] at he
                obtain ⟨rfl, -⟩ := he
                unfold descend at hd
                split at hd <;> simp at hd
              | ok r =>
                cases r with
                | inl x => exact ⟨rfl, fun _ s' he => by simp at he⟩
                | inr w =>
                  simp only
                  have hsz : sizeOf w < sizeOf v := by
                    cases v with
                    | dict d =>
                      simp only [look] at hl
                      split at hl
                      · next y hy =>
                        injection hl with hl; subst hl
                        cases y with
                        | dict e =>
                          match e with
                          | [] => simp [descend] at hd
                          | _ :: _ :: _ => simp [descend] at hd
                          | [(t, z)] =>
                            simp only [descend, ne_eq, ite_not] at hd
                            by_cases ht : t = name
                            · simp [ht] at hd; subst hd; exact size_lt hy
                            · simp [ht] at hd
                        | _ => simp [descend] at hd
                      · cases hl
                    | _ => simp [look] at hl
                  exact ih n w (by omega) (by omega) s1
  exact key _ n v (le_refl _) hn s

/-- **C52.** In a tree, with tests that do not fail and choose among its branches, there is one such path, so
the walk gives its score. -/
theorem walk_total {branches : List String} {P : Val → Prop} {v : Val} (ht : IsTree name branches P v)
    (hc : ∀ v s, P v → ∃ b s', b ∈ branches ∧ choose v s = (.ok b, s')) (s : σ) :
    ∃ p x s', Path name v p x ∧ Chain choose s p s' ∧ ∀ n, sizeOf v ≤ n → walk name choose n v s = (.ok x, s') := by
  have : ∃ p x s', Path name v p x ∧ Chain choose s p s' := by
    induction ht generalizing s with
    | @mk d hP h _ ih =>
      obtain ⟨b, s', hb, hch⟩ := hc (.dict d) s hP
      rcases h b hb with h1 | ⟨t, x, h1⟩
      · exact ⟨_, _, s', .null h1, .cons hch (.nil _)⟩
      · by_cases hn : t = name
        · subst hn
          obtain ⟨p, y, s2, hp, h2⟩ := ih b hb x h1 s'
          exact ⟨_, _, s2, .node h1 hp, .cons hch h2⟩
        · exact ⟨_, _, s', .score h1 hn, .cons hch (.nil _)⟩
  obtain ⟨p, x, s', h1, h2⟩ := this
  exact ⟨p, x, s', h1, h2, fun n hn => (walk_iff n v hn s s' x).2 ⟨p, h1, h2⟩⟩

end

/-! ### Two and three branches -/

section
variable {σ : Type} {name : String}

/-- The branch that belongs to a boolean. -/
def branch (b : Bool) : String := if b then "pass" else "fail"

theorem chain_choose2 {test : Val → Eff σ Bool} {s s' : σ} {p : List (Val × String)} :
    Chain (choose2 test) s p s' ↔ ∃ q : List (Val × Bool), p = q.map (fun a => (a.1, branch a.2)) ∧ Chain test s q s' := by
  constructor
  · intro h
    induction h with
    | nil s => exact ⟨[], rfl, .nil s⟩
    | @cons s a b s1 tr s2 hf _ ih =>
      obtain ⟨q, rfl, hq⟩ := ih
      unfold choose2 at hf
      split at hf
      · next r s3 ht =>
        cases hf
        exact ⟨(a, r) :: q, rfl, .cons ht hq⟩
      · cases hf
  · rintro ⟨q, rfl, hq⟩
    induction hq with
    | nil s => exact .nil s
    | cons hf _ ih => exact .cons (by simp [choose2, hf, branch]) ih

/-- **C52, simpleWalk.** The score is at the end of the path that passes the nodes whose test is true and
fails the others, for tests with any effects. -/
theorem simpleWalk_iff {test : Val → Eff σ Bool} (n : Nat) (v : Val) (hn : sizeOf v ≤ n) (s s' : σ) (x : Val) :
    simpleWalk name test n v s = (.ok x, s') ↔
      ∃ q : List (Val × Bool), Path name v (q.map (fun a => (a.1, branch a.2))) x ∧ Chain test s q s' := by
  rw [simpleWalk, walk_iff n v hn]
  constructor
  · rintro ⟨p, h1, h2⟩
    obtain ⟨q, rfl, hq⟩ := chain_choose2.1 h2
    exact ⟨q, h1, hq⟩
  · rintro ⟨q, h1, h2⟩
    exact ⟨_, h1, chain_choose2.2 ⟨q, rfl, h2⟩⟩

/-- **C52, simpleWalk.** With tests that do not raise there is a score for every tree. -/
theorem simpleWalk_total {test : Val → Eff σ Bool} {P : Val → Prop} {v : Val} (ht : IsTree name ["pass", "fail"] P v)
    (hc : ∀ v s, P v → ∃ b s', test v s = (.ok b, s')) (s : σ) :
    ∃ x s', ∀ n, sizeOf v ≤ n → simpleWalk name test n v s = (.ok x, s') := by
  obtain ⟨p, x, s', _, _, h⟩ := walk_total (choose := choose2 test) ht (fun v s hP => by
    obtain ⟨b, s', h⟩ := hc v s hP
    exact ⟨branch b, s', by cases b <;> simp [branch], by simp [choose2, h, branch]⟩) s
  exact ⟨x, s', h⟩

/-- **C52.** Without effects: the score is at the end of the path that passes the nodes where the test is true
and fails the others. -/
theorem simpleWalk_pure {test : Val → Res Bool} {f : Val → Bool} {v : Val}
    (ht : IsTree name ["pass", "fail"] (fun v => test v = .ok (f v)) v) (s : σ) :
    ∃ x, (∀ n, sizeOf v ≤ n → simpleWalk name (fun v s => (test v, s)) n v s = (.ok x, s)) ∧
      ∃ ns : List Val, Path name v (ns.map (fun a => (a, branch (f a)))) x := by
  obtain ⟨p, x, s', hp, hch, h⟩ := walk_total (choose := choose2 (fun v s => (test v, s))) ht (fun v s hP => by
    exact ⟨branch (f v), s, by cases f v <;> simp [branch], by simp [choose2, hP, branch]⟩) s
  have hs : ∀ {s s' : σ} {p}, Chain (choose2 (fun v s => (test v, s))) s p s' → s' = s := by
    intro s s' p hc
    induction hc with
    | nil s => rfl
    | @cons s a b s1 tr s2 hf _ ih =>
      rw [ih]
      unfold choose2 at hf
      cases h : test a with
      | ok r => simp only [h, Prod.mk.injEq] at hf; exact hf.2.symm
      | error e => simp only [h, Prod.mk.injEq, reduceCtorEq, false_and] at hf
  rw [hs hch] at h
  refine ⟨x, h, p.map Prod.fst, ?_⟩
  have : p = (p.map Prod.fst).map (fun a => (a, branch (f a))) := by
    clear h
    induction ht generalizing p x s s' with
    | @mk d hP _ _ ih =>
      have hb : ∀ {b s s1}, choose2 (fun v s => (test v, s)) (Val.dict d) s = ((.ok b, s1) : Res String × σ) → b = branch (f (.dict d)) := by
        intro b s s1 hf
        simp only [choose2, hP] at hf
        cases hf; rfl
      have hmem : branch (f (.dict d)) ∈ ["pass", "fail"] := by cases f (.dict d) <;> simp [branch]
      cases hp with
      | null hy => cases hch with | cons hf h2 => simp [hb hf]
      | score hy _ => cases hch with | cons hf h2 => simp [hb hf]
      | @node _ b n _ p hy hp =>
        cases hch with
        | cons hf h2 =>
          have := hb hf
          subst this
          simp only [List.map_cons, List.cons.injEq, true_and]
          exact ih _ hmem _ hy _ _ _ _ hp h2
  rw [← this]
  exact hp

/-- A path is decided by the branches taken at its nodes. -/
theorem Path.unique {v : Val} {f : Val → String} {ns ms : List Val} {x y : Val}
    (h : Path name v (ns.map (fun a => (a, f a))) x) (h' : Path name v (ms.map (fun a => (a, f a))) y) : ns = ms ∧ x = y := by
  generalize hp : ns.map (fun a => (a, f a)) = p at h
  induction h generalizing ns ms y with
  | @null d b hg =>
    match ns with
    | [] => cases hp
    | _ :: _ :: _ => simp at hp
    | [a] =>
      simp only [List.map_cons, List.map_nil, List.cons.injEq, Prod.mk.injEq, and_true] at hp
      obtain ⟨rfl, rfl⟩ := hp
      generalize hq : ms.map (fun a => (a, f a)) = q at h'
      cases h' with
      | null h2 =>
        match ms with
        | [] => cases hq
        | _ :: _ :: _ => simp at hq
        | [a] => simp at hq; simp [hq]
      | score h2 ht =>
        match ms with
        | [] => cases hq
        | _ :: _ :: _ => simp at hq
        | [a] => simp at hq; obtain ⟨rfl, rfl⟩ := hq; rw [hg] at h2; cases h2
      | node h2 _ =>
        match ms with
        | [] => cases hq
        | a :: ms => simp at hq; obtain ⟨⟨rfl, rfl⟩, -⟩ := hq; rw [hg] at h2; cases h2
  | @score d b t x hg ht =>
    match ns with
    | [] => cases hp
    | _ :: _ :: _ => simp at hp
    | [a] =>
      simp only [List.map_cons, List.map_nil, List.cons.injEq, Prod.mk.injEq, and_true] at hp
      obtain ⟨rfl, rfl⟩ := hp
      generalize hq : ms.map (fun a => (a, f a)) = q at h'
      cases h' with
      | null h2 =>
        match ms with
        | [] => cases hq
        | _ :: _ :: _ => simp at hq
        | [a] => simp at hq; obtain ⟨rfl, rfl⟩ := hq; rw [hg] at h2; cases h2
      | score h2 ht =>
        match ms with
        | [] => cases hq
        | _ :: _ :: _ => simp at hq
        | [a] => simp at hq; obtain ⟨rfl, rfl⟩ := hq; rw [hg] at h2; simp at h2; simp [h2]
      | node h2 _ =>
        match ms with
        | [] => cases hq
        | a :: ms => simp at hq; obtain ⟨⟨rfl, rfl⟩, -⟩ := hq; rw [hg] at h2; simp at h2; exact absurd h2.1 ht
  | @node d b n x p hg _ ih =>
    match ns with
    | [] => cases hp
    | a :: ns =>
      simp only [List.map_cons, List.cons.injEq, Prod.mk.injEq] at hp
      obtain ⟨⟨rfl, rfl⟩, hp⟩ := hp
      generalize hq : ms.map (fun a => (a, f a)) = q at h'
      cases h' with
      | null h2 =>
        match ms with
        | [] => cases hq
        | _ :: _ :: _ => simp at hq
        | [a] => simp at hq; obtain ⟨rfl, rfl⟩ := hq; rw [hg] at h2; cases h2
      | score h2 ht =>
        match ms with
        | [] => cases hq
        | _ :: _ :: _ => simp at hq
        | [a] => simp at hq; obtain ⟨rfl, rfl⟩ := hq; rw [hg] at h2; simp at h2; exact absurd h2.1.symm ht
      | node h2 h3 =>
        match ms with
        | [] => cases hq
        | a :: ms =>
          simp only [List.map_cons, List.cons.injEq, Prod.mk.injEq] at hq
          obtain ⟨⟨rfl, rfl⟩, rfl⟩ := hq
          rw [hg] at h2
          simp only [Option.some.injEq, Val.dict.injEq, List.cons.injEq, Prod.mk.injEq, true_and, and_true] at h2
          subst h2
          obtain ⟨rfl, rfl⟩ := ih h3 hp
          exact ⟨rfl, rfl⟩

/-- What a missing-value test may return. -/
inductive Answer : Val → String → Prop
  | yes : Answer (.bool true) "pass"
  | yesTag : Answer (.dict [("boolean", .bool true)]) "pass"
  | no : Answer (.bool false) "fail"
  | noTag : Answer (.dict [("boolean", .bool false)]) "fail"
  | missing : Answer .null "missing"

theorem choose3_iff {test : Val → Eff σ Val} {v : Val} {s s' : σ} {b : String} :
    choose3 test v s = (.ok b, s') ↔ ∃ a, test v s = (.ok a, s') ∧ Answer a b := by
  unfold choose3
  constructor
  · intro h
    split at h
    · cases h
    · next a s1 ht =>
      by_cases h1 : a = .bool true ∨ a = .dict [("boolean", .bool true)]
      · rw [if_pos h1] at h; cases h
        rcases h1 with rfl | rfl
        · exact ⟨_, ht, .yes⟩
        · exact ⟨_, ht, .yesTag⟩
      · rw [if_neg h1] at h
        by_cases h2 : a = .bool false ∨ a = .dict [("boolean", .bool false)]
        · rw [if_pos h2] at h; cases h
          rcases h2 with rfl | rfl
          · exact ⟨_, ht, .no⟩
          · exact ⟨_, ht, .noTag⟩
        · rw [if_neg h2] at h
          by_cases h3 : a = .null
          · rw [if_pos h3] at h; cases h; subst h3; exact ⟨_, ht, .missing⟩
          · rw [if_neg h3] at h; cases h
  · rintro ⟨a, ht, ha⟩
    cases ha <;> simp [ht]

/-- **C52, missingWalk.** The same with a third branch for tests that cannot be decided. -/
theorem missingWalk_iff {test : Val → Eff σ Val} (n : Nat) (v : Val) (hn : sizeOf v ≤ n) (s s' : σ) (x : Val) :
    missingWalk name test n v s = (.ok x, s') ↔
      ∃ q : List (Val × Val × String), Path name v (q.map (fun a => (a.1, a.2.2))) x ∧
        Chain test s (q.map (fun a => (a.1, a.2.1))) s' ∧ ∀ a ∈ q, Answer a.2.1 a.2.2 := by
  rw [missingWalk, walk_iff n v hn]
  constructor
  · rintro ⟨p, h1, h2⟩
    have : ∃ q : List (Val × Val × String), p = q.map (fun a => (a.1, a.2.2)) ∧
        Chain test s (q.map (fun a => (a.1, a.2.1))) s' ∧ ∀ a ∈ q, Answer a.2.1 a.2.2 := by
      clear h1
      induction h2 with
      | nil s => exact ⟨[], rfl, .nil s, fun a h => by cases h⟩
      | cons hf _ ih =>
        obtain ⟨q, rfl, hq, ha⟩ := ih
        obtain ⟨r, hr, hb⟩ := choose3_iff.1 hf
        refine ⟨(_, r, _) :: q, rfl, .cons hr hq, ?_⟩
        intro a h
        rcases List.mem_cons.1 h with rfl | h
        · exact hb
        · exact ha a h
    obtain ⟨q, rfl, h⟩ := this
    exact ⟨q, h1, h⟩
  · rintro ⟨q, h1, h2, h3⟩
    refine ⟨_, h1, ?_⟩
    clear h1
    induction q generalizing s with
    | nil => cases h2; exact .nil _
    | cons a q ih =>
      cases h2 with
      | cons hf h2 =>
        exact .cons (choose3_iff.2 ⟨_, hf, h3 a (List.mem_cons_self ..)⟩) (ih _ h2 (fun b hb => h3 b (List.mem_cons_of_mem _ hb)))

/-! ### Compound tests and surrogates -/

theorem untilIs_iff {test : Val → Eff σ Bool} {stop : Bool} {cs : List Val} {s s' : σ} {r : Bool} :
    untilIs stop test cs s = (.ok r, s') ↔
      (r = !stop ∧ Chain test s (cs.map (fun c => (c, !stop))) s') ∨
      (r = stop ∧ ∃ pre c post, cs = pre ++ c :: post ∧ Chain test s (pre.map (fun c => (c, !stop)) ++ [(c, stop)]) s') := by
  induction cs generalizing s with
  | nil =>
    simp only [untilIs, Prod.mk.injEq, Except.ok.injEq, List.map_nil]
    constructor
    · rintro ⟨rfl, rfl⟩; exact .inl ⟨rfl, .nil _⟩
    · rintro (⟨rfl, h⟩ | ⟨_, pre, c, post, h, _⟩)
      · cases h; exact ⟨rfl, rfl⟩
      · cases pre <;> cases h
  | cons c cs ih =>
    rw [untilIs]
    constructor
    · intro h
      split at h
      · cases h
      · next b s1 ht =>
        by_cases hb : b = stop
        · rw [if_pos hb] at h; cases h; subst hb
          exact .inr ⟨rfl, [], c, cs, rfl, .cons ht (.nil _)⟩
        · rw [if_neg hb] at h
          have hb : b = !stop := by cases b <;> cases stop <;> simp_all
          subst hb
          rcases ih.1 h with ⟨h1, h2⟩ | ⟨h1, pre, d, post, rfl, h2⟩
          · exact .inl ⟨h1, .cons ht h2⟩
          · exact .inr ⟨h1, c :: pre, d, post, rfl, .cons ht h2⟩
    · rintro (⟨rfl, h⟩ | ⟨rfl, pre, d, post, he, h⟩)
      · cases h with
        | cons ht h2 =>
          simp only [ht]
          rw [if_neg (by cases stop <;> simp)]
          exact ih.2 (.inl ⟨rfl, h2⟩)
      · cases pre with
        | nil =>
          cases he
          cases h with
          | cons ht h2 => cases h2; simp [ht]
        | cons a pre =>
          simp only [List.cons_append, List.cons.injEq] at he
          obtain ⟨rfl, rfl⟩ := he
          cases h with
          | cons ht h2 =>
            simp only [ht]
            rw [if_neg (by cases r <;> simp)]
            exact ih.2 (.inr ⟨rfl, pre, d, post, rfl, h2⟩)

theorem countTrue_iff {test : Val → Eff σ Bool} {k : Nat} {cs : List Val} {s s' : σ} {r : Bool} :
    countTrue test k cs s = (.ok r, s') ↔
      ∃ bs : List Bool, bs.length = cs.length ∧ Chain test s (cs.zip bs) s' ∧ r = decide ((k + bs.count true) % 2 = 1) := by
  induction cs generalizing k s with
  | nil =>
    simp only [countTrue, Prod.mk.injEq, Except.ok.injEq, List.length_nil]
    constructor
    · rintro ⟨rfl, rfl⟩; exact ⟨[], rfl, .nil _, by simp⟩
    · rintro ⟨bs, hb, h, rfl⟩
      have := List.length_eq_zero_iff.1 hb
      subst this
      cases h; simp
  | cons c cs ih =>
    rw [countTrue]
    constructor
    · intro h
      split at h
      · cases h
      · next b s1 ht =>
        obtain ⟨bs, h1, h2, h3⟩ := ih.1 h
        refine ⟨b :: bs, by simp [h1], .cons ht h2, ?_⟩
        rw [h3]
        cases b
        · simp
        · simp; congr 2; omega
    · rintro ⟨bs, hb, h, rfl⟩
      match bs with
      | [] => simp at hb
      | b :: bs =>
        cases h with
        | cons ht h2 =>
          simp only [ht]
          refine ih.2 ⟨bs, by simpa using hb, h2, ?_⟩
          cases b
          · simp
          · simp; congr 2; omega

/-- **C52, compoundTest.** `and` tests until one is false, `or` until one is true, `xor` tests all and counts. -/
theorem compoundTest_and {test : Val → Eff σ Bool} {cs : List Val} {s s' : σ} {r : Bool} :
    compoundTest "and" cs test s = (.ok r, s') ↔
      (r = true ∧ Chain test s (cs.map (fun c => (c, true))) s') ∨
      (r = false ∧ ∃ pre c post, cs = pre ++ c :: post ∧ Chain test s (pre.map (fun c => (c, true)) ++ [(c, false)]) s') := by
  have := untilIs_iff (test := test) (stop := false) (cs := cs) (s := s) (s' := s') (r := r)
  simpa [compoundTest] using this

@[inherit_doc compoundTest_and]
theorem compoundTest_or {test : Val → Eff σ Bool} {cs : List Val} {s s' : σ} {r : Bool} :
    compoundTest "or" cs test s = (.ok r, s') ↔
      (r = false ∧ Chain test s (cs.map (fun c => (c, false))) s') ∨
      (r = true ∧ ∃ pre c post, cs = pre ++ c :: post ∧ Chain test s (pre.map (fun c => (c, false)) ++ [(c, true)]) s') := by
  have := untilIs_iff (test := test) (stop := true) (cs := cs) (s := s) (s' := s') (r := r)
  simpa [compoundTest] using this

@[inherit_doc compoundTest_and]
theorem compoundTest_xor {test : Val → Eff σ Bool} {cs : List Val} {s s' : σ} {r : Bool} :
    compoundTest "xor" cs test s = (.ok r, s') ↔
      ∃ bs : List Bool, bs.length = cs.length ∧ Chain test s (cs.zip bs) s' ∧ (r = true ↔ bs.count true % 2 = 1) := by
  have := countTrue_iff (test := test) (k := 0) (cs := cs) (s := s) (s' := s') (r := r)
  simp only [compoundTest, String.reduceEq, if_false, if_true, this, Nat.zero_add]
  constructor
  · rintro ⟨bs, h1, h2, h3⟩
    exact ⟨bs, h1, h2, by rw [h3, decide_eq_true_eq]⟩
  · rintro ⟨bs, h1, h2, h3⟩
    refine ⟨bs, h1, h2, ?_⟩
    rw [Bool.eq_iff_iff, decide_eq_true_eq]
    exact h3

/-- Without effects. -/
theorem compoundTest_pure (test : Val → Bool) (cs : List Val) (s : σ) :
    compoundTest "and" cs (fun c => ret (test c)) s = (.ok (cs.all test), s) ∧
    compoundTest "or" cs (fun c => ret (test c)) s = (.ok (cs.any test), s) ∧
    compoundTest "xor" cs (fun c => ret (test c)) s = (.ok (decide (cs.countP test % 2 = 1)), s) := by
  have h3 : ∀ k, countTrue (fun c => ret (test c)) k cs s = (.ok (decide ((k + cs.countP test) % 2 = 1)), s) := by
    induction cs with
    | nil => intro k; simp [countTrue]
    | cons c cs ih =>
      intro k
      rw [countTrue]
      simp only [ret, ih]
      cases h : test c
      · simp [h]
      · simp [h]; congr 3; omega
  refine ⟨?_, ?_, by simpa [compoundTest] using h3 0⟩
  · simp only [compoundTest, if_true]
    clear h3
    induction cs with
    | nil => rfl
    | cons c cs ih => cases h : test c <;> simp [untilIs, ret, h] at ih ⊢; exact ih
  · simp only [compoundTest, String.reduceEq, if_false, if_true]
    clear h3
    induction cs with
    | nil => rfl
    | cons c cs ih => cases h : test c <;> simp [untilIs, ret, h] at ih ⊢; exact ih

/-- **C52, surrogateTest.** The first test that can be decided gives the result; if none can, the call fails. -/
theorem surrogateTest_iff {test : Val → Eff σ Val} {cs : List Val} {s s' : σ} {x : Val} :
    surrogateTest test cs s = (.ok x, s') ↔
      ∃ pre c post v, cs = pre ++ c :: post ∧ v ≠ .null ∧ x = untagBool v ∧
        Chain test s (pre.map (fun c => (c, .null)) ++ [(c, v)]) s' := by
  induction cs generalizing s with
  | nil =>
    simp only [surrogateTest, Prod.mk.injEq, reduceCtorEq, false_and, false_iff]
    rintro ⟨pre, c, post, v, h, _⟩
    cases pre <;> cases h
  | cons c cs ih =>
    rw [surrogateTest]
    constructor
    · intro h
      split at h
      · cases h
      · next v s1 ht =>
        by_cases hv : v = .null
        · rw [if_pos hv] at h
          subst hv
          obtain ⟨pre, d, post, w, rfl, h1, h2, h3⟩ := ih.1 h
          exact ⟨c :: pre, d, post, w, rfl, h1, h2, .cons ht h3⟩
        · rw [if_neg hv] at h; cases h
          exact ⟨[], c, cs, v, rfl, hv, rfl, .cons ht (.nil _)⟩
    · rintro ⟨pre, d, post, w, he, h1, h2, h3⟩
      cases pre with
      | nil =>
        cases he
        cases h3 with
        | cons ht h4 => cases h4; simp [ht, h1, h2]
      | cons a pre =>
        simp only [List.cons_append, List.cons.injEq] at he
        obtain ⟨rfl, rfl⟩ := he
        cases h3 with
        | cons ht h4 =>
          simp only [ht, if_true]
          exact ih.2 ⟨pre, d, post, w, rfl, h1, h2, h4⟩

theorem surrogateTest_none {test : Val → Eff σ Val} {cs : List Val} {s s' : σ}
    (h : Chain test s (cs.map (fun c => (c, .null))) s') : surrogateTest test cs s = (.error (.rt 32030), s') := by
  induction cs generalizing s with
  | nil => cases h; rfl
  | cons c cs ih =>
    cases h with
    | cons ht h2 => simp only [surrogateTest, ht, if_true]; exact ih h2

end

/-! ## A concrete case -/

/-- A tree with a node below the root; the tests look at a number in the nodes. -/
def small : Val := .dict [("n", .int 1), ("pass", .dict [("Node", .dict [("n", .int 0), ("pass", .dict [("string", .str "a")]),
  ("fail", .dict [("string", .str "b")]), ("missing", .null)])]), ("fail", .dict [("string", .str "c")]), ("missing", .null)]

theorem small_tree : IsTree "Node" ["pass", "fail", "missing"] (fun _ => True) small := by
  refine .mk trivial ?_ ?_
  · intro b hb
    simp only [List.mem_cons, List.not_mem_nil, or_false] at hb
    rcases hb with rfl | rfl | rfl
    · exact .inr ⟨_, _, rfl⟩
    · exact .inr ⟨_, _, rfl⟩
    · exact .inl rfl
  · intro b hb n hn
    simp only [List.mem_cons, List.not_mem_nil, or_false] at hb
    rcases hb with rfl | rfl | rfl
    · simp [PyDict.get?] at hn
      subst hn
      refine .mk trivial ?_ ?_
      · intro b hb
        simp only [List.mem_cons, List.not_mem_nil, or_false] at hb
        rcases hb with rfl | rfl | rfl
        · exact .inr ⟨_, _, rfl⟩
        · exact .inr ⟨_, _, rfl⟩
        · exact .inl rfl
      · intro b hb n hn
        simp only [List.mem_cons, List.not_mem_nil, or_false] at hb
        rcases hb with rfl | rfl | rfl <;> simp [PyDict.get?] at hn
    · simp [PyDict.get?] at hn
    · simp [PyDict.get?] at hn

example : simpleWalk (σ := Unit) "Node" (fun v => ret (decide (look v "n" = .ok (.int 1)))) 100 small () = (.ok (.str "b"), ()) := by
  decide +kernel

example : missingWalk (σ := Unit) "Node" (fun v => ret (if look v "n" = .ok (.int 1) then .bool true else .null)) 100 small () =
    (.ok .null, ()) := by decide +kernel

end Verif.Tree
