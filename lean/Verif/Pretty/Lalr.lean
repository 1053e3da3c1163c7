import Verif.Pretty.Grammar

/-!
# The tables of ply.yacc

ply.yacc makes the LALR(1) automaton of the grammar and resolves its conflicts by precedence (`lr_parse_table`).  The automaton is written down in
`Verif/Pretty/Tables.lean`; the checks here say what makes it the right one, and Lean runs them:

* `closed`: the items of a state contain all productions that may begin there, with every token that may follow them;
* `leads`: every transition leads to the items with the dot moved, and every item of the next state comes from there;
* `resolved`: the actions are those of ply's rules for conflicts.

That the sets of tokens are the smallest with these properties is not checked.
-/

namespace Verif.Pretty
open Lr

/-- A token as a bit of a set. -/
def Tm.bit (a : Tm) : Nat := a.ctorIdx

/-- Productions that only whole documents have. -/
def docOnly : Pr → Bool
  | .document | .sectionStart | .section | .sections1 | .sectionsMore | .anyExpr | .anyExprs | .anyBracketed | .anyFcns | .anyCells | .namedE | .namedB
  | .named0 | .named1 | .namedMore | .namedSemi | .cellBlock | .cellBracketed | .cellNumber | .cellStr | .cellRaw | .cellName | .cellRepl
  | .cells1 | .cellsMore | .cellsSemi => true
  | _ => false

/-- The productions of one of the two grammars. -/
def prods (whole : Bool) : List Pr := prs.filter fun p => whole || !docOnly p

/-- A state of the automaton: its kernel (production, place of the dot, tokens that may follow); the symbols that may begin there, with the tokens that may
follow these; the transitions; the tokens for which a transition is taken; and the reductions with the tokens for which they are done.  Tokens and symbols are
given by their numbers. -/
structure LState where
  kernel : List (Pr × Nat × Nat)
  clos : List (Nat × Nat)
  shifts : List (Nat × Nat)
  gotos : List (Nat × Nat)
  keep : Nat
  reds : List (Nat × Pr)

/-- States by number, for quick access. -/
inductive Trie where
  | none
  | leaf (s : LState)
  | node (even odd : Trie)

/-- The state with the number. -/
def Trie.get : Trie → Nat → Option LState
  | .none, _ => Option.none
  | .leaf s, _ => some s
  | .node e o, n => if n % 2 = 0 then e.get (n / 2) else o.get (n / 2)

/-- The value of a key. -/
def find? (k : Nat) : List (Nat × Nat) → Option Nat
  | [] => none
  | (j, v) :: l => if j == k then some v else find? k l

/-- The reduction for a token. -/
def red? (b : Nat) : List (Nat × Pr) → Option Pr
  | [] => none
  | (m, p) :: l => if m.testBit b then some p else red? b l

/-- The action of a state for a token; `start` stands for acceptance. -/
def LState.act (s : LState) (a : Tm) : Option (Act Pr) :=
  if s.keep.testBit a.bit then (find? a.bit s.shifts).map .shift
  else (red? a.bit s.reds).map fun p => if p = .start then .accept else .reduce p

/-- The machine of an automaton. -/
def machine (whole : Bool) (A : Trie) : Machine Tm Nt Pr Tok where
  kind := Tok.kind
  eof := .eof
  lhs := lhs
  rhs := rhs whole
  act q a := (A.get q).bind (LState.act · a)
  go q x := (A.get q).bind fun s => find? x.ctorIdx s.gotos

section
variable (whole : Bool) (first null : Nat → Nat)

/-- The tokens with which a sequence of symbols may begin, when `la` follows; `first` and `null` say it of a symbol. -/
def firstSeq : List (Sym Tm Nt) → Nat → Nat
  | [], la => la
  | .t a :: _, _ => 2 ^ a.bit
  | .n x :: l, la => if null x.ctorIdx = 0 then first x.ctorIdx else first x.ctorIdx ||| firstSeq l la

/-- `first` and `null` fit the productions. -/
def firstOk : Bool := (prods whole).all fun p => sub (firstSeq first null (rhs whole p) 0) (first (lhs p).ctorIdx) &&
  (null (lhs p).ctorIdx ≠ 0 || (rhs whole p).any fun s => match s with | .t _ => true | .n x => null x.ctorIdx = 0)

/-- The items of a state. -/
def LState.items (s : LState) : List (Pr × Nat × Nat) :=
  s.kernel ++ s.clos.flatMap fun c => ((prods whole).filter fun p => (lhs p).ctorIdx == c.1).map fun p => (p, 0, c.2)

/-- What follows a symbol may follow its productions. -/
def closed (s : LState) : Bool := (s.items whole).all fun i => match (rhs whole i.1).drop i.2.1 with
  | .n x :: l => s.clos.any fun c => c.1 == x.ctorIdx && sub (firstSeq first null l i.2.2) c.2
  | _ => true

/-- The state that a symbol leads to. -/
def LState.next (s : LState) : Sym Tm Nt → Option Nat
  | .t a => find? a.bit s.shifts
  | .n x => find? x.ctorIdx s.gotos

/-- Items move along the transitions. -/
def moved (A : Trie) (s : LState) : Bool := (s.items whole).all fun i => match (rhs whole i.1)[i.2.1]? with
  | some X => match s.next X with
    | some r => match A.get r with
      | some s' => s'.kernel.any fun j => decide (j.1 = i.1) && j.2.1 == i.2.1 + 1 && sub i.2.2 j.2.2
      | none => false
    | none => false
  | none => true

/-- Every item of the state reached from `s` over `X` has the symbol before its dot, and comes from an item of `s`. -/
def backOk (A : Trie) (s : LState) (X : Sym Tm Nt → Bool) (r : Nat) : Bool := match A.get r with
  | some s' => s'.kernel.all fun j => match j.2.1 with
    | 0 => false
    | d + 1 => (match (rhs whole j.1)[d]? with | some Y => X Y | none => false) &&
        (if d = 0 then (decide (j.1 = .start)) || s.clos.any (fun c => c.1 == (lhs j.1).ctorIdx) || s.kernel.any (fun i => decide (i.1 = j.1) && i.2.1 == 0)
         else s.kernel.any fun i => decide (i.1 = j.1) && i.2.1 == d)
  | none => false

/-- The same for all transitions of a state. -/
def backs (A : Trie) (s : LState) : Bool :=
  (s.shifts.all fun t => backOk whole A s (fun Y => match Y with | .t a => a.bit == t.1 | .n _ => false) t.2) &&
  (s.gotos.all fun t => backOk whole A s (fun Y => match Y with | .n x => x.ctorIdx == t.1 | .t _ => false) t.2)

/-- Of two reductions ply takes the one that comes first in the file. -/
def choose (a : Tm) : List (Pr × Nat × Nat) → Option Pr
  | [] => none
  | (p, _, m) :: l => if m.testBit a.bit then match choose a l with
      | some q => some (if line q < line p then q else p)
      | none => some p
    else choose a l

/-- The rules of `lr_parse_table` for a token: reduce when its level is below that of the production, or equal and the production is left associative; an error when equal
and not associative; otherwise shift. -/
def resolve (s : LState) (a : Tm) (complete : List (Pr × Nat × Nat)) : Option (Act Pr) :=
  match choose a complete, find? a.bit s.shifts with
  | none, r => r.map .shift
  | some .start, _ => some .accept
  | some p, none => some (.reduce p)
  | some p, some r =>
    if (prec a).2 < (prodPrec whole p).2 || ((prec a).2 == (prodPrec whole p).2 && decide ((prodPrec whole p).1 = .left)) then some (.reduce p)
    else if (prec a).2 == (prodPrec whole p).2 && decide ((prodPrec whole p).1 = .nonassoc) then none
    else some (.shift r)

/-- The items with the dot at the end. -/
def LState.complete (s : LState) : List (Pr × Nat × Nat) := (s.items whole).filter fun i => (rhs whole i.1).length == i.2.1

/-- The actions are those of the rules. -/
def resolved (s : LState) : Bool := (fun c => tms.all fun a => decide (s.act a = resolve whole s a c)) (s.complete whole)

/-- The production that ply adds is only followed by the end of the tokens. -/
def startOk (s : LState) : Bool := s.kernel.all fun i => !decide (i.1 = .start) || i.2.2 == 1

/-- All states. -/
def Trie.states : Trie → List LState
  | .none => []
  | .leaf s => [s]
  | .node e o => e.states ++ o.states

/-- All checks of an automaton. -/
def automatonOk (A : Trie) : Bool :=
  firstOk whole first null &&
  (match A.get 0 with | some s => s.kernel == [(.start, 0, 1)] | none => false) &&
  A.states.all fun s => closed whole first null s && moved whole A s && backs whole A s && resolved whole s && startOk s

end

/-! ## What the checks give -/

theorem Trie.mem_states {A : Trie} {n : Nat} {s : LState} (h : A.get n = some s) : s ∈ A.states := by
  induction A generalizing n with
  | none => cases h
  | leaf s' =>
    simp only [Trie.get, Option.some.injEq] at h
    simp [Trie.states, h]
  | node e o ihe iho =>
    simp only [Trie.get] at h
    rw [Trie.states, List.mem_append]
    split at h
    · exact .inl (ihe h)
    · exact .inr (iho h)

theorem tms_bit (a : Tm) : tms[a.bit]? = some a := by cases a <;> rfl

theorem tms_all (a : Tm) : a ∈ tms := List.mem_of_getElem? (tms_bit a)

theorem bit_inj {a b : Tm} (h : a.bit = b.bit) : a = b := by
  have := tms_bit a
  rw [h, tms_bit b] at this
  exact (Option.some.inj this).symm

/-- All symbols. -/
def nts : List Nt := [.document, .section, .sections, .anything, .expressions, .block, .bracketedargs, .argument, .arguments, .parameters, .parameter, .expression, .rettype,
  .fcndef, .namedfcndef, .namedfcndefs, .cellpool, .cellpools, .asblock, .asblocks, .assignment, .assignments, .empty, .start]

theorem nts_idx (x : Nt) : nts[x.ctorIdx]? = some x := by cases x <;> rfl

theorem idx_inj {a b : Nt} (h : a.ctorIdx = b.ctorIdx) : a = b := by
  have := nts_idx a
  rw [h, nts_idx b] at this
  exact (Option.some.inj this).symm

theorem find?_mem {k v : Nat} {l : List (Nat × Nat)} (h : find? k l = some v) : (k, v) ∈ l := by
  induction l with
  | nil => cases h
  | cons x l ih =>
    obtain ⟨j, w⟩ := x
    simp only [find?] at h
    split at h
    · next e =>
      injection h with h
      rw [beq_iff_eq] at e
      subst h e
      exact List.mem_cons_self
    · exact List.mem_cons_of_mem _ (ih h)

theorem choose_mem {a : Tm} {l : List (Pr × Nat × Nat)} {p : Pr} (h : choose a l = some p) : ∃ i ∈ l, i.1 = p ∧ i.2.2.testBit a.bit = true := by
  induction l generalizing p with
  | nil => cases h
  | cons x l ih =>
    obtain ⟨q, d, m⟩ := x
    simp only [choose] at h
    split at h
    · next hm =>
      split at h
      · next q' hq =>
        injection h with h
        split at h
        · obtain ⟨i, h1, h2⟩ := ih hq
          subst h
          exact ⟨i, List.mem_cons_of_mem _ h1, h2⟩
        · exact ⟨_, List.mem_cons_self, h, hm⟩
      · injection h with h
        exact ⟨_, List.mem_cons_self, h, hm⟩
    · obtain ⟨i, h1, h2⟩ := ih h
      exact ⟨i, List.mem_cons_of_mem _ h1, h2⟩

theorem act_keep {s : LState} {a : Tm} {r : Nat} (h : s.act a = some (.shift r)) : find? a.bit s.shifts = some r := by
  simp only [LState.act] at h
  split at h
  · cases hf : find? a.bit s.shifts with
    | none => simp [hf] at h
    | some v => simp [hf] at h; rw [h]
  · cases hf : red? a.bit s.reds with
    | none => simp [hf] at h
    | some v =>
      simp only [hf, Option.map_some, Option.some.injEq] at h
      split at h <;> cases h

/-- The productions with the number of symbols before the dot in the kernel of a state. -/
def kern (A : Trie) (q : Nat) : List (Pr × Nat) := match A.get q with
  | some s => s.kernel.map fun i => (i.1, i.2.1)
  | none => []

/-- The symbol that is accepted. -/
def begins (whole : Bool) : Nt := if whole then .document else .expressions

section
variable {whole : Bool} {first null : Nat → Nat} {A : Trie}

theorem resolve_reduce {s : LState} {a : Tm} {c : List (Pr × Nat × Nat)} {p : Pr} (h : resolve whole s a c = some (.reduce p)) : choose a c = some p := by
  unfold resolve at h
  split at h
  · cases hf : find? a.bit s.shifts <;> rw [hf] at h <;> cases h
  · cases h
  · next hc _ => injection h with h; injection h with h; rw [hc, h]
  · next hc _ =>
    split at h
    · injection h with h; injection h with h; rw [hc, h]
    · split at h <;> cases h

theorem resolve_accept {s : LState} {a : Tm} {c : List (Pr × Nat × Nat)} (h : resolve whole s a c = some .accept) : choose a c = some .start := by
  unfold resolve at h
  split at h
  · cases hf : find? a.bit s.shifts <;> rw [hf] at h <;> cases h
  · assumption
  · cases h
  · split at h
    · cases h
    · split at h <;> cases h

theorem complete_kernel {s : LState} {i : Pr × Nat × Nat} (h : i ∈ s.complete whole) :
    i.2.1 = (rhs whole i.1).length ∧ ((rhs whole i.1).length = 0 ∨ i ∈ s.kernel) := by
  obtain ⟨h1, h2⟩ := List.mem_filter.1 h
  rw [beq_iff_eq] at h2
  refine ⟨h2.symm, ?_⟩
  rcases List.mem_append.1 h1 with h1 | h1
  · exact .inr h1
  · obtain ⟨c, _, h3⟩ := List.mem_flatMap.1 h1
    obtain ⟨p, _, rfl⟩ := List.mem_map.1 h3
    exact .inl h2

/-- The checks make the automaton one that knows what it has read. -/
theorem past (hA : automatonOk whole first null A = true) : Past (machine whole A) (kern A) (begins whole) := by
  simp only [automatonOk, Bool.and_eq_true] at hA
  obtain ⟨_, hs⟩ := hA
  have hs : ∀ {q s}, A.get q = some s → backs whole A s = true ∧ resolved whole s = true ∧ startOk s = true := by
    intro q s h
    have := List.all_eq_true.1 hs s (Trie.mem_states h)
    simp only [Bool.and_eq_true] at this
    exact ⟨this.1.1.2, this.1.2, this.2⟩
  have hres : ∀ {q s}, A.get q = some s → ∀ a, s.act a = resolve whole s a (s.complete whole) := by
    intro q s h a
    have := List.all_eq_true.1 (hs h).2.1 a (tms_all a)
    exact of_decide_eq_true this
  have hback : ∀ q X r, Lr.Trans (machine whole A) q X r → ∀ p d, (p, d + 1) ∈ kern A r → (rhs whole p)[d]? = some X ∧ (d = 0 ∨ (p, d) ∈ kern A q) := by
    intro q X r ht p d hk
    obtain ⟨s, hq, hb⟩ : ∃ s, A.get q = some s ∧ ∃ P : Sym Tm Nt → Bool, (∀ Y, P Y = true → Y = X) ∧ backOk whole A s P r = true := by
      cases X with
      | t a =>
        simp only [Lr.Trans, machine] at ht
        obtain ⟨s, hq, ha⟩ := Option.bind_eq_some_iff.1 ht
        have hb := (hs hq).1
        simp only [backs, Bool.and_eq_true, List.all_eq_true] at hb
        refine ⟨s, hq, _, ?_, hb.1 _ (find?_mem (act_keep ha))⟩
        intro Y hY
        cases Y with
        | t b => rw [beq_iff_eq] at hY; rw [bit_inj hY]
        | n x => cases hY
      | n x =>
        simp only [Lr.Trans, machine] at ht
        obtain ⟨s, hq, ha⟩ := Option.bind_eq_some_iff.1 ht
        have hb := (hs hq).1
        simp only [backs, Bool.and_eq_true, List.all_eq_true] at hb
        refine ⟨s, hq, _, ?_, hb.2 _ (find?_mem ha)⟩
        intro Y hY
        cases Y with
        | n b => rw [beq_iff_eq] at hY; rw [idx_inj hY]
        | t x => cases hY
    obtain ⟨P, hP, hb⟩ := hb
    unfold kern at hk
    unfold backOk at hb
    split at hk
    · next s' hr =>
      simp only [hr] at hb
      obtain ⟨j, hj, e⟩ := List.mem_map.1 hk
      have hb := List.all_eq_true.1 hb j hj
      obtain ⟨p', d', m⟩ := j
      injection e with e1 e2
      simp only at e1 e2
      subst e1 e2
      simp only [Bool.and_eq_true] at hb
      obtain ⟨h1, h2⟩ := hb
      constructor
      · split at h1
        · next Y hY => rw [hY, hP Y h1]
        · cases h1
      · split at h2
        · next h0 => exact .inl h0
        · right
          obtain ⟨i, hi, e⟩ := List.any_eq_true.1 h2
          simp only [Bool.and_eq_true, decide_eq_true_eq, beq_iff_eq] at e
          unfold kern
          rw [hq]
          exact List.mem_map.2 ⟨i, hi, by rw [e.1, e.2]⟩
    · cases hk
  refine ⟨?_, hback, ?_⟩
  · intro q a p h
    obtain ⟨s, hq, ha⟩ := Option.bind_eq_some_iff.1 h
    rw [hres hq] at ha
    obtain ⟨i, hi, e, _⟩ := choose_mem (resolve_reduce ha)
    obtain ⟨h1, h2⟩ := complete_kernel hi
    subst e
    rcases h2 with h2 | h2
    · exact .inl h2
    · right
      simp only [kern, hq]
      exact List.mem_map.2 ⟨i, h2, by rw [h1]; rfl⟩
  · intro q a h
    obtain ⟨s, hq, ha⟩ := Option.bind_eq_some_iff.1 h
    rw [hres hq] at ha
    obtain ⟨i, hi, e, hm⟩ := choose_mem (resolve_accept ha)
    obtain ⟨h1, h2⟩ := complete_kernel hi
    rw [e] at h1 h2
    have h2 := h2.resolve_left (by simp [rhs])
    have h3 := List.all_eq_true.1 (hs hq).2.2 i h2
    simp only [e, decide_true, Bool.not_true, Bool.false_or, beq_iff_eq] at h3
    constructor
    · rw [h3] at hm
      have : a.bit = 0 := by
        by_contra hne
        rw [show (1 : Nat) = 2 ^ 0 from rfl, Nat.testBit_two_pow_of_ne (fun h => hne h.symm)] at hm
        cases hm
      exact bit_inj (b := .eof) this
    · intro r X ht
      have := (hback r X q ht .start 0 (by
        simp only [kern, hq]
        exact List.mem_map.2 ⟨i, h2, by rw [e, h1]; rfl⟩)).1
      simp only [rhs, List.getElem?_cons_zero, Option.some.injEq] at this
      rw [← this]
      rfl

/-- Whatever the parser returns is a derivation of all tokens. -/
theorem parser_sound (hA : automatonOk whole first null A = true) {inp : List Tok} {t : T} (h : Parses (machine whole A) inp t) :
    WF (machine whole A) t ∧ root (machine whole A) t = .n (begins whole) ∧ t.yield = inp :=
  parses_sound (past hA) (fun t => t.real) h

/-! ## Every text is read or refused -/

/-- The weight of a symbol: a reduction leaves less than it takes. -/
def weight : Sym Tm Nt → Nat
  | .t _ => 20
  | .n .start | .n .anything => 0
  | .n .document | .n .expressions | .n .arguments | .n .parameters | .n .asblocks | .n .rettype | .n .namedfcndefs | .n .cellpools => 1
  | .n .sections | .n .argument | .n .asblock | .n .empty | .n .namedfcndef | .n .cellpool => 2
  | .n .section | .n .expression | .n .parameter | .n .bracketedargs | .n .fcndef => 3
  | .n .assignments | .n .block => 4
  | .n .assignment => 5

/-- The symbol before the dot is a token. -/
def afterToken (whole : Bool) (i : Pr × Nat × Nat) : Bool := match i.2.1 with
  | 0 => false
  | d + 1 => match (rhs whole i.1)[d]? with
    | some (.t _) => true
    | _ => false

/-- Checks for this: symbols that may begin have a state to go to, an empty right side comes after a token, the end is not shifted, the start symbol is only read at the bottom. -/
def liveOk (whole : Bool) (A : Trie) : Bool := A.states.all fun s =>
  (s.clos.all fun c => (find? c.1 s.gotos).isSome) &&
  (s.reds.all fun r => !(rhs whole r.2).isEmpty || ((find? (lhs r.2).ctorIdx s.gotos).isSome && s.kernel.any (afterToken whole))) &&
  (find? 0 s.shifts).isNone &&
  (s.kernel.all fun i => i.2.1 != 0 || decide (i.1 = .start)) &&
  (s.kernel == [(.start, 0, 1)] || (s.shifts ++ s.gotos).all fun t => match A.get t.2 with
    | some s' => s'.kernel.all fun i => !decide (i.1 = .start)
    | none => true)

theorem prs_all (p : Pr) : p ∈ prs := by
  cases p with
  | bin o => cases o <;> decide
  | _ => decide

theorem weight_less (whole : Bool) (p : Pr) (h : rhs whole p ≠ []) : weight (.n (lhs p)) < ((rhs whole p).map weight).sum := by
  have : ∀ w : Bool, ∀ p ∈ prs, rhs w p = [] ∨ weight (.n (lhs p)) < ((rhs w p).map weight).sum := by decide
  exact (this whole p (prs_all p)).resolve_left h

theorem red?_mem {b : Nat} {l : List (Nat × Pr)} {p : Pr} (h : red? b l = some p) : ∃ m, (m, p) ∈ l := by
  induction l with
  | nil => cases h
  | cons x l ih =>
    obtain ⟨m, q⟩ := x
    simp only [red?] at h
    split at h
    · injection h with h
      subst h
      exact ⟨m, List.mem_cons_self⟩
    · obtain ⟨m, hm⟩ := ih h
      exact ⟨m, List.mem_cons_of_mem _ hm⟩

theorem act_reduce {s : LState} {a : Tm} {p : Pr} (h : s.act a = some (.reduce p)) : p ≠ .start ∧ ∃ m, (m, p) ∈ s.reds := by
  unfold LState.act at h
  split at h
  · cases hf : find? a.bit s.shifts <;> rw [hf] at h <;> cases h
  · cases hf : red? a.bit s.reds with
    | none => rw [hf] at h; cases h
    | some q =>
      rw [hf] at h
      simp only [Option.map_some, Option.some.injEq] at h
      split at h
      · cases h
      · next hq =>
        injection h with h
        subst h
        exact ⟨hq, red?_mem hf⟩

theorem ends (hA : automatonOk whole first null A = true) (hL : liveOk whole A = true) : Ends (machine whole A) weight 3 := by
  refine ⟨fun q a p _ h => weight_less whole p h, ?_⟩
  intro q a p ha h0
  obtain ⟨s, hq, hs⟩ := Option.bind_eq_some_iff.1 ha
  obtain ⟨_, m, hm⟩ := act_reduce hs
  have h1 := List.all_eq_true.1 hL s (Trie.mem_states hq)
  simp only [Bool.and_eq_true] at h1
  have h2 := List.all_eq_true.1 h1.1.1.1.2 _ hm
  have h0' : rhs whole p = [] := h0
  simp only [h0', List.isEmpty_nil, Bool.not_true, Bool.false_or, Bool.and_eq_true] at h2
  refine ⟨?_, ?_⟩
  · have : ∀ w : Bool, ∀ p ∈ prs, rhs w p = [] → weight (.n (lhs p)) < 3 := by decide
    exact this whole p (prs_all p) h0
  · intro r X ht
    obtain ⟨⟨p', d, m'⟩, hi, hb⟩ := List.any_eq_true.1 h2.2
    unfold afterToken at hb
    simp only at hb
    split at hb
    · cases hb
    · next d =>
      have := ((past hA).back r X q ht p' d (by
        simp only [kern, hq]
        exact List.mem_map.2 ⟨_, hi, rfl⟩)).1
      have e : (rhs whole p')[d]? = some X := this
      rw [e] at hb
      cases X with
      | t b => exact ⟨b, rfl⟩
      | n x => cases hb

theorem find?_some {k : Nat} {l : List (Nat × Nat)} (h : (find? k l).isSome = true) : ∃ v, find? k l = some v := Option.isSome_iff_exists.1 h

theorem live (hA : automatonOk whole first null A = true) (hL : liveOk whole A = true) : Live (machine whole A) (kern A) := by
  have hs : ∀ {q s}, A.get q = some s → _ := fun {q s} h => List.all_eq_true.1 hL s (Trie.mem_states h)
  have hA' := hA
  simp only [automatonOk, Bool.and_eq_true] at hA'
  obtain ⟨⟨_, h00⟩, hst⟩ := hA'
  obtain ⟨s0, hs0, hk0⟩ : ∃ s, A.get 0 = some s ∧ s.kernel = [(.start, 0, 1)] := by
    split at h00
    · next s h => exact ⟨s, h, by simpa using h00⟩
    · cases h00
  -- what a transition gives
  have tr : ∀ {r X q}, Lr.Trans (machine whole A) r X q → ∃ s, A.get r = some s ∧ (∃ k, (k, q) ∈ s.shifts ++ s.gotos) := by
    intro r X q h
    cases X with
    | t a =>
      obtain ⟨s, hr, ha⟩ := Option.bind_eq_some_iff.1 h
      exact ⟨s, hr, _, List.mem_append_left _ (find?_mem (act_keep ha))⟩
    | n x =>
      obtain ⟨s, hr, ha⟩ := Option.bind_eq_some_iff.1 h
      exact ⟨s, hr, _, List.mem_append_right _ (find?_mem ha)⟩
  have trk : ∀ {r X q p d}, Lr.Trans (machine whole A) r X q → (p, d) ∈ kern A q → ∃ e, d = e + 1 ∧ ∃ s, A.get r = some s ∧ (e = 0 → p = .start ∨
      (∃ c ∈ s.clos, c.1 = (lhs p).ctorIdx) ∨ ∃ i ∈ s.kernel, i.1 = p ∧ i.2.1 = 0) := by
    intro r X q p d h hk
    obtain ⟨s, hr, k, hm⟩ := tr h
    have hb := List.all_eq_true.1 hst s (Trie.mem_states hr)
    simp only [Bool.and_eq_true, backs] at hb
    obtain ⟨P, hP⟩ : ∃ P : Sym Tm Nt → Bool, backOk whole A s P q = true := by
      rcases List.mem_append.1 hm with hm | hm
      · exact ⟨_, List.all_eq_true.1 hb.1.1.2.1 _ hm⟩
      · exact ⟨_, List.all_eq_true.1 hb.1.1.2.2 _ hm⟩
    unfold kern at hk
    unfold backOk at hP
    split at hk
    · next s' hr' =>
      simp only [hr'] at hP
      obtain ⟨⟨p', d', m⟩, hj, e⟩ := List.mem_map.1 hk
      have hP := List.all_eq_true.1 hP _ hj
      injection e with e1 e2
      simp only at e1 e2
      subst e1 e2
      cases d' with
      | zero => cases hP
      | succ d' =>
        refine ⟨d', rfl, s, hr, fun h0 => ?_⟩
        subst h0
        simp only [Bool.and_eq_true, if_true, Bool.or_eq_true, decide_eq_true_eq, List.any_eq_true, beq_iff_eq] at hP
        rcases hP.2 with (h1 | h1) | h1
        · exact .inl h1
        · exact .inr (.inl h1)
        · exact .inr (.inr h1)
    · cases hk
  refine ⟨?_, ?_, ?_, ?_, ?_⟩
  · intro p d h
    simp only [kern, hs0, hk0, List.map_cons, List.map_nil, List.mem_singleton, Prod.mk.injEq] at h
    exact h.2
  · intro r X q p ht hk ⟨q', a, ha⟩
    obtain ⟨s', _, hs'⟩ := Option.bind_eq_some_iff.1 ha
    have hne := (act_reduce hs').1
    obtain ⟨e, he, s, hr, h⟩ := trk ht hk
    have h1 := hs hr
    simp only [Bool.and_eq_true] at h1
    rcases h (by omega) with h | ⟨c, hc, h⟩ | ⟨i, hi, h, h'⟩
    · exact absurd h hne
    · have := List.all_eq_true.1 h1.1.1.1.1 c hc
      rw [h] at this
      obtain ⟨v, hv⟩ := find?_some this
      refine ⟨v, ?_⟩
      show (A.get r).bind _ = _
      rw [hr]
      exact hv
    · have := List.all_eq_true.1 h1.1.2 i hi
      simp only [h', h, bne_self_eq_false, Bool.false_or, decide_eq_true_eq] at this
      exact absurd this hne
  · intro q a p ha h0
    obtain ⟨s, hq, hs'⟩ := Option.bind_eq_some_iff.1 ha
    obtain ⟨_, m, hm⟩ := act_reduce hs'
    have h1 := hs hq
    simp only [Bool.and_eq_true] at h1
    have h2 := List.all_eq_true.1 h1.1.1.1.2 _ hm
    have h0' : rhs whole p = [] := h0
    simp only [h0', List.isEmpty_nil, Bool.not_true, Bool.false_or, Bool.and_eq_true] at h2
    obtain ⟨v, hv⟩ := find?_some h2.1
    refine ⟨v, ?_⟩
    show (A.get q).bind _ = _
    rw [hq]
    exact hv
  · intro q r h
    obtain ⟨s, hq, hs'⟩ := Option.bind_eq_some_iff.1 h
    have h1 := hs hq
    simp only [Bool.and_eq_true, Option.isNone_iff_eq_none] at h1
    have := act_keep hs'
    rw [show (machine whole A).eof.bit = 0 from rfl, h1.1.1.2] at this
    cases this
  · intro q a h
    obtain ⟨s, hq, ha⟩ := Option.bind_eq_some_iff.1 h
    have h0 := List.all_eq_true.1 hst s (Trie.mem_states hq)
    simp only [Bool.and_eq_true] at h0
    have h0 := List.all_eq_true.1 h0.1.2 a (tms_all a)
    have hres : s.act a = resolve whole s a (s.complete whole) := of_decide_eq_true h0
    rw [hres] at ha
    obtain ⟨i, hi, e, hm⟩ := choose_mem (resolve_accept ha)
    obtain ⟨h1, h2⟩ := complete_kernel hi
    rw [e] at h1 h2
    have h2 := h2.resolve_left (by simp [rhs])
    constructor
    · rintro rfl
      rw [hs0] at hq
      injection hq with hq
      subst hq
      rw [hk0, List.mem_singleton] at h2
      subst h2
      simp [rhs] at h1
    · intro r X ht r' X' ht'
      obtain ⟨s', hr, k, hm⟩ := tr ht
      have h3 := hs hr
      simp only [Bool.and_eq_true, Bool.or_eq_true] at h3
      rcases h3.2 with h3 | h3
      · have h3 : s'.kernel = [(.start, 0, 1)] := by simpa using h3
        obtain ⟨e', he, _⟩ := trk (p := .start) (d := 0) ht' (by simp [kern, hr, h3])
        omega
      · have := List.all_eq_true.1 h3 _ hm
        simp only [hq] at this
        have := List.all_eq_true.1 this i h2
        simp [e] at this

end

/-! ## Checks in parts

The checks of large tables are done in parts, for the sake of memory. -/

theorem all_parts {α : Type} {f : α → Bool} {l : List α} (n : Nat) (h1 : (l.take n).all f = true) (h2 : (l.drop n).all f = true) : l.all f = true := by
  rw [← List.take_append_drop n l, List.all_append, h1, h2]; rfl

/-- The check of one state. -/
def stateOk (whole : Bool) (first null : Nat → Nat) (A : Trie) (s : LState) : Bool :=
  closed whole first null s && moved whole A s && backs whole A s && resolved whole s && startOk s

theorem automatonOk_parts {whole : Bool} {first null : Nat → Nat} {A : Trie} (h1 : firstOk whole first null = true)
    (h2 : (match A.get 0 with | some s => s.kernel == [(.start, 0, 1)] | none => false) = true) (h3 : A.states.all (stateOk whole first null A) = true) :
    automatonOk whole first null A = true := by
  unfold automatonOk
  rw [h1, h2]
  exact h3

end Verif.Pretty
