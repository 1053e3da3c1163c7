import Mathlib.Data.List.Basic
import Mathlib.Tactic.Common

/-!
# LR parsing, for any grammar and any tables

The driver is `LRParser.parse` of ply.yacc (the library that prettypfa.py 2108 and 2126 call): a stack of states, a token of lookahead, and a table of actions.  Reading
of values is left to `Verif/Pretty/Grammar.lean`: the driver makes the tree of productions.

Two facts are proved for all tables.  `parses_sound`: if the tables pass `Past`, every tree the driver returns is a derivation of exactly the tokens
that it was given.  `parses_complete`: if the tables pass `check` for a set of shapes, every tree of these shapes is what the driver returns for its tokens.
-/

namespace Verif.Pretty.Lr

variable {Tm Nt Pr τ : Type}

/-- A symbol of the grammar. -/
inductive Sym (Tm Nt : Type) where
  | t (a : Tm)
  | n (x : Nt)
deriving DecidableEq

/-- An entry of the action table. -/
inductive Act (Pr : Type) where
  | shift (q : Nat)
  | reduce (p : Pr)
  | accept
deriving DecidableEq

/-- A grammar with tables; `eof` is the token `$end`. -/
structure Machine (Tm Nt Pr τ : Type) where
  kind : τ → Tm
  eof : Tm
  lhs : Pr → Nt
  rhs : Pr → List (Sym Tm Nt)
  act : Nat → Tm → Option (Act Pr)
  go : Nat → Nt → Option Nat

/-- A tree of productions over tokens. -/
inductive Tree (Pr τ : Type) where
  | leaf (t : τ)
  | node (p : Pr) (kids : List (Tree Pr τ))

mutual
/-- The tokens of a tree. -/
def Tree.yield : Tree Pr τ → List τ
  | .leaf t => [t]
  | .node _ ks => yields ks
@[inherit_doc Tree.yield] def yields : List (Tree Pr τ) → List τ
  | [] => []
  | k :: ks => k.yield ++ yields ks
end

variable (M : Machine Tm Nt Pr τ)

/-- The symbol of a tree. -/
def root : Tree Pr τ → Sym Tm Nt
  | .leaf t => .t (M.kind t)
  | .node p _ => .n (M.lhs p)

mutual
/-- Every node has the symbols of its production below it. -/
def WF : Tree Pr τ → Prop
  | .leaf _ => True
  | .node p ks => ks.map (root M) = M.rhs p ∧ WFs ks
@[inherit_doc WF] def WFs : List (Tree Pr τ) → Prop
  | [] => True
  | k :: ks => WF k ∧ WFs ks
end

/-- The stack, its top first, and the tokens that are left. -/
abbrev Config (Pr τ : Type) := List (Nat × Tree Pr τ) × List τ

/-- The state on top of the stack; 0 is below all. -/
def top : List (Nat × Tree Pr τ) → Nat
  | [] => 0
  | (q, _) :: _ => q

/-- The kind of the next token, or `d` after the last. -/
def look (l : List τ) (d : Tm) : Tm := match l with
  | [] => d
  | t :: _ => M.kind t

/-- What one step does. -/
inductive Out (Pr τ : Type) where
  | next (c : Config Pr τ)
  | done (t : Tree Pr τ)
  | fail

/-- A reduction by `p`. -/
def reduce (p : Pr) (st : List (Nat × Tree Pr τ)) (inp : List τ) : Out Pr τ :=
  if st.length < (M.rhs p).length then .fail
  else match M.go (top (st.drop (M.rhs p).length)) (M.lhs p) with
    | some q => .next ((q, .node p ((st.take (M.rhs p).length).map Prod.snd).reverse) :: st.drop (M.rhs p).length, inp)
    | none => .fail

/-- One step of the loop of `parse`. -/
def step (c : Config Pr τ) : Out Pr τ := match M.act (top c.1) (look M c.2 M.eof) with
  | none => .fail
  | some (.shift q) => match c.2 with
    | t :: inp => .next ((q, .leaf t) :: c.1, inp)
    | [] => .fail
  | some (.reduce p) => reduce M p c.1 c.2
  | some .accept => match c.1 with
    | [(_, t)] => .done t
    | _ => .fail

/-- Several steps. -/
inductive Steps : Config Pr τ → Config Pr τ → Prop where
  | refl (c) : Steps c c
  | cons {c d e} (h : step M c = .next d) (hs : Steps d e) : Steps c e

/-- The driver returns the tree. -/
def Parses (inp : List τ) (t : Tree Pr τ) : Prop := ∃ c, Steps M ([], inp) c ∧ step M c = .done t

/-- The driver meets a syntax error, with these tokens left. -/
def Fails (inp left : List τ) : Prop := ∃ st, Steps M ([], inp) (st, left) ∧ step M (st, left) = .fail

variable {M}

theorem Steps.trans {c d e : Config Pr τ} (h : Steps M c d) (h' : Steps M d e) : Steps M c e := by
  induction h with
  | refl => exact h'
  | cons h _ ih => exact .cons h (ih h')

theorem Steps.det {c d e : Config Pr τ} (h : Steps M c d) (h' : Steps M c e) (hd : ∀ x, step M d ≠ .next x) (he : ∀ x, step M e ≠ .next x) : d = e := by
  induction h with
  | refl => cases h' with
    | refl => rfl
    | cons h _ => exact absurd h (hd _)
  | cons h _ ih => cases h' with
    | refl => exact absurd h (he _)
    | cons h2 h3 =>
      rw [h] at h2
      injection h2 with h2
      subst h2
      exact ih h3 hd

/-- The driver returns one tree at most, and not both a tree and an error. -/
theorem Parses.unique {inp : List τ} {t u : Tree Pr τ} (h : Parses M inp t) (h' : Parses M inp u) : t = u := by
  obtain ⟨c, hc, h1⟩ := h
  obtain ⟨d, hd, h2⟩ := h'
  have := hc.det hd (by simp [h1]) (by simp [h2])
  subst this
  rw [h1] at h2
  injection h2

theorem Parses.not_fails {inp left : List τ} {t : Tree Pr τ} (h : Parses M inp t) : ¬ Fails M inp left := by
  rintro ⟨st, hd, h2⟩
  obtain ⟨c, hc, h1⟩ := h
  have := hc.det hd (by simp [h1]) (by simp [h2])
  subst this
  rw [h1] at h2
  cases h2

/-- The driver with a limit on the number of steps, to run examples. -/
def run (M : Machine Tm Nt Pr τ) : Nat → Config Pr τ → Out Pr τ
  | 0, c => .next c
  | n + 1, c => match step M c with
    | .next d => run M n d
    | o => o

theorem run_done {n : Nat} : ∀ {c : Config Pr τ} {t}, run M n c = .done t → ∃ d, Steps M c d ∧ step M d = .done t := by
  induction n with
  | zero => intro c t h; cases h
  | succ n ih =>
    intro c t h
    simp only [run] at h
    cases hs : step M c with
    | next d =>
      rw [hs] at h
      obtain ⟨e, he, h⟩ := ih h
      exact ⟨e, .cons hs he, h⟩
    | done u => rw [hs] at h; injection h with h; subst h; exact ⟨c, .refl _, hs⟩
    | fail => rw [hs] at h; cases h

theorem run_parses {n : Nat} {inp : List τ} {t} (h : run M n ([], inp) = .done t) : Parses M inp t := run_done h

theorem run_fail {n : Nat} : ∀ {c : Config Pr τ}, run M n c = .fail → ∃ d, Steps M c d ∧ step M d = .fail := by
  induction n with
  | zero => intro c h; cases h
  | succ n ih =>
    intro c h
    simp only [run] at h
    cases hs : step M c with
    | next d =>
      rw [hs] at h
      obtain ⟨e, he, h⟩ := ih h
      exact ⟨e, .cons hs he, h⟩
    | done u => rw [hs] at h; cases h
    | fail => exact ⟨c, .refl _, hs⟩

theorem run_fails {n : Nat} {inp : List τ} (h : run M n ([], inp) = .fail) : ∃ left, Fails M inp left := by
  obtain ⟨⟨st, left⟩, h1, h2⟩ := run_fail h
  exact ⟨left, st, h1, h2⟩

/-! ## Soundness -/

/-- The way from one state to the next over a symbol. -/
def Trans (M : Machine Tm Nt Pr τ) (q : Nat) : Sym Tm Nt → Nat → Prop
  | .t a, r => M.act q a = some (.shift r)
  | .n x, r => M.go q x = some r

/-- `kern q` lists productions with a number of symbols that are known to be below the top of the stack in state `q`; `begin_` is the symbol that
is accepted. -/
structure Past (M : Machine Tm Nt Pr τ) (kern : Nat → List (Pr × Nat)) (begin_ : Nt) : Prop where
  reduces : ∀ q a p, M.act q a = some (.reduce p) → (M.rhs p).length = 0 ∨ (p, (M.rhs p).length) ∈ kern q
  back : ∀ q X r, Trans M q X r → ∀ p d, (p, d + 1) ∈ kern r → (M.rhs p)[d]? = some X ∧ (d = 0 ∨ (p, d) ∈ kern q)
  accepts : ∀ q a, M.act q a = some .accept → a = M.eof ∧ ∀ r X, Trans M r X q → X = .n begin_

/-- A stack that the driver can have made. -/
def Chain (M : Machine Tm Nt Pr τ) : List (Nat × Tree Pr τ) → Prop
  | [] => True
  | (q, t) :: st => Trans M (top st) (root M t) q ∧ WF M t ∧ Chain M st

/-- The tokens of a stack. -/
def spelled (st : List (Nat × Tree Pr τ)) : List τ := yields (st.map Prod.snd).reverse

theorem yields_append (l m : List (Tree Pr τ)) : yields (l ++ m) = yields l ++ yields m := by
  induction l with
  | nil => rfl
  | cons k l ih => simp [yields, ih]

theorem WFs_iff {l : List (Tree Pr τ)} : WFs M l ↔ ∀ t ∈ l, WF M t := by
  induction l with
  | nil => simp [WFs]
  | cons k l ih => simp [WFs, ih]

theorem Chain.drop {st : List (Nat × Tree Pr τ)} (h : Chain M st) (n : Nat) : Chain M (st.drop n) := by
  induction st generalizing n with
  | nil => simp [Chain]
  | cons qt st ih =>
    cases n with
    | zero => exact h
    | succ n => exact ih h.2.2 n

theorem Chain.wf {st : List (Nat × Tree Pr τ)} (h : Chain M st) : ∀ qt ∈ st, WF M qt.2 := by
  induction st with
  | nil => simp
  | cons qt st ih =>
    intro x hx
    rcases List.mem_cons.1 hx with rfl | hx
    · exact h.2.1
    · exact ih h.2.2 x hx

/-- The symbols below the top are those that `kern` says. -/
theorem Chain.kern {kern : Nat → List (Pr × Nat)} {b : Nt} (hp : Past M kern b) {p : Pr} : ∀ {d : Nat} {st : List (Nat × Tree Pr τ)}, Chain M st →
    d ≤ (M.rhs p).length → d ≤ st.length → (d = 0 ∨ (p, d) ∈ kern (top st)) → ((st.take d).map fun qt => root M qt.2).reverse = (M.rhs p).take d
  | 0, _, _, _, _, _ => by simp
  | d + 1, [], _, _, h, _ => by simp at h
  | d + 1, (q, t) :: st, hc, hl, hs, hk => by
    have hk : (p, d + 1) ∈ kern q := hk.resolve_left (by simp)
    obtain ⟨h1, h2⟩ := hp.back _ _ _ hc.1 p d hk
    have ih := Chain.kern hp (p := p) (d := d) hc.2.2 (by omega) (by simpa using hs) h2
    rw [List.take_succ_cons, List.map_cons, List.reverse_cons, ih, List.take_succ, h1]
    rfl

/-- What holds of every configuration that is reached from `inp`. -/
def Inv (M : Machine Tm Nt Pr τ) (inp : List τ) (c : Config Pr τ) : Prop := Chain M c.1 ∧ spelled c.1 ++ c.2 = inp

theorem spelled_split (st : List (Nat × Tree Pr τ)) (n : Nat) :
    spelled st = spelled (st.drop n) ++ yields ((st.take n).map Prod.snd).reverse := by
  conv_lhs => rw [← List.take_append_drop n st]
  rw [spelled, List.map_append, List.reverse_append, yields_append]
  rfl

theorem Inv.step {kern : Nat → List (Pr × Nat)} {b : Nt} (hp : Past M kern b) {inp : List τ} {c d : Config Pr τ} (hi : Inv M inp c)
    (h : step M c = .next d) : Inv M inp d := by
  obtain ⟨hc, hs⟩ := hi
  obtain ⟨st, rest⟩ := c
  unfold Lr.step at h
  split at h
  · cases h
  · next q ha =>
    cases rest with
    | nil => cases h
    | cons t rest =>
      injection h with h
      subst h
      refine ⟨⟨ha, trivial, hc⟩, ?_⟩
      rw [← hs]
      simp [spelled, yields_append, yields, Tree.yield]
  · next p ha =>
    unfold reduce at h
    split at h
    · cases h
    · next hl =>
      split at h
      · next q hg =>
        injection h with h
        subst h
        have hr := hp.reduces _ _ _ ha
        have hk := Chain.kern hp (p := p) (d := (M.rhs p).length) hc (Nat.le_refl _) (by simpa using hl) hr
        refine ⟨⟨hg, ⟨?_, ?_⟩, hc.drop _⟩, ?_⟩
        · rw [List.take_length] at hk
          rw [List.map_reverse, List.map_map]
          exact hk
        · rw [WFs_iff]
          intro t ht
          obtain ⟨qt, hq, rfl⟩ := List.mem_map.1 (List.mem_reverse.1 ht)
          exact hc.wf _ (List.mem_of_mem_take hq)
        · rw [← hs]
          simp only [spelled_split st (M.rhs p).length]
          simp [spelled, yields_append, yields, Tree.yield]
      · cases h
  · split at h <;> cases h

/-- Every tree that the driver returns is a derivation, from the symbol that it starts with, of exactly the given tokens. -/
theorem parses_sound {kern : Nat → List (Pr × Nat)} {b : Nt} (hp : Past M kern b) (he : ∀ t : τ, M.kind t ≠ M.eof) {inp : List τ} {t : Tree Pr τ}
    (h : Parses M inp t) : WF M t ∧ root M t = .n b ∧ t.yield = inp := by
  obtain ⟨c, hc, h⟩ := h
  have hi : Inv M inp c := by
    have : ∀ {c d : Config Pr τ}, Steps M c d → Inv M inp c → Inv M inp d := by
      intro c d h
      induction h with
      | refl => exact id
      | cons h _ ih => exact fun hi => ih (hi.step hp h)
    exact this hc ⟨trivial, rfl⟩
  obtain ⟨st, rest⟩ := c
  unfold Lr.step at h
  split at h
  · cases h
  · cases rest <;> cases h
  · unfold reduce at h
    split at h
    · cases h
    · split at h <;> cases h
  · next ha =>
    split at h
    · next q u hst =>
      injection h with h
      subst h
      simp only at hst
      subst hst
      obtain ⟨hl, hX⟩ := hp.accepts _ _ ha
      obtain ⟨⟨ht, hw, -⟩, hs⟩ := hi
      refine ⟨hw, hX _ _ ht, ?_⟩
      cases rest with
      | nil => simpa [spelled, yields] using hs
      | cons t rest => exact absurd hl (he t)
    · cases h

/-! ## Every run ends -/

/-- `w` is a weight of symbols that reductions make smaller, except those of an empty right side, which only come after a token. -/
structure Ends (M : Machine Tm Nt Pr τ) (w : Sym Tm Nt → Nat) (C : Nat) : Prop where
  smaller : ∀ q a p, M.act q a = some (.reduce p) → M.rhs p ≠ [] → w (.n (M.lhs p)) < ((M.rhs p).map w).sum
  empties : ∀ q a p, M.act q a = some (.reduce p) → M.rhs p = [] → w (.n (M.lhs p)) < C ∧ ∀ r X, Trans M r X q → ∃ b, X = .t b

/-- Nothing was reduced since the last token. -/
def fresh : List (Nat × Tree Pr τ) → Bool
  | [] => true
  | (_, .leaf _) :: _ => true
  | (_, .node ..) :: _ => false

/-- What reductions make smaller. -/
def load (M : Machine Tm Nt Pr τ) (w : Sym Tm Nt → Nat) (C : Nat) (st : List (Nat × Tree Pr τ)) : Nat :=
  (st.map fun qt => w (root M qt.2)).sum + if fresh st then C else 0

theorem sum_reverse (l : List Nat) : l.reverse.sum = l.sum := by
  induction l with
  | nil => rfl
  | cons a l ih => simp [ih, Nat.add_comm]

theorem load_reduce {kern : Nat → List (Pr × Nat)} {b : Nt} (hp : Past M kern b) {w : Sym Tm Nt → Nat} {C : Nat} (he : Ends M w C) {st : List (Nat × Tree Pr τ)}
    {inp : List τ} {p : Pr} {a : Tm} (ha : M.act (top st) a = some (.reduce p)) (hc : Chain M st) {d : Config Pr τ} (h : reduce M p st inp = .next d) :
    d.2 = inp ∧ load M w C d.1 < load M w C st := by
  unfold reduce at h
  split at h
  · cases h
  · next hl =>
    split at h
    · next q hg =>
      injection h with h
      subst h
      refine ⟨rfl, ?_⟩
      have hk := Chain.kern hp (p := p) (d := (M.rhs p).length) hc (Nat.le_refl _) (by simpa using hl) (hp.reduces _ _ _ ha)
      rw [List.take_length] at hk
      have hs : (st.map fun qt => w (root M qt.2)).sum = ((M.rhs p).map w).sum + ((st.drop (M.rhs p).length).map fun qt => w (root M qt.2)).sum := by
        have h1 : ((M.rhs p).map w).sum = ((st.take (M.rhs p).length).map fun qt => w (root M qt.2)).sum := by
          conv_lhs => rw [← hk]
          rw [List.map_reverse, sum_reverse, List.map_map]
          rfl
        conv_lhs => rw [← List.take_append_drop (M.rhs p).length st]
        rw [List.map_append, List.sum_append, h1]
      by_cases h0 : M.rhs p = []
      · obtain ⟨h1, h2⟩ := he.empties _ _ _ ha h0
        have hf : fresh st = true := by
          cases st with
          | nil => rfl
          | cons x st =>
            obtain ⟨q', t⟩ := x
            cases t with
            | leaf t => rfl
            | node p' ks =>
              obtain ⟨x, hx⟩ := h2 _ _ hc.1
              simp [root] at hx
        have e : load M w C ((q, .node p ((st.take (M.rhs p).length).map Prod.snd).reverse) :: st.drop (M.rhs p).length) =
            w (.n (M.lhs p)) + ((st.drop (M.rhs p).length).map fun qt => w (root M qt.2)).sum := by simp [load, fresh, root]
        rw [e, load, hf, hs]
        simp only [h0, List.map_nil, List.sum_nil, if_true]
        omega
      · have h1 := he.smaller _ _ _ ha h0
        have e : load M w C ((q, .node p ((st.take (M.rhs p).length).map Prod.snd).reverse) :: st.drop (M.rhs p).length) =
            w (.n (M.lhs p)) + ((st.drop (M.rhs p).length).map fun qt => w (root M qt.2)).sum := by simp [load, fresh, root]
        rw [e, load, hs]
        omega
    · cases h

/-- Every run ends. -/
theorem ends_from {kern : Nat → List (Pr × Nat)} {b : Nt} (hp : Past M kern b) {w : Sym Tm Nt → Nat} {C : Nat} (he : Ends M w C) :
    ∀ (n k : Nat) (c : Config Pr τ), c.2.length = n → load M w C c.1 = k → Chain M c.1 → ∃ d, Steps M c d ∧ Chain M d.1 ∧ ∀ x, step M d ≠ .next x := by
  intro n
  induction n using Nat.strongRecOn with
  | ind n ihn =>
    intro k
    induction k using Nat.strongRecOn with
    | ind k ihk =>
      intro c hn hk hc
      cases h : step M c with
      | done t => exact ⟨c, .refl c, hc, by simp [h]⟩
      | fail => exact ⟨c, .refl c, hc, by simp [h]⟩
      | next d =>
        have hd : Chain M d.1 := (Inv.step hp (inp := spelled c.1 ++ c.2) ⟨hc, rfl⟩ h).1
        have : d.2.length < n ∨ d.2.length = n ∧ load M w C d.1 < k := by
          obtain ⟨st, rest⟩ := c
          unfold Lr.step at h
          split at h
          · cases h
          · next q ha =>
            cases rest with
            | nil => cases h
            | cons t rest =>
              injection h with h
              subst h hn
              exact .inl (by simp)
          · next p ha =>
            obtain ⟨h1, h2⟩ := load_reduce hp he ha hc h
            subst hn hk
            exact .inr ⟨by rw [h1], h2⟩
          · split at h <;> cases h
        rcases this with h1 | ⟨h1, h2⟩
        · obtain ⟨e, h2, h3⟩ := ihn _ h1 _ d rfl rfl hd
          exact ⟨e, .cons h h2, h3⟩
        · obtain ⟨e, h3, h4⟩ := ihk _ h2 d h1 rfl hd
          exact ⟨e, .cons h h3, h4⟩

theorem parser_ends {kern : Nat → List (Pr × Nat)} {b : Nt} (hp : Past M kern b) {w : Sym Tm Nt → Nat} {C : Nat} (he : Ends M w C) (inp : List τ) :
    (∃ t, Parses M inp t) ∨ ∃ left, Fails M inp left := by
  obtain ⟨⟨st, left⟩, h1, h2, h3⟩ := ends_from hp he _ _ ([], inp) rfl rfl trivial
  cases h : step M (st, left) with
  | next x => exact absurd h (h3 x)
  | done t => exact .inl ⟨t, _, h1, h⟩
  | fail => exact .inr ⟨left, st, h1, h⟩

/-- Reductions find their symbols on the stack and a state to go to, the end of the tokens is not shifted, and only one tree is left when they are accepted. -/
structure Live (M : Machine Tm Nt Pr τ) (kern : Nat → List (Pr × Nat)) : Prop where
  bottom : ∀ p d, (p, d) ∈ kern 0 → d = 0
  goes : ∀ r X q p, Trans M r X q → (p, 1) ∈ kern q → (∃ q' a, M.act q' a = some (.reduce p)) → ∃ s, M.go r (M.lhs p) = some s
  goes0 : ∀ q a p, M.act q a = some (.reduce p) → M.rhs p = [] → ∃ s, M.go q (M.lhs p) = some s
  shifts : ∀ q r, M.act q M.eof ≠ some (.shift r)
  alone : ∀ q a, M.act q a = some .accept → q ≠ 0 ∧ ∀ r X, Trans M r X q → ∀ r' X', ¬ Trans M r' X' r

theorem Chain.deep {kern : Nat → List (Pr × Nat)} {b : Nt} (hp : Past M kern b) (hl : Live M kern) {p : Pr} : ∀ {d : Nat} {st : List (Nat × Tree Pr τ)}, Chain M st →
    (p, d + 1) ∈ kern (top st) → d + 1 ≤ st.length ∧ ∃ r X q, top (st.drop (d + 1)) = r ∧ Trans M r X q ∧ (p, 1) ∈ kern q
  | _, [], _, hk => absurd (hl.bottom _ _ hk) (by simp)
  | 0, (q, t) :: st, hc, hk => ⟨by simp, _, _, q, rfl, hc.1, hk⟩
  | d + 1, (q, t) :: st, hc, hk => by
    obtain ⟨h1, h2⟩ := hp.back _ _ _ hc.1 p (d + 1) hk
    obtain ⟨h3, h4⟩ := Chain.deep hp hl hc.2.2 (h2.resolve_left (by simp))
    exact ⟨by simpa using h3, h4⟩

/-- The driver fails only where the table has no action. -/
theorem fails_table {kern : Nat → List (Pr × Nat)} {b : Nt} (hp : Past M kern b) (hl : Live M kern) {st : List (Nat × Tree Pr τ)} {left : List τ} (hc : Chain M st)
    (h : step M (st, left) = .fail) : M.act (top st) (look M left M.eof) = none := by
  unfold Lr.step at h
  split at h
  · assumption
  · next q ha =>
    cases left with
    | nil => exact absurd ha (hl.shifts _ _)
    | cons t left => cases h
  · next p ha =>
    exfalso
    unfold reduce at h
    have : (M.rhs p).length ≤ st.length ∧ ∃ s, M.go (top (st.drop (M.rhs p).length)) (M.lhs p) = some s := by
      by_cases h0 : M.rhs p = []
      · obtain ⟨s, hs⟩ := hl.goes0 _ _ _ ha h0
        rw [h0]
        exact ⟨by simp, s, by simpa using hs⟩
      · have hr := (hp.reduces _ _ _ ha).resolve_left (by simpa using h0)
        obtain ⟨d, hd⟩ : ∃ d, (M.rhs p).length = d + 1 := ⟨(M.rhs p).length - 1, by have := List.length_pos_iff.2 h0; omega⟩
        rw [hd] at hr ⊢
        obtain ⟨h1, r, X, q, h2, h3, h4⟩ := Chain.deep hp hl hc hr
        refine ⟨h1, ?_⟩
        rw [h2]
        exact hl.goes _ _ _ _ h3 h4 ⟨_, _, ha⟩
    obtain ⟨h1, s, h2⟩ := this
    rw [if_neg (by simpa using h1)] at h
    rw [h2] at h
    cases h
  · next ha =>
    exfalso
    obtain ⟨h1, h2⟩ := hl.alone _ _ ha
    match st, hc, h with
    | [], _, _ => exact h1 rfl
    | [(q, t)], _, h => cases h
    | (q, t) :: (q', t') :: st, hc, _ => exact h2 _ _ hc.1 _ _ hc.2.2.1

theorem Steps.chain {kern : Nat → List (Pr × Nat)} {b : Nt} (hp : Past M kern b) {c d : Config Pr τ} (h : Steps M c d) (hc : Chain M c.1) : Chain M d.1 := by
  induction h with
  | refl => exact hc
  | cons h _ ih => exact ih (Inv.step hp (inp := _) ⟨hc, rfl⟩ h).1

/-- A failing run ends at a token without an action. -/
theorem Fails.table {kern : Nat → List (Pr × Nat)} {b : Nt} (hp : Past M kern b) (hl : Live M kern) {inp left : List τ} (h : Fails M inp left) :
    ∃ st, Steps M ([], inp) (st, left) ∧ M.act (top st) (look M left M.eof) = none := by
  obtain ⟨st, h1, h2⟩ := h
  exact ⟨st, h1, fails_table hp hl (h1.chain hp trivial) h2⟩

theorem Fails.unique {inp l m : List τ} (h : Fails M inp l) (h' : Fails M inp m) : l = m := by
  obtain ⟨s, h1, h2⟩ := h
  obtain ⟨s', h3, h4⟩ := h'
  have := Steps.det h1 h3 (by simp [h2]) (by simp [h4])
  injection this

/-! ## Completeness -/

mutual
/-- From state `s` the driver reads the tree, with the token `a` after it, and is then in state `r`. -/
inductive Goes (M : Machine Tm Nt Pr τ) : Nat → Tree Pr τ → Tm → Nat → Prop where
  | leaf {s q t a} (h : M.act s (M.kind t) = some (.shift q)) : Goes M s (.leaf t) a q
  | node {s q r p ks a} (h : GoesL M s ks a q) (hl : (M.rhs p).length = ks.length) (ha : M.act q a = some (.reduce p))
      (hg : M.go s (M.lhs p) = some r) : Goes M s (.node p ks) a r
@[inherit_doc Goes] inductive GoesL (M : Machine Tm Nt Pr τ) : Nat → List (Tree Pr τ) → Tm → Nat → Prop where
  | nil {s a} : GoesL M s [] a s
  | cons {s q r k ks a} (h : Goes M s k (look M (yields ks) a) q) (hs : GoesL M q ks a r) : GoesL M s (k :: ks) a r
end

theorem look_append (l m : List τ) (a : Tm) : look M (l ++ m) a = look M l (look M m a) := by
  cases l <;> rfl

mutual
theorem Goes.steps {s r : Nat} {t : Tree Pr τ} {a : Tm} (h : Goes M s t a r) (st : List (Nat × Tree Pr τ)) (inp : List τ) (hs : top st = s)
    (hi : look M inp M.eof = a) : Steps M (st, t.yield ++ inp) ((r, t) :: st, inp) := by
  cases h with
  | leaf h =>
    refine .cons ?_ (.refl _)
    simp [step, Tree.yield, look, hs, h]
  | node h hl ha hg =>
    rename_i q p ks
    obtain ⟨u, h1, h2, h3, h4⟩ := GoesL.steps h st inp hs hi
    refine h1.trans (.cons ?_ (.refl _))
    have e1 : (u ++ st).take (M.rhs p).length = u := by rw [hl, ← h2]; simp
    have e2 : (u ++ st).drop (M.rhs p).length = st := by rw [hl, ← h2]; simp
    have e3 : ¬ (u ++ st).length < (M.rhs p).length := by rw [hl, ← h2]; simp
    simp only [step, h4, hi, ha, reduce, e1, e2, if_neg e3, hs, hg, h3]
theorem GoesL.steps {s r : Nat} {ks : List (Tree Pr τ)} {a : Tm} (h : GoesL M s ks a r) (st : List (Nat × Tree Pr τ)) (inp : List τ)
    (hs : top st = s) (hi : look M inp M.eof = a) : ∃ u : List (Nat × Tree Pr τ), Steps M (st, yields ks ++ inp) (u ++ st, inp) ∧ u.length = ks.length ∧
      (u.map Prod.snd).reverse = ks ∧ top (u ++ st) = r := by
  cases h with
  | nil => exact ⟨[], .refl _, rfl, rfl, hs⟩
  | cons h hr =>
    rename_i q k ks
    have h1 := Goes.steps h st (yields ks ++ inp) hs (by rw [look_append, hi])
    obtain ⟨u, h2, h3, h4, h5⟩ := GoesL.steps hr ((q, k) :: st) inp rfl hi
    refine ⟨u ++ [(q, k)], ?_, by simp [h3], by simp [h4], by simpa using h5⟩
    simp only [yields, List.append_assoc]
    exact h1.trans (by simpa using h2)
end

/-- A tree that is read from the first state up to the end of the tokens is returned. -/
theorem Goes.parses {t : Tree Pr τ} {q : Nat} (h : Goes M 0 t M.eof q) (ha : M.act q M.eof = some .accept) : Parses M t.yield t := by
  refine ⟨([(q, t)], []), ?_, ?_⟩
  · simpa using h.steps [] [] rfl rfl
  · simp [step, top, look, ha]

/-! ### Shapes -/

/-- A child of a shape: a token of a kind, or a tree of another shape. -/
inductive Kid (Tm Sh : Type) where
  | tok (a : Tm)
  | sh (i : Sh)

variable {Sh : Type}

/-- A set of shapes: for each, the productions with shapes of their children; the states in which such trees begin with sets of tokens that may follow them; the
set of tokens with which they begin; and whether they may be empty.  A set is a number whose bits belong to the tokens. -/
structure Shapes (Tm Nt Pr Sh : Type) where
  idx : Tm → Nat
  sym : Sh → Nt
  alts : Sh → List (Pr × List (Kid Tm Sh))
  ctx : Sh → List (Nat × Nat)
  first : Sh → Nat
  null : Sh → Bool

variable (S : Shapes Tm Nt Pr Sh)

mutual
/-- Trees of a shape. -/
inductive Has (M : Machine Tm Nt Pr τ) (S : Shapes Tm Nt Pr Sh) : Sh → Tree Pr τ → Prop where
  | mk {i p ks ts} (hp : (p, ks) ∈ S.alts i) (hk : HasL M S ks ts) : Has M S i (.node p ts)
@[inherit_doc Has] inductive HasL (M : Machine Tm Nt Pr τ) (S : Shapes Tm Nt Pr Sh) : List (Kid Tm Sh) → List (Tree Pr τ) → Prop where
  | nil : HasL M S [] []
  | tok {a t ks ts} (ht : M.kind t = a) (h : HasL M S ks ts) : HasL M S (.tok a :: ks) (.leaf t :: ts)
  | sh {i t ks ts} (ht : Has M S i t) (h : HasL M S ks ts) : HasL M S (.sh i :: ks) (t :: ts)
end

/-- The set of tokens with which the children may begin, when the set `la` follows. -/
def firsts : List (Kid Tm Sh) → Nat → Nat
  | [], la => la
  | .tok a :: _, _ => 2 ^ S.idx a
  | .sh i :: ks, la => if S.null i then S.first i ||| firsts ks la else S.first i

/-- Is every element of `m` in `n`? -/
def sub (m n : Nat) : Bool := m &&& n == m

/-- Walk over the children, with `la` after them. -/
def walk (M : Machine Tm Nt Pr τ) : Nat → List (Kid Tm Sh) → Nat → Option Nat
  | q, [], _ => some q
  | q, .tok a :: ks, la => match M.act q a with
    | some (.shift r) => walk M r ks la
    | _ => none
  | q, .sh i :: ks, la => if (S.ctx i).any (fun c => c.1 == q && sub (firsts S ks la) c.2) then match M.go q (S.sym i) with
      | some r => walk M r ks la
      | none => none
    else none

/-- Whether the tables read every tree of shape `i`; `tms` lists all kinds of tokens. -/
def checkAlt [DecidableEq Pr] [DecidableEq Nt] (M : Machine Tm Nt Pr τ) (tms : List Tm) (i : Sh) (alt : Pr × List (Kid Tm Sh)) : Bool :=
  decide (M.lhs alt.1 = S.sym i) && (M.rhs alt.1).length == alt.2.length &&
  sub (firsts S alt.2 0) (S.first i) &&
  (S.null i || alt.2.any fun k => match k with | .tok _ => true | .sh j => !S.null j) &&
  (S.ctx i).all fun c => (M.go c.1 (S.sym i)).isSome && match walk S M c.1 alt.2 c.2 with
    | some q => tms.all fun a => !c.2.testBit (S.idx a) || decide (M.act q a = some (.reduce alt.1))
    | none => false

@[inherit_doc checkAlt] def check [DecidableEq Pr] [DecidableEq Nt] (M : Machine Tm Nt Pr τ) (tms : List Tm) (shs : List Sh) : Bool :=
  shs.all fun i => (S.alts i).all (checkAlt S M tms i)

variable {S}

theorem sub_testBit {m n : Nat} (h : sub m n = true) {i : Nat} (hi : m.testBit i = true) : n.testBit i = true := by
  simp only [sub, beq_iff_eq] at h
  rw [← h, Nat.testBit_and, Bool.and_eq_true] at hi
  exact hi.2

/-- `la` contains what follows. -/
theorem testBit_pow_self (i : Nat) : (2 ^ i).testBit i = true := by simp

section
variable [DecidableEq Pr] [DecidableEq Nt] {tms : List Tm} {shs : List Sh}

mutual
/-- A tree of a shape begins with a token of its set, or is empty and may be. -/
theorem Has.first {i : Sh} {t : Tree Pr τ} (hc : check S M tms shs = true) (hs : ∀ i, i ∈ shs) (h : Has M S i t) :
    (∀ a, t.yield ≠ [] → (S.first i).testBit (S.idx (look M t.yield a)) = true) ∧ (t.yield = [] → S.null i = true) := by
  cases h with
  | mk hp hk =>
    rename_i p ks ts
    have h1 := List.all_eq_true.1 (List.all_eq_true.1 hc i (hs i)) _ hp
    simp only [checkAlt, Bool.and_eq_true, Bool.or_eq_true] at h1
    obtain ⟨⟨⟨_, hf⟩, hn⟩, _⟩ := h1
    obtain ⟨h2, h3⟩ := HasL.first hc hs hk
    refine ⟨fun a ha => sub_testBit hf (h2 a 0 (.inl ha)), fun he => ?_⟩
    rcases hn with hn | hn
    · exact hn
    · obtain ⟨k, hk1, hk2⟩ := List.any_eq_true.1 hn
      have := h3 he k hk1
      cases k with
      | tok a => cases this
      | sh j => simp [this] at hk2
theorem HasL.first {ks : List (Kid Tm Sh)} {ts : List (Tree Pr τ)} (hc : check S M tms shs = true) (hs : ∀ i, i ∈ shs) (h : HasL M S ks ts) :
    (∀ a la, yields ts ≠ [] ∨ la.testBit (S.idx a) = true → (firsts S ks la).testBit (S.idx (look M (yields ts) a)) = true) ∧
    (yields ts = [] → ∀ k ∈ ks, match k with | .tok _ => False | .sh j => S.null j = true) := by
  cases h with
  | nil =>
    refine ⟨fun a la h => ?_, fun _ k hk => absurd hk (by simp)⟩
    rcases h with h | h
    · exact absurd rfl h
    · exact h
  | tok ht h =>
    refine ⟨fun a la _ => ?_, fun he => ?_⟩
    · simp [yields, Tree.yield, look, firsts, ht]
    · simp [yields, Tree.yield] at he
  | sh ht h =>
    rename_i i t ks ts
    obtain ⟨h1, h2⟩ := Has.first hc hs ht
    obtain ⟨h3, h4⟩ := HasL.first hc hs h
    refine ⟨fun a la hne => ?_, fun he k hk => ?_⟩
    · rw [yields, look_append, firsts]
      by_cases hy : t.yield = []
      · rw [if_pos (h2 hy), Nat.testBit_or, Bool.or_eq_true]
        refine .inr ?_
        rw [hy]
        refine h3 a la ?_
        rcases hne with hne | hne
        · left; rw [yields, hy] at hne; simpa using hne
        · exact .inr hne
      · have := h1 (look M (yields ts) a) hy
        split
        · rw [Nat.testBit_or, this]; rfl
        · exact this
    · rw [yields, List.append_eq_nil_iff] at he
      rcases List.mem_cons.1 hk with rfl | hk
      · exact h2 he.1
      · exact h4 he.2 k hk
end

mutual
/-- The tables read every tree of a shape, from the states and with the next tokens that are listed. -/
theorem Has.goes {i : Sh} {t : Tree Pr τ} (hc : check S M tms shs = true) (hs : ∀ i, i ∈ shs) (ht : ∀ a, a ∈ tms) (h : Has M S i t) {s la : Nat}
    (hx : (s, la) ∈ S.ctx i) {a : Tm} (ha : la.testBit (S.idx a) = true) : ∃ r, M.go s (S.sym i) = some r ∧ Goes M s t a r := by
  cases h with
  | mk hp hk =>
    rename_i p ks ts
    have h1 := List.all_eq_true.1 (List.all_eq_true.1 hc i (hs i)) _ hp
    simp only [checkAlt, Bool.and_eq_true, decide_eq_true_eq, beq_iff_eq] at h1
    obtain ⟨⟨⟨⟨hl, hlen⟩, _⟩, _⟩, hw⟩ := h1
    have hw := List.all_eq_true.1 hw _ hx
    simp only [Bool.and_eq_true] at hw
    obtain ⟨r, hr⟩ := Option.isSome_iff_exists.1 hw.1
    have hw := hw.2
    split at hw
    · next q hq =>
      have := List.all_eq_true.1 hw a (ht a)
      simp only [ha, Bool.not_true, Bool.false_or, decide_eq_true_eq] at this
      obtain ⟨hg, hlen2⟩ := HasL.goes hc hs ht hk hq ha
      exact ⟨r, hr, .node hg (hlen.trans hlen2) this (by rw [hl]; exact hr)⟩
    · cases hw
theorem HasL.goes {ks : List (Kid Tm Sh)} {ts : List (Tree Pr τ)} (hc : check S M tms shs = true) (hs : ∀ i, i ∈ shs) (ht : ∀ a, a ∈ tms) (h : HasL M S ks ts)
    {s q la : Nat} (hw : walk S M s ks la = some q) {a : Tm} (ha : la.testBit (S.idx a) = true) : GoesL M s ts a q ∧ ks.length = ts.length := by
  cases h with
  | nil =>
    simp only [walk, Option.some.injEq] at hw
    subst hw
    exact ⟨.nil, rfl⟩
  | tok hk h =>
    simp only [walk] at hw
    split at hw
    · next r hr =>
      obtain ⟨hg, hl⟩ := HasL.goes hc hs ht h hw ha
      exact ⟨.cons (.leaf (by rw [hk]; exact hr)) hg, by simp [hl]⟩
    · cases hw
  | sh hk h =>
    rename_i i t ks ts
    simp only [walk] at hw
    split at hw
    · next hany =>
      obtain ⟨c, hc1, hc2⟩ := List.any_eq_true.1 hany
      simp only [Bool.and_eq_true, beq_iff_eq] at hc2
      obtain ⟨rfl, hsub⟩ := hc2
      split at hw
      · next r hr =>
        obtain ⟨r', hr', hg'⟩ := Has.goes hc hs ht hk hc1 (a := look M (yields ts) a)
          (sub_testBit hsub ((HasL.first hc hs h).1 a la (.inr ha)))
        obtain ⟨hg, hl⟩ := HasL.goes hc hs ht h hw ha
        rw [hr] at hr'
        injection hr' with hr'
        subst hr'
        exact ⟨.cons hg' hg, by simp [hl]⟩
      · cases hw
    · cases hw
end

/-- Every tree of a shape that may begin in the first state and end with the tokens is what the driver returns. -/
theorem parses_complete {i : Sh} {t : Tree Pr τ} (hc : check S M tms shs = true) (hs : ∀ i, i ∈ shs) (ht : ∀ a, a ∈ tms) {la : Nat} (hx : (0, la) ∈ S.ctx i)
    (hla : la.testBit (S.idx M.eof) = true) (hacc : ∀ q, M.go 0 (S.sym i) = some q → M.act q M.eof = some .accept) (h : Has M S i t) :
    Parses M t.yield t := by
  obtain ⟨r, hr, hg⟩ := h.goes hc hs ht hx hla
  exact hg.parses (hacc r hr)

end

end Verif.Pretty.Lr
