import Verif.Py.Basic
/-!
# The string library (C37, string part of C33)

Models `titus/lib/pfastring.py` 40-173 and 310-405 (search, join, split, concat, repeat, strip,
replace, translate).  Strings are lists of characters.  Python's `str` methods are modelled by
their documented left-to-right scan.  `upper` and `lower` (Unicode tables) and the formatting of
doubles (`s.number`) are not modelled; `s.int` and `s.hex` are in `Lib/Num.lean`.
-/

namespace Verif.Lib.Str

variable {χ : Type _} [DecidableEq χ]

/-! ## Model -/

/-- `s.startswith(n)` (99-105). -/
def startsWith (s n : List χ) : Bool := n.isPrefixOf s
/-- `s.endswith(n)` (107-113). -/
def endsWith (s n : List χ) : Bool := n.isSuffixOf s

/-- `s.find(n)`: the scan for the first occurrence; `none` where `index` raises ValueError. -/
def find : List χ → List χ → Option Nat
  | [], n => if n.isPrefixOf [] then some 0 else none
  | c :: s, n => if n.isPrefixOf (c :: s) then some 0 else (find s n).map (· + 1)

/-- `s.rfind(n)`: the scan for the last occurrence. -/
def rfind : List χ → List χ → Option Nat
  | [], n => if n.isPrefixOf [] then some 0 else none
  | c :: s, n =>
    match rfind s n with
    | some i => some (i + 1)
    | none => if n.isPrefixOf (c :: s) then some 0 else none

/-- ValueError turned into -1 (75-97). -/
def orNeg : Option Nat → Int
  | some i => i
  | none => -1

/-- `s.contains` (57-62). -/
def contains (s n : List χ) : Bool := (find s n).isSome
/-- `s.index` (75-85). -/
def index (s n : List χ) : Int := orNeg (find s n)
/-- `s.rindex` (87-97). -/
def rindex (s n : List χ) : Int := orNeg (rfind s n)

/-- The scan of `s.split(sep)` for non-empty `sep`; each round consumes at least one character. -/
def splitLoop (sep : List χ) : Nat → List χ → List (List χ)
  | 0, s => [s]
  | fuel + 1, s =>
    match find s sep with
    | none => [s]
    | some i => s.take i :: splitLoop sep fuel (s.drop (i + sep.length))

/-- `s.split(sep)` for non-empty `sep`. -/
def pySplit (sep s : List χ) : List (List χ) := splitLoop sep s.length s

/-- `s.count` (64-73): non-overlapping occurrences. -/
def count (s n : List χ) : Nat := if s.length = 0 ∨ n.length = 0 then 0 else (pySplit n s).length - 1

/-- `sep.join(parts)` (117-122). -/
def join (sep : List χ) : List (List χ) → List χ
  | [] => []
  | [p] => p
  | p :: q :: ps => p ++ sep ++ join sep (q :: ps)

/-- `s.split` (124-132). -/
def split (s sep : List χ) : List (List χ) := if sep.length = 0 then [] else pySplit sep s

/-- `x + y` (310-315). -/
def concat (x y : List χ) : List χ := x ++ y

/-- `s * n` (317-322). -/
def repeat_ (s : List χ) (n : Int) : List χ := (List.replicate n.toNat s).flatten

/-- `s.lstrip(chars)` (338-343). -/
def lstrip (s chars : List χ) : List χ := s.dropWhile (fun c => decide (c ∈ chars))
/-- `s.rstrip(chars)` (345-350). -/
def rstrip (s chars : List χ) : List χ := ((s.reverse).dropWhile (fun c => decide (c ∈ chars))).reverse
/-- `s.strip(chars)` (352-357). -/
def strip (s chars : List χ) : List χ := rstrip (lstrip s chars) chars

/-- `s.replace(old, new)`. -/
def pyReplace (s old new : List χ) : List χ :=
  if old.length = 0 then new ++ s.flatMap (fun c => c :: new) else join new (pySplit old s)

/-- `s.replace(old, new, 1)`. -/
def pyReplace1 (s old new : List χ) : List χ :=
  match find s old with
  | none => s
  | some i => s.take i ++ new ++ s.drop (i + old.length)

/-- `s.replaceall` (359-364). -/
def replaceAll (s old new : List χ) : List χ := pyReplace s old new
/-- `s.replacefirst` (366-374). -/
def replaceFirst (s old new : List χ) : List χ :=
  if s.length > 0 then pyReplace1 s old new else pyReplace s old new
/-- `s.replacelast` (376-387). -/
def replaceLast (s old new : List χ) : List χ :=
  let backward := s.reverse
  let replaced := if s.length > 0 then pyReplace1 backward old.reverse new.reverse
    else pyReplace backward old.reverse new.reverse
  replaced.reverse

/-- `s.translate` (389-404). -/
def translate (oldchars newchars : List χ) : List χ → List χ
  | [] => []
  | c :: s =>
    match oldchars.findIdx? (fun x => decide (x = c)) with
    | none => c :: translate oldchars newchars s
    | some i =>
      match newchars[i]? with
      | some d => d :: translate oldchars newchars s
      | none => translate oldchars newchars s

/-! ## Specification -/

/-- `n` occurs in `s` after the prefix `p`, followed by `r`. -/
def Occ (s p n r : List χ) : Prop := s = p ++ n ++ r

/-- The first occurrence. -/
def First (s p n r : List χ) : Prop := Occ s p n r ∧ ∀ p' r', Occ s p' n r' → p.length ≤ p'.length

/-- The last occurrence. -/
def Last (s p n r : List χ) : Prop := Occ s p n r ∧ ∀ p' r', Occ s p' n r' → p'.length ≤ p.length

/-- The pieces of `s` between leftmost non-overlapping occurrences of `n`. -/
inductive Pieces (n : List χ) : List χ → List (List χ) → Prop
  | last {s} : (∀ p r, ¬ Occ s p n r) → Pieces n s [s]
  | cut {s p r ps} : First s p n r → Pieces n r ps → Pieces n s (p :: ps)

/-! ## Search -/

theorem find_some (s n : List χ) (i : Nat) (h : find s n = some i) :
    First s (s.take i) n (s.drop (i + n.length)) ∧ i ≤ s.length := by
  induction s generalizing i with
  | nil =>
    simp only [find] at h
    split at h
    · next hp =>
      cases h
      have : n = [] := by cases n with | nil => rfl | cons => simp at hp
      subst this
      exact ⟨⟨rfl, by simp⟩, by simp⟩
    · cases h
  | cons c s ih =>
    simp only [find] at h
    split at h
    · next hp =>
      cases h
      obtain ⟨r, hr⟩ := List.isPrefixOf_iff_prefix.1 hp
      refine ⟨⟨?_, by simp⟩, by simp⟩
      rw [Occ, ← hr]; simp
    · next hp =>
      obtain ⟨j, hj, rfl⟩ := Option.map_eq_some_iff.1 h
      obtain ⟨⟨h1, h2⟩, h3⟩ := ih j hj
      refine ⟨⟨?_, ?_⟩, by simp; omega⟩
      · rw [show j + 1 + n.length = (j + n.length) + 1 by omega]
        simp only [Occ, List.take_succ_cons, List.drop_succ_cons, List.cons_append]
        rw [← h1]
      · intro p' r' ho
        cases p' with
        | nil =>
          exfalso; apply hp
          rw [List.isPrefixOf_iff_prefix]
          exact ⟨r', by rw [ho]; simp⟩
        | cons d p' =>
          have : s = p' ++ n ++ r' := by
            have := List.cons.inj (by simpa [Occ] using ho)
            simpa using this.2
          have := h2 p' r' this
          simp only [List.take_succ_cons, List.length_cons]; omega

theorem find_none (s n : List χ) : find s n = none ↔ ∀ p r, ¬ Occ s p n r := by
  induction s with
  | nil =>
    simp only [find]
    constructor
    · intro h p r ho
      have : n = [] := by
        have := congrArg List.length ho
        simp only [List.length_nil, List.length_append] at this
        exact List.eq_nil_of_length_eq_zero (by omega)
      subst this; simp at h
    · intro h
      split
      · next hp =>
        have : n = [] := by cases n with | nil => rfl | cons => simp at hp
        subst this; exact absurd rfl (h [] [])
      · rfl
  | cons c s ih =>
    simp only [find]
    split
    · next hp =>
      obtain ⟨r, hr⟩ := List.isPrefixOf_iff_prefix.1 hp
      simp only [reduceCtorEq, false_iff, not_forall, not_not]
      exact ⟨[], r, by simpa [Occ] using hr.symm⟩
    · next hp =>
      rw [Option.map_eq_none_iff, ih]
      constructor
      · intro h p r ho
        cases p with
        | nil => apply hp; rw [List.isPrefixOf_iff_prefix]; exact ⟨r, by rw [ho]; simp⟩
        | cons d p =>
          have := List.cons.inj (by simpa [Occ] using ho)
          exact h p r (by simpa [Occ] using this.2)
      · intro h p r ho
        exact h (c :: p) r (by rw [Occ] at *; simp [ho])

theorem rfind_spec (s n : List χ) :
    (rfind s n = none ↔ ∀ p r, ¬ Occ s p n r) ∧
    ∀ i, rfind s n = some i → Last s (s.take i) n (s.drop (i + n.length)) ∧ i ≤ s.length := by
  induction s with
  | nil =>
    simp only [rfind]
    by_cases hn : n = []
    · subst hn
      refine ⟨by simpa using ⟨[], [], rfl⟩, ?_⟩
      intro i hi
      cases hi
      refine ⟨⟨rfl, ?_⟩, by simp⟩
      intro p' r' ho
      have := congrArg List.length ho
      simp only [List.length_nil, List.length_append] at this
      simp only [List.take_nil, List.length_nil]; omega
    · have : n.isPrefixOf [] = false := by cases n with | nil => exact absurd rfl hn | cons => rfl
      rw [this]
      simp only [Bool.false_eq_true, if_false, true_iff, reduceCtorEq, false_implies, implies_true, and_true]
      intro p r ho
      have := congrArg List.length ho
      simp only [List.length_nil, List.length_append] at this
      exact hn (List.eq_nil_of_length_eq_zero (by omega))
  | cons c s ih =>
    obtain ⟨ih1, ih2⟩ := ih
    have tl : ∀ d p r, Occ (c :: s) (d :: p) n r → Occ s p n r := by
      intro d p r ho
      have := List.cons.inj (by simpa [Occ] using ho)
      simpa [Occ] using this.2
    simp only [rfind]
    cases hr : rfind s n with
    | some i =>
      obtain ⟨⟨h1, h2⟩, h3⟩ := ih2 i hr
      have hocc : Occ (c :: s) ((c :: s).take (i + 1)) n ((c :: s).drop (i + 1 + n.length)) := by
        rw [show i + 1 + n.length = (i + n.length) + 1 by omega]
        simp only [Occ, List.take_succ_cons, List.drop_succ_cons, List.cons_append]
        rw [← h1]
      refine ⟨?_, ?_⟩
      · simp only [reduceCtorEq, false_iff, not_forall, not_not]
        exact ⟨_, _, hocc⟩
      · rintro _ ⟨⟩
        refine ⟨⟨hocc, ?_⟩, by simp; omega⟩
        intro p' r' ho
        cases p' with
        | nil => simp
        | cons d p' =>
          have := h2 p' r' (tl d p' r' ho)
          simp only [List.take_succ_cons, List.length_cons]; omega
    | none =>
      have hno := ih1.1 hr
      by_cases hp : n.isPrefixOf (c :: s) = true
      · obtain ⟨r, hr'⟩ := List.isPrefixOf_iff_prefix.1 hp
        have hocc : Occ (c :: s) [] n r := by simpa [Occ] using hr'.symm
        simp only [hp, if_true]
        refine ⟨?_, ?_⟩
        · simp only [reduceCtorEq, false_iff, not_forall, not_not]; exact ⟨_, _, hocc⟩
        · rintro _ ⟨⟩
          refine ⟨⟨?_, ?_⟩, by simp⟩
          · rw [Occ, ← hr']; simp
          · intro p' r' ho
            cases p' with
            | nil => simp
            | cons d p' => exact absurd (tl d p' r' ho) (hno _ _)
      · simp only [hp]
        refine ⟨?_, by simp⟩
        simp only [Bool.false_eq_true, if_false, true_iff]
        intro p r ho
        cases p with
        | nil => apply hp; rw [List.isPrefixOf_iff_prefix]; exact ⟨r, by rw [ho]; simp⟩
        | cons d p => exact hno _ _ (tl d p r ho)

/-- `s.contains`, `s.index`, `s.rindex`, `s.startswith`, `s.endswith`. -/
theorem string_search (s n : List χ) :
    (contains s n = true ↔ ∃ p r, Occ s p n r) ∧
    ((index s n = -1 ∧ contains s n = false) ∨ ∃ p r, First s p n r ∧ index s n = p.length) ∧
    ((rindex s n = -1 ∧ contains s n = false) ∨ ∃ p r, Last s p n r ∧ rindex s n = p.length) ∧
    (startsWith s n = true ↔ ∃ r, Occ s [] n r) ∧ (endsWith s n = true ↔ ∃ p, Occ s p n []) := by
  have hc : contains s n = true ↔ ∃ p r, Occ s p n r := by
    rw [contains, ← not_iff_not]
    have := find_none s n
    simp only [Bool.not_eq_true, Option.isSome_eq_false_iff, Option.isNone_iff_eq_none]
    rw [this]; push_neg; rfl
  refine ⟨hc, ?_, ?_, ?_, ?_⟩
  · unfold index contains
    cases h : find s n with
    | none => exact .inl ⟨rfl, rfl⟩
    | some i =>
      obtain ⟨h1, h2⟩ := find_some s n i h
      exact .inr ⟨_, _, h1, by simp [orNeg, h2]⟩
  · unfold rindex
    cases h : rfind s n with
    | none =>
      refine .inl ⟨rfl, ?_⟩
      rw [← Bool.not_eq_true, hc]
      rintro ⟨p, r, ho⟩
      exact (rfind_spec s n).1.1 h p r ho
    | some i =>
      obtain ⟨h1, h2⟩ := (rfind_spec s n).2 i h
      exact .inr ⟨_, _, h1, by simp [orNeg, h2]⟩
  · rw [startsWith, List.isPrefixOf_iff_prefix]
    exact ⟨fun ⟨r, h⟩ => ⟨r, by simp [Occ, h]⟩, fun ⟨r, h⟩ => ⟨r, by rw [h]; simp⟩⟩
  · rw [endsWith, List.isSuffixOf_iff_suffix]
    exact ⟨fun ⟨r, h⟩ => ⟨r, by simp [Occ, h]⟩, fun ⟨r, h⟩ => ⟨r, by rw [h]; simp⟩⟩

/-! ## split, join, count -/

theorem splitLoop_pieces (sep : List χ) (hs : sep ≠ []) (fuel : Nat) (s : List χ)
    (hf : s.length ≤ fuel) : Pieces sep s (splitLoop sep fuel s) := by
  have hlen : 0 < sep.length := List.length_pos_of_ne_nil hs
  induction fuel generalizing s with
  | zero =>
    have : s = [] := List.eq_nil_of_length_eq_zero (by omega)
    subst this
    refine .last ?_
    intro p r ho
    have := congrArg List.length ho; simp at this; omega
  | succ fuel ih =>
    simp only [splitLoop]
    cases h : find s sep with
    | none => exact .last ((find_none s sep).1 h)
    | some i =>
      obtain ⟨h1, h2⟩ := find_some s sep i h
      refine .cut h1 (ih _ ?_)
      have := congrArg List.length h1.1
      simp only [List.length_append, List.length_take, List.length_drop] at this ⊢
      omega

/-- `s.split`: the pieces between leftmost occurrences of the separator. -/
theorem split_pieces (s sep : List χ) (hs : sep ≠ []) : Pieces sep s (split s sep) := by
  have : sep.length ≠ 0 := by simpa using hs
  rw [split, if_neg this]
  exact splitLoop_pieces sep hs _ s (Nat.le_refl _)

theorem Pieces.ne_nil {n s : List χ} {ps : List (List χ)} (h : Pieces n s ps) : ps ≠ [] := by
  cases h <;> simp

theorem join_cons (sep p : List χ) (ps : List (List χ)) (h : ps ≠ []) :
    join sep (p :: ps) = p ++ sep ++ join sep ps := by
  cases ps with
  | nil => exact absurd rfl h
  | cons q ps => rfl

theorem Pieces.join_eq {n s : List χ} {ps : List (List χ)} (h : Pieces n s ps) : join n ps = s := by
  induction h with
  | last _ => rfl
  | cut h1 h2 ih => rw [join_cons _ _ _ h2.ne_nil, ih]; exact h1.1.symm

theorem First.no_occ {s p n r : List χ} (hn : n ≠ []) (h : First s p n r) : ∀ p' r', ¬ Occ p p' n r' := by
  intro p' r' ho
  have hlen : 0 < n.length := List.length_pos_of_ne_nil hn
  have := h.2 p' (r' ++ n ++ r) (by rw [Occ, h.1, ho]; simp)
  have hl := congrArg List.length ho
  simp only [List.length_append] at hl
  omega

theorem Pieces.no_occ {n s : List χ} (hn : n ≠ []) {ps : List (List χ)} (h : Pieces n s ps) :
    ∀ q ∈ ps, ∀ p r, ¬ Occ q p n r := by
  induction h with
  | last h => intro q hq; rw [List.mem_singleton.1 hq]; exact h
  | cut h1 h2 ih =>
    intro q hq
    rcases List.mem_cons.1 hq with rfl | hq
    · exact h1.no_occ hn
    · exact ih q hq

/-- `s.join` inverts `s.split`, and no piece contains the separator. -/
theorem join_split (s sep : List χ) (hs : sep ≠ []) :
    join sep (split s sep) = s ∧ ∀ q ∈ split s sep, ∀ p r, ¬ Occ q p sep r :=
  ⟨(split_pieces s sep hs).join_eq, (split_pieces s sep hs).no_occ hs⟩

/-- With an empty separator `s.split` returns no piece, so joining does not give the string back. -/
theorem split_empty_violation : join ([] : List Char) (split ['a', 'b'] []) ≠ ['a', 'b'] := by decide

/-- Joining pieces that do not contain the first character of the separator can be undone by
splitting. -/
theorem split_join (c : χ) (sep : List χ) (ps : List (List χ)) (hne : ps ≠ []) (h : ∀ p ∈ ps, c ∉ p) :
    split (join (c :: sep) ps) (c :: sep) = ps := by
  have unique : ∀ {s : List χ} {ps qs : List (List χ)}, Pieces (c :: sep) s ps → Pieces (c :: sep) s qs → ps = qs := by
    intro s ps qs h1
    induction h1 generalizing qs with
    | last h => intro h2; cases h2 with
      | last _ => rfl
      | cut h1 _ => exact absurd h1.1 (h _ _)
    | cut h1 _ ih => intro h2; cases h2 with
      | last h => exact absurd h1.1 (h _ _)
      | @cut _ p' r' ps' h1' h2' =>
        have hl : ∀ {s p n r p' r' : List χ}, First s p n r → First s p' n r' → p = p' ∧ r = r' := by
          intro s p n r p' r' a b
          have hlen : p.length = p'.length := Nat.le_antisymm (a.2 _ _ b.1) (b.2 _ _ a.1)
          have he : p ++ (n ++ r) = p' ++ (n ++ r') := by
            rw [← List.append_assoc, ← List.append_assoc]; exact a.1.symm.trans b.1
          obtain ⟨e1, e2⟩ := List.append_inj he hlen
          exact ⟨e1, List.append_cancel_left e2⟩
        obtain ⟨rfl, rfl⟩ := hl h1 h1'
        rw [ih h2']
  refine unique (split_pieces _ _ (by simp)) ?_
  clear unique
  induction ps with
  | nil => exact absurd rfl hne
  | cons p ps ih =>
    have hp := h p (by simp)
    cases ps with
    | nil =>
      refine .last ?_
      intro p' r ho
      apply hp
      change c ∈ p
      rw [show p = p' ++ (c :: sep) ++ r from ho]; simp
    | cons q ps =>
      rw [join_cons _ _ _ (by simp)]
      refine .cut ⟨rfl, ?_⟩ (ih (by simp) (fun p' h' => h p' (by simp [h'])))
      intro p' r' ho
      by_contra hlt
      have hlt : p'.length < p.length := Nat.lt_of_not_ge hlt
      have e1 := congrArg (fun l => l[p'.length]?) ho
      simp only [List.append_assoc, List.getElem?_append_left hlt] at e1
      simp only [List.getElem?_append_right (Nat.le_refl _), Nat.sub_self, List.cons_append,
        List.getElem?_cons_zero] at e1
      exact hp (List.mem_of_getElem? e1)

/-- `s.count` counts non-overlapping occurrences: cutting the string at occurrences of the needle
gives at most `count + 1` pieces, and that many are possible. -/
theorem count_max (s n : List χ) (hn : n ≠ []) :
    (∃ ps : List (List χ), ps.length = count s n + 1 ∧ join n ps = s) ∧
    ∀ qs : List (List χ), qs ≠ [] → join n qs = s → qs.length ≤ count s n + 1 := by
  have hn' : n.length ≠ 0 := by simpa using hn
  have hpc := splitLoop_pieces n hn s.length s (Nat.le_refl _)
  have hcount : count s n + 1 = (pySplit n s).length := by
    have hpos : 0 < (pySplit n s).length := List.length_pos_of_ne_nil hpc.ne_nil
    unfold count
    by_cases hs : s.length = 0
    · rw [if_pos (.inl hs)]
      have : s = [] := List.eq_nil_of_length_eq_zero hs
      subst this; simp [pySplit, splitLoop]
    · rw [if_neg (by simp only [not_or]; exact ⟨hs, hn'⟩)]; omega
  rw [hcount]
  refine ⟨⟨_, rfl, hpc.join_eq⟩, ?_⟩
  change Pieces n s (pySplit n s) at hpc
  generalize pySplit n s = ps at hpc
  clear hcount
  induction hpc with
  | last h =>
    intro qs hq he
    match qs, hq with
    | [q], _ => simp
    | q :: q' :: qs, _ =>
      rw [join_cons _ _ _ (by simp)] at he
      exact absurd he.symm (h _ _)
  | @cut s p r ps h1 h2 ih =>
    intro qs hq he
    match qs, hq with
    | [q], _ => simp
    | q :: q' :: qs, _ =>
      rw [join_cons _ _ _ (by simp)] at he
      have hle := h1.2 q _ he.symm
      have e : p ++ (n ++ r) = q ++ (n ++ join n (q' :: qs)) := by
        rw [← List.append_assoc, ← List.append_assoc]; exact h1.1.symm.trans he.symm
      have hlen := congrArg List.length e
      simp only [List.length_append] at hlen
      -- the rest after the later cut is a suffix of the rest after the first cut
      have hsuf : join n (q' :: qs) <:+ r := by
        have s1 : r <:+ s := ⟨p ++ n, h1.1.symm⟩
        have s2 : join n (q' :: qs) <:+ s := ⟨q ++ n, he⟩
        exact List.suffix_of_suffix_length_le s2 s1 (by omega)
      obtain ⟨w, hw⟩ := hsuf
      have hj : join n ((w ++ q') :: qs) = r := by
        rw [← hw]
        cases qs with
        | nil => rfl
        | cons a b =>
          rw [join_cons n (w ++ q') (a :: b) (by simp), join_cons n q' (a :: b) (by simp)]; simp
      have := ih ((w ++ q') :: qs) (by simp) hj
      simp only [List.length_cons] at this ⊢; omega

theorem count_edge (s : List χ) : count s [] = 0 ∧ count [] s = 0 := by simp [count]

/-! ## replace -/

theorem occ_across (u v n : List χ) (c : χ) (hc : c ∉ n) (hn : n ≠ []) (p r : List χ)
    (h : Occ (u ++ c :: v) p n r) : (∃ p r, Occ u p n r) ∨ ∃ p r, Occ v p n r := by
  rw [Occ, List.append_assoc] at h
  rcases List.append_eq_append_iff.1 h with ⟨w, h1, h2⟩ | ⟨w, h1, h2⟩
  · cases w with
    | nil =>
      cases n with
      | nil => exact absurd rfl hn
      | cons x n => simp only [List.nil_append, List.cons_append, List.cons.injEq] at h2; simp [h2.1] at hc
    | cons d w =>
      simp only [List.cons_append, List.cons.injEq] at h2
      exact .inr ⟨w, r, by rw [Occ, h2.2]; simp⟩
  · rcases List.append_eq_append_iff.1 h2 with ⟨w', h3, h4⟩ | ⟨w', h3, h4⟩
    · exact .inl ⟨p, w', by rw [Occ, h1, h3]; simp⟩
    · cases w' with
      | nil => exact .inl ⟨p, [], by rw [Occ, h1, h3]; simp⟩
      | cons d w' =>
        simp only [List.cons_append, List.cons.injEq] at h4
        exact absurd (by rw [h3]; simp [h4.1]) hc

/-- `s.replaceall`: every piece between leftmost occurrences is kept, every occurrence is replaced. -/
theorem replaceAll_spec (s old new : List χ) (ho : old ≠ []) :
    ∃ ps, Pieces old s ps ∧ replaceAll s old new = join new ps := by
  refine ⟨pySplit old s, splitLoop_pieces old ho _ s (Nat.le_refl _), ?_⟩
  have : old.length ≠ 0 := by simpa using ho
  rw [replaceAll, pyReplace, if_neg this]

/-- With a replacement that shares no character with the original, no occurrence is left. -/
theorem replaceAll_fresh (s old new : List χ) (ho : old ≠ []) (hn : new ≠ []) (hd : ∀ c ∈ new, c ∉ old) :
    ∀ p r, ¬ Occ (replaceAll s old new) p old r := by
  obtain ⟨ps, hp, he⟩ := replaceAll_spec s old new ho
  rw [he]
  have hno := hp.no_occ ho
  clear he hp
  have pass : ∀ (new v : List χ), (∀ c ∈ new, c ∉ old) → (∃ p r, Occ (new ++ v) p old r) → ∃ p r, Occ v p old r := by
    intro new
    induction new with
    | nil => intro v _ h; simpa using h
    | cons c new ih =>
      rintro v hd ⟨p, r, h⟩
      rcases occ_across [] (new ++ v) old c (hd c (by simp)) ho p r (by simpa using h) with ⟨p, r, h⟩ | h
      · exfalso
        have := congrArg List.length h
        simp only [List.length_nil, List.length_append] at this
        exact ho (List.eq_nil_of_length_eq_zero (by omega))
      · exact ih v (fun c hc => hd c (by simp [hc])) h
  intro p r h
  induction ps generalizing p r with
  | nil =>
    have := congrArg List.length h
    simp only [join, List.length_nil, List.length_append] at this
    exact ho (List.eq_nil_of_length_eq_zero (by omega))
  | cons q ps ih =>
    cases ps with
    | nil => exact hno q (by simp) p r h
    | cons q' ps =>
      rw [join_cons _ _ _ (by simp)] at h
      obtain ⟨c, new', rfl⟩ := List.exists_cons_of_ne_nil hn
      rw [List.append_assoc, List.cons_append] at h
      rcases occ_across q _ old c (hd c (by simp)) ho p r h with ⟨p, r, h⟩ | h
      · exact hno q (by simp) p r h
      · obtain ⟨p, r, h⟩ := pass new' _ (fun c hc => hd c (by simp [hc])) h
        exact ih (fun q hq => hno q (by simp [hq])) p r h

/-- Freshness is needed: deleting "ab" from "aabb" leaves an "ab". -/
theorem replaceAll_delete_leaves : replaceAll ['a', 'a', 'b', 'b'] ['a', 'b'] [] = ['a', 'b'] := by decide

/-- An empty original: the replacement goes in front of every character and at the end. -/
theorem replaceAll_empty (s new : List χ) :
    replaceAll s [] new = new ++ (s.map (fun c => c :: new)).flatten := by
  simp [replaceAll, pyReplace, List.flatMap_def]

theorem pyReplace1_spec (s old new : List χ) :
    ((∀ p r, ¬ Occ s p old r) → pyReplace1 s old new = s) ∧
    (∀ p r, First s p old r → pyReplace1 s old new = p ++ new ++ r) := by
  constructor
  · intro h; rw [pyReplace1, (find_none s old).2 h]
  · intro p r h
    cases hf : find s old with
    | none => exact absurd h.1 ((find_none s old).1 hf p r)
    | some i =>
      obtain ⟨h1, h2⟩ := find_some s old i hf
      have hl : (s.take i).length = p.length := Nat.le_antisymm (h1.2 _ _ h.1) (h.2 _ _ h1.1)
      have e : s.take i ++ (old ++ s.drop (i + old.length)) = p ++ (old ++ r) := by
        rw [← List.append_assoc, ← List.append_assoc]; exact h1.1.symm.trans h.1
      obtain ⟨e1, e2⟩ := List.append_inj e hl
      rw [pyReplace1, hf]
      simp only
      rw [e1, List.append_cancel_left e2]

/-- `s.replacefirst` changes exactly the first occurrence. -/
theorem replaceFirst_spec (s old new : List χ) (h : s ≠ [] ∨ old ≠ []) :
    ((∀ p r, ¬ Occ s p old r) → replaceFirst s old new = s) ∧
    (∀ p r, First s p old r → replaceFirst s old new = p ++ new ++ r) := by
  unfold replaceFirst
  by_cases hs : s.length > 0
  · rw [if_pos hs]; exact pyReplace1_spec s old new
  · rw [if_neg hs]
    have hs' : s = [] := List.eq_nil_of_length_eq_zero (by omega)
    subst hs'
    have ho : old ≠ [] := h.resolve_left (fun h => h rfl)
    have ho' : old.length ≠ 0 := by simpa using ho
    refine ⟨fun _ => by simp [pyReplace, ho, pySplit, splitLoop, join], ?_⟩
    intro p r hf
    have := congrArg List.length hf.1
    simp only [List.length_nil, List.length_append] at this
    omega

/-- `s.replacelast` changes exactly the last occurrence. -/
theorem replaceLast_spec (s old new : List χ) (h : s ≠ [] ∨ old ≠ []) :
    ((∀ p r, ¬ Occ s p old r) → replaceLast s old new = s) ∧
    (∀ p r, Last s p old r → replaceLast s old new = p ++ new ++ r) := by
  have heq : replaceLast s old new = (replaceFirst s.reverse old.reverse new.reverse).reverse := by
    simp only [replaceLast, replaceFirst, List.length_reverse]
  have hrev : ∀ p r, Occ s.reverse p old.reverse r ↔ Occ s r.reverse old p.reverse := by
    intro p r
    unfold Occ
    constructor
    · intro h
      have := congrArg List.reverse h
      simpa using this
    · intro h
      have := congrArg List.reverse h
      simpa using this
  obtain ⟨h1, h2⟩ := replaceFirst_spec s.reverse old.reverse new.reverse (by simpa using h)
  rw [heq]
  constructor
  · intro hno
    rw [h1 (fun p r ho => hno _ _ ((hrev p r).1 ho))]; simp
  · intro p r hl
    rw [h2 r.reverse p.reverse ⟨(hrev _ _).2 (by simpa using hl.1), ?_⟩]
    · simp
    · intro p' r' ho
      have ho' := (hrev _ _).1 ho
      have hle := hl.2 _ _ ho'
      have e1 := congrArg List.length hl.1
      have e2 := congrArg List.length ho'
      simp only [List.length_append, List.length_reverse] at e1 e2 hle ⊢
      omega

/-- Empty string, empty original: the replacement itself. -/
theorem replace_empty_empty (new : List χ) :
    replaceFirst [] [] new = new ∧ replaceLast [] [] new = new ∧ replaceAll [] [] new = new := by
  simp [replaceFirst, replaceLast, replaceAll, pyReplace]

/-! ## strip, translate, repeat -/

theorem lstrip_spec (s chars : List χ) :
    ∃ pre, s = pre ++ lstrip s chars ∧ (∀ c ∈ pre, c ∈ chars) ∧
      ∀ c t, lstrip s chars = c :: t → c ∉ chars := by
  refine ⟨s.takeWhile (fun c => decide (c ∈ chars)), (List.takeWhile_append_dropWhile).symm, ?_, ?_⟩
  · intro c hc
    have := List.all_takeWhile (p := fun c => decide (c ∈ chars)) (l := s)
    simpa using List.all_eq_true.1 this c hc
  · intro c t h
    have := List.head?_dropWhile_not (fun c => decide (c ∈ chars)) s
    rw [← lstrip, h] at this
    simpa using this

theorem rstrip_spec (s chars : List χ) :
    ∃ post, s = rstrip s chars ++ post ∧ (∀ c ∈ post, c ∈ chars) ∧
      ∀ t c, rstrip s chars = t ++ [c] → c ∉ chars := by
  obtain ⟨pre, h1, h2, h3⟩ := lstrip_spec s.reverse chars
  refine ⟨pre.reverse, ?_, by simpa using h2, ?_⟩
  · have := congrArg List.reverse h1
    simpa [rstrip, lstrip] using this
  · intro t c h
    refine h3 c t.reverse ?_
    have := congrArg List.reverse h
    simpa [rstrip, lstrip] using this

/-- `s.strip`: removes a prefix and a suffix of characters of the set; what is left neither starts
nor ends with one. -/
theorem strip_spec (s chars : List χ) :
    ∃ pre post, s = pre ++ strip s chars ++ post ∧ (∀ c ∈ pre ++ post, c ∈ chars) ∧
      (∀ c t, strip s chars = c :: t → c ∉ chars) ∧ (∀ t c, strip s chars = t ++ [c] → c ∉ chars) := by
  obtain ⟨pre, h1, h2, h3⟩ := lstrip_spec s chars
  obtain ⟨post, h4, h5, h6⟩ := rstrip_spec (lstrip s chars) chars
  refine ⟨pre, post, ?_, ?_, ?_, h6⟩
  · rw [strip, List.append_assoc, ← h4, ← h1]
  · intro c hc
    rcases List.mem_append.1 hc with h | h
    · exact h2 c h
    · exact h5 c h
  · intro c t h
    refine h3 c (t ++ post) ?_
    rw [h4]
    change strip s chars ++ post = _
    rw [h]; rfl

/-- What `s.translate` does to one character: kept when not listed; replaced by the character at
the place of its first listing; dropped when there is none. -/
inductive Translates (oldchars newchars : List χ) (c : χ) : List χ → Prop
  | keep : c ∉ oldchars → Translates oldchars newchars c [c]
  | repl {pre post d} : oldchars = pre ++ c :: post → c ∉ pre → newchars[pre.length]? = some d →
      Translates oldchars newchars c [d]
  | drop {pre post} : oldchars = pre ++ c :: post → c ∉ pre → newchars.length ≤ pre.length →
      Translates oldchars newchars c []

/-- `s.translate` works character by character. -/
theorem translate_spec (oldchars newchars s : List χ) :
    ∃ ys : List (List χ), translate oldchars newchars s = ys.flatten ∧ ys.length = s.length ∧
      ∀ q ∈ s.zip ys, Translates oldchars newchars q.1 q.2 := by
  induction s with
  | nil => exact ⟨[], rfl, rfl, by simp⟩
  | cons c s ih =>
    obtain ⟨ys, h1, h2, h3⟩ := ih
    simp only [translate]
    have step : ∀ y, Translates oldchars newchars c y →
        ∃ zs : List (List χ), y ++ translate oldchars newchars s = zs.flatten ∧ zs.length = (c :: s).length ∧
          ∀ q ∈ (c :: s).zip zs, Translates oldchars newchars q.1 q.2 := by
      intro y hy
      refine ⟨y :: ys, by simp [h1], by simp [h2], ?_⟩
      intro q hq
      simp only [List.zip_cons_cons, List.mem_cons] at hq
      rcases hq with rfl | hq
      · exact hy
      · exact h3 q hq
    cases hf : oldchars.findIdx? (fun x => decide (x = c)) with
    | none =>
      refine step [c] (.keep ?_)
      intro hc
      simpa using List.findIdx?_eq_none_iff.1 hf c hc
    | some i =>
      obtain ⟨hi, hx, hlt⟩ := List.findIdx?_eq_some_iff_getElem.1 hf
      have hx' : oldchars[i] = c := by simpa using hx
      have hdec : oldchars = oldchars.take i ++ c :: oldchars.drop (i + 1) := by
        conv_lhs => rw [← List.take_append_drop i oldchars, List.drop_eq_getElem_cons hi, hx']
      have hni : c ∉ oldchars.take i := by
        intro hc
        obtain ⟨j, hj, he⟩ := List.mem_iff_getElem.1 hc
        have hj' : j < i := by simp at hj; omega
        have := hlt j hj'
        simp only [List.getElem_take] at he
        simp [he] at this
      have hlen : (oldchars.take i).length = i := by simp; omega
      cases hd : newchars[i]? with
      | some d =>
        simp only [hd]
        exact step [d] (.repl hdec hni (by rw [hlen]; exact hd))
      | none =>
        simp only [hd]
        exact step [] (.drop hdec hni (by rw [hlen]; exact List.getElem?_eq_none_iff.1 hd))

theorem translates_functional (oldchars newchars : List χ) (c : χ) (a b : List χ)
    (ha : Translates oldchars newchars c a) (hb : Translates oldchars newchars c b) : a = b := by
  have key : ∀ {pre post pre' post' : List χ}, oldchars = pre ++ c :: post → c ∉ pre →
      oldchars = pre' ++ c :: post' → c ∉ pre' → pre.length = pre'.length := by
    intro pre post pre' post' h1 h2 h3 h4
    have e := h1.symm.trans h3
    rcases List.append_eq_append_iff.1 e with ⟨w, h5, h6⟩ | ⟨w, h5, h6⟩
    · cases w with
      | nil => simp [h5]
      | cons x w =>
        simp only [List.cons_append, List.cons.injEq] at h6
        exact absurd (by rw [h5, ← h6.1]; simp) h4
    · cases w with
      | nil => simp [h5]
      | cons x w =>
        simp only [List.cons_append, List.cons.injEq] at h6
        exact absurd (by rw [h5, ← h6.1]; simp) h2
  cases ha with
  | keep h => cases hb with
    | keep _ => rfl
    | repl h1 _ _ => exact absurd (by rw [h1]; simp) h
    | drop h1 _ _ => exact absurd (by rw [h1]; simp) h
  | repl h1 h2 h3 => cases hb with
    | keep h => exact absurd (by rw [h1]; simp) h
    | repl h1' h2' h3' => rw [key h1' h2' h1 h2, h3] at h3'; cases h3'; rfl
    | drop h1' h2' h3' =>
      rw [key h1' h2' h1 h2] at h3'
      rw [List.getElem?_eq_none_iff.2 h3'] at h3; cases h3
  | drop h1 h2 h3 => cases hb with
    | keep h => exact absurd (by rw [h1]; simp) h
    | repl h1' h2' h3' =>
      rw [key h1' h2' h1 h2] at h3'
      rw [List.getElem?_eq_none_iff.2 h3] at h3'; cases h3'
    | drop _ _ _ => rfl

/-- `s.repeat`: that many copies; none for a negative number. -/
theorem repeat_spec (s : List χ) (n : Nat) (m : Int) (hm : m < 0) :
    repeat_ s 0 = [] ∧ repeat_ s (n + 1) = s ++ repeat_ s n ∧ repeat_ s m = [] := by
  refine ⟨rfl, ?_, ?_⟩
  · have : ((n : Int) + 1).toNat = n + 1 := by omega
    simp [repeat_, this, List.replicate_succ]
  · simp [repeat_, Int.toNat_of_nonpos (by omega : m ≤ 0)]

/-! ### Non-vacuity -/

example : index "banana".toList "ana".toList = 1 ∧ rindex "banana".toList "ana".toList = 3 ∧
    count "banana".toList "ana".toList = 1 := by decide
example : split "a, b, c".toList ", ".toList = ["a".toList, "b".toList, "c".toList] := by decide
example : replaceAll "hello".toList "l".toList "LL".toList = "heLLLLo".toList := by decide
example : replaceFirst "hello".toList "l".toList "L".toList = "heLlo".toList := by decide
example : replaceLast "hello".toList "l".toList "L".toList = "helLo".toList := by decide
example : translate "aeiou".toList "AE".toList "sequoia".toList = "sEqA".toList := by decide
example : strip " --x y-- ".toList " -".toList = "x y".toList := by decide
example : Pieces "aa".toList "aaa".toList ["".toList, "a".toList] := by
  have := split_pieces "aaa".toList "aa".toList (by decide); exact this

end Verif.Lib.Str
