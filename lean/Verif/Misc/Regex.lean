import Verif.Misc.Bytes
import Verif.Score.Link
/-! # Regular expressions (`titus/lib/regex.py`)

The library calls `regcomp` and `regexec` of the C library through `ctypes`. What a pattern matches is not modelled: `Exec` is an
arbitrary function from a text to the first match. Modelled is everything the Python code does around it: the conversion of the
arguments, the end of a C string at its first zero, the position the next search starts from, the array of groups that keeps its old
contents when a search fails, and the loops. A loop that does not end is `none` for every amount of fuel. Not modelled: memory
management, and the layout of the structures on macOS. -/

namespace Verif.Misc
open Verif.Score (evalAll)

/-! ## Model -/

/-- `regmatch_t` of the whole match and of the groups, relative to the text searched; `none` is the pair of -1. -/
structure Hit where
  beg : Nat
  stop : Nat
  groups : List (Option (Nat × Nat))
  deriving DecidableEq

/-- `regexec` with a compiled pattern. -/
abbrev Exec := List Nat → Option Hit

/-- `regex_t` with `re_nsub`. -/
structure Compiled where
  nsub : Nat
  exec : Exec

/-- The attributes `groupArray` and `indexOffset` of `Regexer` (128-131). -/
structure Rx where
  hit : Hit
  offset : Nat

/-- `ctypes` fills the array with zeros. -/
def Rx.init (c : Compiled) : Rx := ⟨⟨0, 0, List.replicate c.nsub (some (0, 0))⟩, 0⟩

/-- What a C function sees of a Python `bytes`. -/
def cstr (t : List Nat) : List Nat := t.takeWhile (fun b => decide (b ≠ 0))

/-- `Regexer.search` (133-140): a failed `regexec` leaves the array as it was. -/
def search (x : Exec) (h : List Nat) (start : Nat) (s : Rx) : Bool × Rx :=
  match x (cstr (h.drop start)) with
  | none => (false, { s with offset := start })
  | some m => (decide (start < h.length), ⟨m, start⟩)

/-- `Region` (158-167) as pairs of `beg` and `end`; `groupsFound` (142-148) is their number. -/
def region (s : Rx) : List (Nat × Nat) :=
  ((some (s.hit.beg, s.hit.stop) :: s.hit.groups).filterMap id).map fun p => (p.1 + s.offset, p.2 + s.offset)

/-- `region.beg[0]` and `region.end[0]`: the whole match is always there. -/
def first (r : List (Nat × Nat)) : Nat × Nat := r.headD (0, 0)

/-- `while found: region = re.getRegion(); ...; start = region.end[0]; found = re.search(start)`. -/
def loop {σ : Type} (x : Exec) (h : List Nat) (f : List (Nat × Nat) → σ → Res σ) : Nat → Bool × Rx → σ → Option (Res σ)
  | 0, _, _ => none
  | _ + 1, (false, _), a => some (.ok a)
  | n + 1, (true, s), a => match f (region s) a with
    | .error e => some (.error e)
    | .ok a' => loop x h f n (search x h (first (region s)).2 s) a'

/-- `haystack[b:e]`. -/
def slice (h : List Nat) (p : Nat × Nat) : List Nat := (h.drop p.1).take (p.2 - p.1)

/-- `re.index` (203-212). -/
def reIndex (c : Compiled) (h : List Nat) : List Nat :=
  let q := search c.exec h 0 (Rx.init c)
  if q.1 then [(first (region q.2)).1, (first (region q.2)).2] else []

/-- `re.contains` (221-226). -/
def reContains (c : Compiled) (h : List Nat) : Bool := (search c.exec h 0 (Rx.init c)).1

/-- `re.count` (235-248). -/
def reCount (c : Compiled) (h : List Nat) (fuel : Nat) : Option (Res Nat) :=
  loop c.exec h (fun _ n => .ok (n + 1)) fuel (search c.exec h 0 (Rx.init c)) 0

/-- `re.rindex` (257-272). -/
def reRindex (c : Compiled) (h : List Nat) (fuel : Nat) : Option (Res (List Nat)) :=
  loop c.exec h (fun r _ => .ok [(first r).1, (first r).2]) fuel (search c.exec h 0 (Rx.init c)) []

/-- `re.groups` (281-294). -/
def reGroups (c : Compiled) (h : List Nat) : List (Nat × Nat) :=
  let q := search c.exec h 0 (Rx.init c)
  if q.1 then region q.2 else []

/-- `re.indexall` (303-319). -/
def reIndexall (c : Compiled) (h : List Nat) (fuel : Nat) : Option (Res (List (Nat × Nat))) :=
  loop c.exec h (fun r out => .ok (out ++ [first r])) fuel (search c.exec h 0 (Rx.init c)) []

/-- `re.groupsall` (425-444). -/
def reGroupsall (c : Compiled) (h : List Nat) (fuel : Nat) : Option (Res (List (List (Nat × Nat)))) :=
  loop c.exec h (fun r out => .ok (out ++ [r])) fuel (search c.exec h 0 (Rx.init c)) []

/-- How a piece of the text becomes a value: decoded from UTF-8, or `bytesToString` (183-195). -/
abbrev Conv := List Nat → Res (List Nat)

/-- `to` for strings. -/
def textTo : Conv := fun b => match utf8.dec b with
  | some s => .ok s
  | none => .error (.py "UnicodeDecodeError")

/-- `to` for bytes. -/
def rawTo : Conv := .ok

/-- `re.findall` (328-344). -/
def reFindall (to' : Conv) (c : Compiled) (h : List Nat) (fuel : Nat) : Option (Res (List (List Nat))) :=
  loop c.exec h (fun r out => (to' (slice h (first r))).map fun t => out ++ [t]) fuel (search c.exec h 0 (Rx.init c)) []

/-- `re.findfirst` (353-366) without the tag of the union. -/
def reFindfirst (to' : Conv) (c : Compiled) (h : List Nat) : Res (Option (List Nat)) :=
  let q := search c.exec h 0 (Rx.init c)
  if q.1 then (to' (slice h (first (region q.2)))).map some else .ok none

/-- `re.findgroupsfirst` (375-388). -/
def reFindgroupsfirst (to' : Conv) (c : Compiled) (h : List Nat) : Res (List (List Nat)) :=
  let q := search c.exec h 0 (Rx.init c)
  if q.1 then evalAll (fun p => to' (slice h p)) (region q.2) else .ok []

/-- `re.findgroupsall` (397-416). -/
def reFindgroupsall (to' : Conv) (c : Compiled) (h : List Nat) (fuel : Nat) : Option (Res (List (List (List Nat)))) :=
  loop c.exec h (fun r out => (evalAll (fun p => to' (slice h p)) r).map fun g => out ++ [g]) fuel (search c.exec h 0 (Rx.init c)) []

/-- `to(haystack[:b]) + replacement + to(haystack[e:])`. -/
def splice (to' : Conv) (h : List Nat) (p : Nat × Nat) (replacement : List Nat) : Res (List Nat) := do
  let a ← to' (h.take p.1)
  let b ← to' (h.drop p.2)
  .ok (a ++ replacement ++ b)

/-- `re.replacefirst` (453-465). -/
def reReplacefirst (to' : Conv) (c : Compiled) (h replacement : List Nat) : Res (List Nat) :=
  let q := search c.exec h 0 (Rx.init c)
  if q.1 then splice to' h (first (region q.2)) replacement else to' h

/-- `re.replacelast` (474-491). -/
def reReplacelast (to' : Conv) (c : Compiled) (h replacement : List Nat) (fuel : Nat) : Option (Res (List Nat)) :=
  (loop c.exec h (fun r _ => .ok (some (first r))) fuel (search c.exec h 0 (Rx.init c)) none).map fun o => do
    match ← o with
    | some p => splice to' h p replacement
    | none => to' h

/-- `re.split` (500-527): the state is `beg` and `out`; `flag` is that the first match begins at zero. -/
def reSplit (to' : Conv) (c : Compiled) (h : List Nat) (fuel : Nat) : Option (Res (List (List Nat))) :=
  let q := search c.exec h 0 (Rx.init c)
  let flag := decide ((first (region q.2)).1 = 0)
  if q.1 then
    (loop c.exec h (fun r st => (to' (slice h (st.1, (first r).1))).map fun t => ((first r).2, st.2 ++ [t])) fuel q (0, [])).map fun o => do
      let st ← o
      let out ← if st.1 ≠ h.length then (to' (h.drop st.1)).map fun t => st.2 ++ [t] else .ok st.2
      .ok (if flag then out.drop 1 else out)
  else some ((to' h).map fun t => [t])

/-- `re.replaceall` (536-561); `original` is the haystack before the conversion. -/
def reReplaceall (to' : Conv) (c : Compiled) (original h replacement : List Nat) (fuel : Nat) : Option (Res (List Nat)) :=
  let q := search c.exec h 0 (Rx.init c)
  if q.1 then
    (loop c.exec h (fun r st => (to' (slice h (st.1, (first r).1))).map fun t => ((first r).2, st.2 ++ t ++ replacement)) fuel q (0, [])).map
      fun o => do
        let st ← o
        if st.1 ≠ h.length then (to' (h.drop st.1)).map fun t => st.2 ++ t else .ok st.2
  else some (.ok original)

/-- `regcomp` of a pattern: `none` is a number other than zero (117-126). -/
def compile (regcomp : List Nat → Option Compiled) (code : Int) (pattern : List Nat) : Res Compiled :=
  match regcomp (cstr pattern) with
  | some c => .ok c
  | none => .error (.rt code)

/-- A function on strings: both texts are encoded (184-185). -/
def onText {β : Type} (regcomp : List Nat → Option Compiled) (code : Int) (haystack pattern : List Nat)
    (f : Compiled → List Nat → Res β) : Res β :=
  match utf8.enc haystack, utf8.enc pattern with
  | some h, some p => (compile regcomp code p).bind fun c => f c h
  | _, _ => .error (.py "UnicodeEncodeError")

/-- A function on bytes (186-195). -/
def onBytes {β : Type} (regcomp : List Nat → Option Compiled) (code : Int) (haystack pattern : BVal)
    (f : Compiled → List Nat → Res β) : Res β := do
  let h ← toRaw haystack
  let p ← toRaw pattern
  let c ← compile regcomp code p
  f c h

/-! ## Specification: the successive matches -/

/-- From `start` the pattern matches at the given places, each search beginning where the match before ended. -/
inductive Matches (x : Exec) (h : List Nat) : Nat → List (Nat × Hit) → Prop
  | done {start} : (start < h.length → x (cstr (h.drop start)) = none) → Matches x h start []
  | more {start m ms} : start < h.length → x (cstr (h.drop start)) = some m → Matches x h (start + m.stop) ms →
      Matches x h start ((start, m) :: ms)

/-- A match that ends where its search began, before the end of the text, is reached from `start`. -/
inductive Stuck (x : Exec) (h : List Nat) : Nat → Prop
  | here {start m} : start < h.length → x (cstr (h.drop start)) = some m → m.stop = 0 → Stuck x h start
  | later {start m} : start < h.length → x (cstr (h.drop start)) = some m → Stuck x h (start + m.stop) → Stuck x h start

/-- The place of a match in the text. -/
def place (p : Nat × Hit) : Nat × Nat := (p.1 + p.2.beg, p.1 + p.2.stop)

/-- The places of a match and of those of its groups that took part in it. -/
def places (p : Nat × Hit) : List (Nat × Nat) :=
  place p :: (p.2.groups.filterMap id).map fun g => (p.1 + g.1, p.1 + g.2)

theorem search_none (x : Exec) (h : List Nat) (start : Nat) (s : Rx) (hx : start < h.length → x (cstr (h.drop start)) = none) :
    (search x h start s).1 = false := by
  unfold search
  cases e : x (cstr (h.drop start)) with
  | none => rfl
  | some m =>
    simp only [decide_eq_false_iff_not]
    intro hl
    rw [hx hl] at e
    cases e

theorem search_some (x : Exec) (h : List Nat) (start : Nat) (s : Rx) (m : Hit) (hl : start < h.length)
    (hx : x (cstr (h.drop start)) = some m) : search x h start s = (true, ⟨m, start⟩) := by
  unfold search
  rw [hx]
  simp [hl]

theorem region_eq (m : Hit) (start : Nat) : region ⟨m, start⟩ = places (start, m) := by
  simp only [region, places, place, List.filterMap_cons, id, List.map_cons, Nat.add_comm]

theorem first_places (p : Nat × Hit) : first (places p) = place p := rfl

theorem loop_spec {σ : Type} (x : Exec) (h : List Nat) (f : List (Nat × Nat) → σ → Res σ) {start : Nat} {ms : List (Nat × Hit)}
    (hm : Matches x h start ms) : ∀ (s : Rx) (a : σ) (n : Nat), ms.length < n →
      loop x h f n (search x h start s) a = some (ms.foldlM (fun a p => f (places p) a) a) := by
  induction hm with
  | done hx =>
    intro s a n hn
    obtain ⟨n, rfl⟩ : ∃ k, n = k + 1 := ⟨n - 1, by simp at hn; omega⟩
    have := search_none x h _ s hx
    generalize search x h _ s = q at *
    obtain ⟨b, s'⟩ := q
    cases this
    rfl
  | more hl hx hm ih =>
    intro s a n hn
    obtain ⟨n, rfl⟩ : ∃ k, n = k + 1 := ⟨n - 1, by simp at hn; omega⟩
    rw [search_some x h _ s _ hl hx]
    simp only [loop, region_eq, List.foldlM_cons, first_places]
    cases f (places _) a with
    | error e => rfl
    | ok a' =>
      simp only [place]
      exact ih _ a' n (by simpa using hn)

theorem loop_stuck {σ : Type} (x : Exec) (h : List Nat) (f : List (Nat × Nat) → σ → σ) {start : Nat} (hs : Stuck x h start) :
    ∀ (s : Rx) (a : σ) (n : Nat), loop x h (fun r a => .ok (f r a)) n (search x h start s) a = none := by
  induction hs with
  | here hl hx h0 =>
    intro s a n
    induction n generalizing s a with
    | zero => rfl
    | succ n ih =>
      rw [search_some x h _ s _ hl hx]
      simp only [loop, region_eq, first_places, place, h0, Nat.add_zero]
      exact ih _ _
  | later hl hx _ ih =>
    intro s a n
    cases n with
    | zero => rfl
    | succ n =>
      rw [search_some x h _ s _ hl hx]
      simp only [loop, region_eq, first_places, place]
      exact ih _ _ _

/-- The searches come to an end or meet an empty match at their start. -/
theorem matches_or_stuck (x : Exec) (h : List Nat) (start : Nat) : (∃ ms, Matches x h start ms) ∨ Stuck x h start := by
  induction hk : h.length - start using Nat.strongRecOn generalizing start with
  | _ k ih =>
    by_cases hl : start < h.length
    · cases hx : x (cstr (h.drop start)) with
      | none => exact .inl ⟨[], .done fun _ => hx⟩
      | some m =>
        by_cases h0 : m.stop = 0
        · exact .inr (.here hl hx h0)
        · rcases ih (h.length - (start + m.stop)) (by omega) _ rfl with ⟨ms, hm⟩ | hs
          · exact .inl ⟨_, .more hl hx hm⟩
          · exact .inr (.later hl hx hs)
    · exact .inl ⟨[], .done fun hl' => absurd hl' hl⟩

theorem Matches.unique {x : Exec} {h : List Nat} {start : Nat} {ms ms' : List (Nat × Hit)} (hm : Matches x h start ms)
    (hm' : Matches x h start ms') : ms = ms' := by
  induction hm generalizing ms' with
  | done hx =>
    cases hm' with
    | done _ => rfl
    | more hl hx' _ => rw [hx hl] at hx'; cases hx'
  | more hl hx _ ih =>
    cases hm' with
    | done hx' => rw [hx' hl] at hx; cases hx
    | more _ hx' hm'' =>
      rw [hx] at hx'
      cases hx'
      rw [ih hm'']

/-- `re.count` and the other functions that go through all matches return if and only if no search meets an empty match at its start
before the end of the text. -/
theorem returns_iff (c : Compiled) (h : List Nat) : (∃ n r, reCount c h n = some r) ↔ ¬ Stuck c.exec h 0 := by
  constructor
  · rintro ⟨n, r, hr⟩ hs
    rw [reCount, loop_stuck c.exec h (fun _ n => n + 1) hs] at hr
    cases hr
  · intro hs
    rcases matches_or_stuck c.exec h 0 with ⟨ms, hm⟩ | hs'
    · exact ⟨ms.length + 1, _, loop_spec _ _ _ hm _ _ _ (Nat.lt_succ_self _)⟩
    · exact absurd hs' hs

/-- If the pattern never matches the empty text at the start of a search, everything returns. -/
theorem returns_of_progress (c : Compiled) (h : List Nat) (hp : ∀ t m, c.exec t = some m → m.stop ≠ 0) : ¬ Stuck c.exec h 0 := by
  generalize (0 : Nat) = start
  intro hs
  induction hs with
  | here _ hx h0 => exact hp _ _ hx h0
  | later _ _ _ ih => exact ih

/-! ## The functions in terms of the matches -/

theorem foldlM_ok {α σ : Type} (f : σ → α → σ) (l : List α) (a : σ) :
    l.foldlM (fun a p => (.ok (f a p) : Res σ)) a = .ok (l.foldl f a) := by
  induction l generalizing a with
  | nil => rfl
  | cons p l ih => rw [List.foldlM_cons]; exact ih _

theorem foldl_snoc {α β : Type} (g : α → β) (l : List α) (acc : List β) : l.foldl (fun out p => out ++ [g p]) acc = acc ++ l.map g := by
  induction l generalizing acc with
  | nil => simp
  | cons a l ih => simp [ih]

theorem foldlM_snoc {α β : Type} (g : α → Res β) (l : List α) (acc : List β) :
    l.foldlM (fun out p => (g p).map fun t => out ++ [t]) acc = (evalAll g l).map (acc ++ ·) := by
  induction l generalizing acc with
  | nil => simp [evalAll, Except.map, pure, Except.pure]
  | cons a l ih =>
    rw [List.foldlM_cons]
    cases h : g a with
    | error e => simp [evalAll, h, Except.map, bind, Except.bind]
    | ok t =>
      simp only [Except.map, bind, Except.bind, evalAll, h]
      have := ih (acc ++ [t])
      simp only [bind, Except.bind, Except.map] at this
      rw [this]
      cases evalAll g l <;> simp

theorem foldl_count {α : Type} (l : List α) (k : Nat) : l.foldl (fun n _ => n + 1) k = k + l.length := by
  induction l generalizing k with
  | nil => rfl
  | cons a l ih => simp [ih]; omega

theorem foldl_last {α β : Type} (g : α → β) (l : List α) (b : β) : l.foldl (fun _ p => g p) b = (l.map g).getLastD b := by
  induction l generalizing b with
  | nil => rfl
  | cons a l ih =>
    rw [List.foldl_cons, ih, List.map_cons, List.getLastD_cons]

/-- Positions: the number of matches, all of them, the last one, and their groups. -/
theorem positions (c : Compiled) (h : List Nat) (ms : List (Nat × Hit)) (hm : Matches c.exec h 0 ms) (n : Nat) (hn : ms.length < n) :
    reCount c h n = some (.ok ms.length) ∧
    reIndexall c h n = some (.ok (ms.map place)) ∧
    reGroupsall c h n = some (.ok (ms.map places)) ∧
    reRindex c h n = some (.ok ((ms.map fun p => [(place p).1, (place p).2]).getLastD [])) := by
  refine ⟨?_, ?_, ?_, ?_⟩
  · rw [reCount, loop_spec _ _ _ hm _ _ _ hn, foldlM_ok (fun n _ => n + 1), foldl_count, Nat.zero_add]
  · rw [reIndexall, loop_spec _ _ _ hm _ _ _ hn, foldlM_ok (fun out p => out ++ [first (places p)])]
    simp only [first_places]
    rw [foldl_snoc, List.nil_append]
  · rw [reGroupsall, loop_spec _ _ _ hm _ _ _ hn, foldlM_ok (fun out p => out ++ [places p]), foldl_snoc, List.nil_append]
  · rw [reRindex, loop_spec _ _ _ hm _ _ _ hn, foldlM_ok (fun _ p => [(first (places p)).1, (first (places p)).2])]
    simp only [first_places]
    rw [foldl_last]

/-- What concerns the first match. -/
theorem first_match (to' : Conv) (c : Compiled) (h : List Nat) (ms : List (Nat × Hit)) (hm : Matches c.exec h 0 ms) (r : List Nat) :
    (reContains c h = true ↔ ms ≠ []) ∧
    reIndex c h = (match ms with | [] => [] | p :: _ => [(place p).1, (place p).2]) ∧
    reGroups c h = (match ms with | [] => [] | p :: _ => places p) ∧
    reFindfirst to' c h = (match ms with | [] => .ok none | p :: _ => (to' (slice h (place p))).map some) ∧
    reFindgroupsfirst to' c h = (match ms with | [] => .ok [] | p :: _ => evalAll (fun q => to' (slice h q)) (places p)) ∧
    reReplacefirst to' c h r = (match ms with | [] => to' h | p :: _ => splice to' h (place p) r) := by
  cases hm with
  | done hx =>
    have := search_none c.exec h 0 (Rx.init c) hx
    simp [reContains, reIndex, reGroups, reFindfirst, reFindgroupsfirst, reReplacefirst, this]
  | more hl hx _ =>
    have := search_some c.exec h 0 (Rx.init c) _ hl hx
    simp [reContains, reIndex, reGroups, reFindfirst, reFindgroupsfirst, reReplacefirst, this, region_eq, first_places]

/-- The texts of all matches. -/
theorem texts (to' : Conv) (c : Compiled) (h : List Nat) (ms : List (Nat × Hit)) (hm : Matches c.exec h 0 ms) (n : Nat)
    (hn : ms.length < n) (r : List Nat) :
    reFindall to' c h n = some (evalAll (fun p => to' (slice h (place p))) ms) ∧
    reFindgroupsall to' c h n = some (evalAll (fun p => evalAll (fun q => to' (slice h q)) (places p)) ms) ∧
    reReplacelast to' c h r n = some (match ms.getLast? with | none => to' h | some p => splice to' h (place p) r) := by
  refine ⟨?_, ?_, ?_⟩
  · rw [reFindall, loop_spec _ _ _ hm _ _ _ hn]
    simp only [first_places]
    rw [foldlM_snoc]
    cases evalAll _ ms <;> simp [Except.map]
  · rw [reFindgroupsall, loop_spec _ _ _ hm _ _ _ hn, foldlM_snoc]
    cases evalAll _ ms <;> simp [Except.map]
  · rw [reReplacelast, loop_spec _ _ _ hm _ _ _ hn, foldlM_ok (fun _ p => some (first (places p)))]
    simp only [first_places]
    rw [foldl_last]
    cases ms using List.reverseRecOn with
    | nil => rfl
    | append_singleton l p => simp [bind, Except.bind]

/-! ## Order -/

/-- What `regexec` promises: the match lies in the text. -/
def Exec.Good (x : Exec) : Prop := ∀ t m, x t = some m → m.beg ≤ m.stop ∧ m.stop ≤ t.length

/-- Spans in order from `start` and within a text of the given length. -/
def Ordered (len : Nat) : Nat → List (Nat × Nat) → Prop
  | start, [] => start ≤ len
  | start, p :: l => start ≤ p.1 ∧ p.1 ≤ p.2 ∧ Ordered len p.2 l

theorem cstr_length (t : List Nat) : (cstr t).length ≤ t.length := by
  unfold cstr
  exact (List.takeWhile_sublist _).length_le

/-- Matches do not overlap, come in the order of the text and lie within it. -/
theorem matches_ordered (x : Exec) (hx : x.Good) (h : List Nat) {start : Nat} {ms : List (Nat × Hit)} (hm : Matches x h start ms)
    (hs : start ≤ h.length) : Ordered h.length start (ms.map place) := by
  induction hm with
  | done _ => exact hs
  | @more start m ms hl hm _ ih =>
    have g := hx _ _ hm
    have c := cstr_length (h.drop start)
    rw [List.length_drop] at c
    refine ⟨Nat.le_add_right _ _, ?_, ih (by omega)⟩
    simp only [place]
    omega

/-! ## Splitting and replacing -/

/-- Pieces and separators in turn. -/
def weave : List (List Nat) → List (List Nat) → List Nat
  | p :: ps, s :: ss => p ++ s ++ weave ps ss
  | p :: _, [] => p
  | [], _ => []

/-- The text between spans. -/
def between (h : List Nat) : Nat → List (Nat × Nat) → List (List Nat)
  | start, [] => [h.drop start]
  | start, p :: l => slice h (start, p.1) :: between h p.2 l

theorem slice_append (h : List Nat) (a b : Nat) (hab : a ≤ b) : slice h (a, b) ++ h.drop b = h.drop a := by
  simp only [slice]
  have : h.drop b = (h.drop a).drop (b - a) := by rw [List.drop_drop]; congr 1; omega
  rw [this, List.take_append_drop]

/-- The pieces and the spans make up the text. -/
theorem weave_between (h : List Nat) (start : Nat) (l : List (Nat × Nat)) (ho : Ordered h.length start l) :
    weave (between h start l) (l.map (slice h)) = h.drop start := by
  induction l generalizing start with
  | nil => rfl
  | cons p l ih =>
    obtain ⟨h1, h2, h3⟩ := ho
    simp only [between, List.map_cons, weave]
    rw [ih p.2 h3, List.append_assoc, slice_append h p.1 p.2 h2, slice_append h start p.1 h1]

theorem between_length (h : List Nat) (start : Nat) (l : List (Nat × Nat)) : (between h start l).length = l.length + 1 := by
  induction l generalizing start with
  | nil => rfl
  | cons p l ih => simp [between, ih]

/-- The end of the last span. -/
def lastStop (start : Nat) (l : List (Nat × Nat)) : Nat := (l.map Prod.snd).getLastD start

theorem lastStop_cons (start : Nat) (p : Nat × Nat) (l : List (Nat × Nat)) : lastStop start (p :: l) = lastStop p.2 l := by
  rw [lastStop, List.map_cons, List.getLastD_cons]
  rfl

/-- Without the last piece. -/
def inner (h : List Nat) : Nat → List (Nat × Nat) → List (List Nat)
  | _, [] => []
  | start, p :: l => slice h (start, p.1) :: inner h p.2 l

theorem between_eq (h : List Nat) (start : Nat) (l : List (Nat × Nat)) :
    between h start l = inner h start l ++ [h.drop (lastStop start l)] := by
  induction l generalizing start with
  | nil => rfl
  | cons p l ih => simp [between, inner, ih, lastStop_cons]

theorem evalAll_append {α β : Type} (g : α → Res β) (l l' : List α) :
    evalAll g (l ++ l') = (evalAll g l).bind fun a => (evalAll g l').map (a ++ ·) := by
  induction l with
  | nil => cases h : evalAll g l' <;> simp [evalAll, Except.map, bind, Except.bind, h]
  | cons x l ih =>
    simp only [List.cons_append, evalAll, bind, Except.bind]
    cases g x with
    | error e => rfl
    | ok b =>
      simp only [ih]
      cases evalAll g l with
      | error e => rfl
      | ok bs => cases evalAll g l' <;> simp [Except.map, Except.bind]

theorem split_fold (to' : Conv) (h : List Nat) (ms : List (Nat × Hit)) (start : Nat) (acc : List (List Nat)) :
    ms.foldlM (fun st p => (to' (slice h (st.1, (first (places p)).1))).map fun t => ((first (places p)).2, st.2 ++ [t])) (start, acc) =
      (evalAll to' (inner h start (ms.map place))).map fun ts => (lastStop start (ms.map place), acc ++ ts) := by
  induction ms generalizing start acc with
  | nil => simp [inner, evalAll, lastStop, Except.map, pure, Except.pure]
  | cons p ms ih =>
    simp only [List.foldlM_cons, first_places, List.map_cons, inner, evalAll, lastStop_cons]
    cases ht : to' (slice h (start, (place p).1)) with
    | error e => rfl
    | ok t =>
      simp only [Except.map, bind, Except.bind]
      have := ih (place p).2 (acc ++ [t])
      simp only [first_places, bind, Except.bind, Except.map] at this
      rw [this]
      cases evalAll to' (inner h (place p).2 (ms.map place)) <;> simp

theorem replace_fold (to' : Conv) (h r : List Nat) (ms : List (Nat × Hit)) (start : Nat) (acc : List Nat) :
    ms.foldlM (fun st p => (to' (slice h (st.1, (first (places p)).1))).map fun t => ((first (places p)).2, st.2 ++ t ++ r)) (start, acc) =
      (evalAll to' (inner h start (ms.map place))).map fun ts =>
        (lastStop start (ms.map place), acc ++ ts.flatMap fun t => t ++ r) := by
  induction ms generalizing start acc with
  | nil => simp [inner, evalAll, lastStop, Except.map, pure, Except.pure]
  | cons p ms ih =>
    simp only [List.foldlM_cons, first_places, List.map_cons, inner, evalAll, lastStop_cons]
    cases ht : to' (slice h (start, (place p).1)) with
    | error e => rfl
    | ok t =>
      simp only [Except.map, bind, Except.bind]
      have := ih (place p).2 (acc ++ t ++ r)
      simp only [first_places, bind, Except.bind, Except.map] at this
      rw [this]
      cases evalAll to' (inner h (place p).2 (ms.map place)) <;> simp

theorem intercalate_snoc (r : List Nat) (ts : List (List Nat)) (t : List Nat) :
    List.intercalate r (ts ++ [t]) = (ts.flatMap fun t => t ++ r) ++ t := by
  induction ts with
  | nil => simp [List.intercalate]
  | cons a ts ih =>
    cases ts with
    | nil => simp [List.intercalate]
    | cons b ts =>
      simp only [List.cons_append, List.flatMap_cons] at ih ⊢
      simp only [List.intercalate, List.intersperse_cons_cons, List.flatten_cons] at ih ⊢
      rw [ih]
      simp

/-- `re.replaceall` puts the replacement between the pieces of the text that no match covers. -/
theorem replaceall_spec (to' : Conv) (h0 : to' [] = .ok []) (c : Compiled) (original h r : List Nat) (horig : to' h = .ok original)
    (ms : List (Nat × Hit)) (hm : Matches c.exec h 0 ms) (n : Nat) (hn : ms.length < n) :
    reReplaceall to' c original h r n = some ((evalAll to' (between h 0 (ms.map place))).map (List.intercalate r)) := by
  cases hm with
  | done hx =>
    have := search_none c.exec h 0 (Rx.init c) hx
    simp [reReplaceall, this, between, evalAll, horig, Except.map, bind, Except.bind, List.intercalate]
  | @more _ m ms hl hx hm' =>
    have hs := search_some c.exec h 0 (Rx.init c) _ hl hx
    have hm : Matches c.exec h 0 ((0, m) :: ms) := .more hl hx hm'
    unfold reReplaceall
    simp only [hs, if_true]
    rw [← hs, loop_spec _ _ _ hm _ _ _ hn, replace_fold, between_eq, evalAll_append]
    simp only [Option.map_some]
    generalize evalAll to' (inner h 0 (((0, m) :: ms).map place)) = a
    generalize lastStop 0 (((0, m) :: ms).map place) = k
    cases a with
    | error e => rfl
    | ok ts =>
      simp only [Except.map, bind, Except.bind, evalAll]
      by_cases hk : k = h.length
      · subst hk
        simp [h0, intercalate_snoc]
      · simp only [ne_eq, hk, not_false_eq_true, if_true]
        cases to' (h.drop k) with
        | error e => rfl
        | ok t => simp [intercalate_snoc]

/-- The pieces without an empty last one and, if the text begins with a match, without the first (empty) one. -/
def trim (atStart atEnd : Bool) (l : List (List Nat)) : List (List Nat) :=
  (if atEnd then l.dropLast else l).drop (if atStart then 1 else 0)

/-- `re.split` gives the pieces of the text that no match covers; where a match is at the beginning or at the end there is no piece. -/
theorem split_spec (to' : Conv) (h0 : to' [] = .ok []) (c : Compiled) (h : List Nat) (ms : List (Nat × Hit))
    (hm : Matches c.exec h 0 ms) (n : Nat) (hn : ms.length < n) :
    reSplit to' c h n = some ((evalAll to' (between h 0 (ms.map place))).map
      (trim (((ms.map place).head?.map Prod.fst) = some 0) (ms ≠ [] ∧ lastStop 0 (ms.map place) = h.length))) := by
  cases hm with
  | done hx =>
    have := search_none c.exec h 0 (Rx.init c) hx
    simp [reSplit, this, between, evalAll, bind, Except.bind]
    cases to' h <;> simp [Except.map, trim]
  | @more _ m ms hl hx hm' =>
    have hs := search_some c.exec h 0 (Rx.init c) _ hl hx
    have hm : Matches c.exec h 0 ((0, m) :: ms) := .more hl hx hm'
    unfold reSplit
    simp only [hs, if_true]
    rw [← hs, loop_spec _ _ _ hm _ _ _ hn, split_fold, between_eq, evalAll_append]
    simp only [Option.map_some]
    have hf : decide ((first (region ⟨m, 0⟩)).1 = 0) = decide ((((0, m) :: ms).map place).head?.map Prod.fst = some 0) := by
      rw [region_eq, first_places]
      simp
    rw [hf]
    generalize evalAll to' (inner h 0 (((0, m) :: ms).map place)) = a
    generalize hk : lastStop 0 (((0, m) :: ms).map place) = k
    generalize decide ((((0, m) :: ms).map place).head?.map Prod.fst = some 0) = b
    cases a with
    | error e => rfl
    | ok ts =>
      simp only [Except.map, bind, Except.bind, evalAll, List.nil_append]
      by_cases hk : k = h.length
      · subst hk
        cases b <;> simp [h0, trim]
      · simp only [ne_eq, hk, not_false_eq_true, if_true]
        cases to' (h.drop k) with
        | error e => rfl
        | ok t => cases b <;> simp [trim]

/-- In both cases the pieces and the matches make up the text. -/
theorem pieces_spec (c : Compiled) (hc : c.exec.Good) (h : List Nat) (ms : List (Nat × Hit)) (hm : Matches c.exec h 0 ms) :
    (between h 0 (ms.map place)).length = ms.length + 1 ∧
    weave (between h 0 (ms.map place)) ((ms.map place).map (slice h)) = h := by
  refine ⟨by rw [between_length, List.length_map], ?_⟩
  rw [weave_between h 0 _ (matches_ordered _ hc h hm (Nat.zero_le _)), List.drop_zero]

/-! ## Conversions -/

theorem evalAll_pure {α : Type} (l : List α) : evalAll (.ok : α → Res α) l = .ok l := by
  induction l with
  | nil => rfl
  | cons a l ih => simp [evalAll, ih, bind, Except.bind]

/-- On bytes nothing can fail. -/
theorem raw_spec (c : Compiled) (h r : List Nat) (ms : List (Nat × Hit)) (hm : Matches c.exec h 0 ms) (n : Nat) (hn : ms.length < n) :
    reFindall rawTo c h n = some (.ok (ms.map fun p => slice h (place p))) ∧
    reReplaceall rawTo c h h r n = some (.ok (List.intercalate r (between h 0 (ms.map place)))) ∧
    reReplacefirst rawTo c h r = .ok (match ms with | [] => h | p :: _ => h.take (place p).1 ++ r ++ h.drop (place p).2) := by
  refine ⟨?_, ?_, ?_⟩
  · rw [(texts rawTo c h ms hm n hn r).1]
    have : ∀ l : List (Nat × Hit), evalAll (fun p => rawTo (slice h (place p))) l = .ok (l.map fun p => slice h (place p)) := by
      intro l
      induction l with
      | nil => rfl
      | cons q l ih =>
        simp only [evalAll, ih]
        rfl
    rw [this]
  · rw [replaceall_spec rawTo rfl c h h r rfl ms hm n hn]
    simp only [rawTo, evalAll_pure]
    rfl
  · rw [(first_match rawTo c h ms hm r).2.2.2.2.2]
    cases ms <;> rfl

/-- On strings a piece that is the encoding of a text is given as that text; the only possible error is that of decoding. -/
theorem text_piece (h : List Nat) (p : Nat × Nat) (s : List Nat) (hs : utf8.enc s = some (slice h p)) : textTo (slice h p) = .ok s := by
  unfold textTo
  rw [(utf8_spec.1 s _ hs).1]

theorem textTo_errors (b : List Nat) (e : Err) (h : textTo b = .error e) : e = .py "UnicodeDecodeError" := by
  unfold textTo at h
  split at h
  · cases h
  · cases h; rfl

/-- Arguments: a bad pattern gives the error of the function, strings with surrogates an exception of Python, and bytes may be of
either kind. -/
theorem arguments {β : Type} (regcomp : List Nat → Option Compiled) (code : Int) (f : Compiled → List Nat → Res β) (h p b q : List Nat)
    (hh : h.all scalar = true) (hp : p.all scalar = true) (hb : ∀ x ∈ b, x < 256) (hq : ∀ x ∈ q, x < 256) (x y : BVal)
    (hx : x = .raw b ∨ x = .str b) (hy : y = .raw q ∨ y = .str q) :
    onText regcomp code h p f = (match regcomp (cstr (p.flatMap utf8Char)) with
      | none => .error (.rt code)
      | some c => f c (h.flatMap utf8Char)) ∧
    onBytes regcomp code x y f = (match regcomp (cstr q) with | none => .error (.rt code) | some c => f c b) := by
  constructor
  · simp only [onText, utf8, hh, hp, if_true, compile]
    cases regcomp (cstr (p.flatMap utf8Char)) <;> rfl
  · have hx' : toRaw x = .ok b := by
      rcases hx with rfl | rfl
      · rfl
      · exact toRaw_str b hb
    have hy' : toRaw y = .ok q := by
      rcases hy with rfl | rfl
      · rfl
      · exact toRaw_str q hq
    simp only [onBytes, hx', hy', bind, Except.bind, compile]
    cases regcomp (cstr q) <;> rfl

/-! ## What goes wrong -/

/-- `^a`. -/
def hatA : Compiled := ⟨0, fun t => if t.head? = some 97 then some ⟨0, 1, []⟩ else none⟩

/-- `x*`. -/
def starX : Compiled := ⟨0, fun t => some ⟨0, (t.takeWhile (· = 120)).length, []⟩⟩

/-- `(a)|(b)`. -/
def aOrB : Compiled := ⟨2, fun t => match t.findIdx? (fun x => x = 97 || x = 98) with
  | none => none
  | some i => if t[i]? = some 97 then some ⟨i, i + 1, [some (i, i + 1), none]⟩ else some ⟨i, i + 1, [none, some (i, i + 1)]⟩⟩

/-- `a`. -/
def justA : Compiled := ⟨0, fun t => (t.findIdx? (· = 97)).map fun i => ⟨i, i + 1, []⟩⟩

/-- An anchor matches where a search begins, so `^a` is found three times in `aaa`. -/
theorem anchor_violation : reIndexall hatA [97, 97, 97] 10 = some (.ok [(0, 1), (1, 2), (2, 3)]) ∧
    hatA.exec ([97, 97, 97].take 0 ++ [97, 97, 97]) = some ⟨0, 1, []⟩ := by
  decide +kernel

/-- `x*` matches the empty text before `a`, and nothing returns. -/
theorem empty_match_violation : ∀ n, reCount starX [97, 98] n = none ∧ reIndexall starX [97, 98] n = none ∧
    reRindex starX [97, 98] n = none := by
  have hs : Stuck starX.exec [97, 98] 0 := .here (m := ⟨0, 0, []⟩) (by decide) (by decide) rfl
  intro n
  exact ⟨loop_stuck _ _ (fun _ n => n + 1) hs _ _ _, loop_stuck _ _ (fun r out => out ++ [first r]) hs _ _ _,
    loop_stuck _ _ (fun r _ => [(first r).1, (first r).2]) hs _ _ _⟩

/-- Nothing is found in the empty text, although `x*` matches it. -/
theorem empty_text_violation (c : Compiled) : reContains c [] = false ∧ reIndex c [] = [] ∧ starX.exec [] = some ⟨0, 0, []⟩ := by
  have := search_none c.exec [] 0 (Rx.init c) (fun h => absurd h (by decide))
  refine ⟨this, ?_, by decide⟩
  simp [reIndex, this]

/-- A group that took no part is left out, so the second group of `(a)|(b)` is in the place of the first. -/
theorem groups_violation : reGroups aOrB [98] = [(0, 1), (0, 1)] ∧ aOrB.exec [98] = some ⟨0, 1, [none, some (0, 1)]⟩ := by
  decide +kernel

/-- Positions in a string count bytes: `a` is the second character of `éa`, but `re.index` says that it begins at 2. -/
theorem position_violation : onText (fun _ => some justA) 35000 [0xE9, 97] [97] (fun c h => .ok (reIndex c h)) = .ok [2, 3] ∧
    [0xE9, 97][1]? = some 97 := by
  decide +kernel

/-- A search ends at a zero. -/
theorem zero_violation (c : Compiled) (h t : List Nat) (hz : ∀ x ∈ h, x ≠ 0) (hh : h ≠ []) :
    reContains c (h ++ 0 :: t) = reContains c (h ++ [0]) ∧ reIndex c (h ++ 0 :: t) = reIndex c (h ++ [0]) := by
  have hc : ∀ t, cstr (h ++ 0 :: t) = h := by
    intro t
    unfold cstr
    rw [List.takeWhile_append_of_pos (by simpa using hz)]
    simp
  have : ∀ t, search c.exec (h ++ 0 :: t) 0 (Rx.init c) = search c.exec (h ++ [0]) 0 (Rx.init c) := by
    intro t
    simp only [search, List.drop_zero, hc]
    cases c.exec h with
    | none => rfl
    | some m => simp
  simp only [reContains, reIndex, this, and_self]

/-- Non-trivial cases: `(a)|(b)` in `xaxb`. -/
theorem aOrB_matches : Matches aOrB.exec [120, 97, 120, 98, 120] 0
    [(0, ⟨1, 2, [some (1, 2), none]⟩), (2, ⟨1, 2, [none, some (1, 2)]⟩)] :=
  .more (by decide) (by decide +kernel) (.more (by decide) (by decide +kernel) (.done fun _ => by decide +kernel))

example : reSplit rawTo aOrB [120, 97, 120, 98, 120] 3 = some (.ok [[120], [120], [120]]) ∧
    reReplaceall rawTo aOrB [120, 97, 120, 98, 120] [120, 97, 120, 98, 120] [45, 45] 3 = some (.ok [120, 45, 45, 120, 45, 45, 120]) ∧
    reSplit textTo aOrB [97, 120, 98] 3 = some (.ok [[120]]) ∧ reFindall textTo aOrB [120, 97, 120, 98] 3 = some (.ok [[97], [98]]) := by
  decide +kernel

example : reReplacelast rawTo aOrB [97, 120, 98, 120] [45] 3 = some (.ok [97, 120, 45, 120]) ∧
    reFindfirst textTo aOrB [120, 98] = .ok (some [98]) ∧ reFindgroupsfirst rawTo aOrB [120, 98] = .ok [[98], [98]] ∧
    reReplacefirst rawTo aOrB [97, 98] [] = .ok [98] ∧ reGroupsall aOrB [97, 98] 3 = some (.ok [[(0, 1), (0, 1)], [(1, 2), (1, 2)]]) := by
  decide +kernel

theorem aOrB_good : aOrB.exec.Good := by
  intro t m h
  simp only [aOrB] at h
  split at h
  · cases h
  next i hi =>
    have hl : i < t.length := (List.findIdx?_eq_some_iff_findIdx_eq.1 hi).1
    split at h <;> cases h <;> exact ⟨Nat.le_succ _, hl⟩

end Verif.Misc
