import Verif.Inspector.Memory
/-! # Commands, subcommands and directories of the inspector (C112)

Models `CommandGroup.complete` and `CommandGroup.action` of `titus/inspector/defs.py` 555-610, `pathcomplete` 189-217, and the commands
`cd` and `back` of `titus/inspector/main.py` 153-166.

Simplifications.  A command that is no group is its name: what it does and how it completes its arguments are parameters.  White space is what
`Char.isWhitespace` says.  The file system is a parameter: what a path leads to from a directory. -/

namespace Verif.Inspector.Groups
open Memory

/-! ## Model -/

/-- A command: a group of commands (`top` for the one without a name, titus/inspector/defs.py 538-553), or another one. -/
inductive Command where
  | leaf (id : String)
  | group (top : Bool) (commands : List (String × Command))

/-- `CommandGroup.action`, titus/inspector/defs.py 577-610: the command whose `action` is called and with what; `none` when help is printed or nothing is done. -/
def action : Command → List Arg → Res (Option (String × List Arg))
  | .leaf id, args => .ok (some (id, args))
  | .group top _, [] => if top then .ok none else .error insp
  | .group _ _, [.word "help"] => .ok none
  | .group _ cs, .word w :: rest => match PyDict.get? cs w with
    | none => .error insp
    | some c => action c rest
  | .group _ _, _ => .error insp

/-- `[A-Za-z0-9_]`, titus/inspector/defs.py 566 -/
def nameChar (c : Char) : Bool := c.isAlphanum || c == '_'

/-- `re.match(r'''\s*([A-Za-z][A-Za-z0-9_]*)\s*''', established)`, titus/inspector/defs.py 566: the word and what follows the match. -/
def firstWord (cs : List Char) : Option (List Char × List Char) := match cs.dropWhile Char.isWhitespace with
  | [] => none
  | c :: r => if c.isAlpha then some (c :: r.takeWhile nameChar, (r.dropWhile nameChar).dropWhile Char.isWhitespace) else none

/-- `CommandGroup.complete`, titus/inspector/defs.py 555-575; `leaf` completes the arguments of the other commands.  `fuel` bounds the depth of the groups. -/
def complete (leaf : String → List Char → String → List String) : Nat → Command → List Char → String → List String
  | _, .leaf id, established, active => leaf id established active
  | 0, .group _ _, _, _ => []
  | n + 1, .group _ cs, established, active => match firstWord established with
    | none => (cs.filter fun kc => active.toList.isPrefixOf kc.1.toList).map fun kc => kc.1 ++ " "
    | some (w, rest) => match PyDict.get? cs (String.ofList w) with
      | none => []
      | some c => complete leaf n c rest active

/-! ## Subcommands -/

/-- The command that the words lead to. -/
inductive Leads : Command → List String → Command → Prop
  | here (c : Command) : Leads c [] c
  | down {top : Bool} {cs : List (String × Command)} {w : String} {c d : Command} {ws : List String} (h : PyDict.get? cs w = some c) (hd : Leads c ws d) :
      Leads (.group top cs) (w :: ws) d

/-- A name that the completer reads: a letter, then letters, digits and underscores. -/
def Named (s : String) : Prop := ∃ c cs, s.toList = c :: cs ∧ c.isAlpha = true ∧ ∀ x ∈ cs, x.isAlpha = true ∨ x.isDigit = true ∨ x = '_'

/-- **Words lead to commands**: what is typed after them is given to the command. -/
theorem action_leads {c d : Command} {ws : List String} (h : Leads c ws d) {args : List Arg} (ha : args ≠ [] ∨ "help" ∉ ws) :
    action c (ws.map .word ++ args) = action d args := by
  induction h with
  | here => rfl
  | @down top cs w c d ws h hd ih =>
    have ih := ih (by rcases ha with ha | ha; exact .inl ha; exact .inr fun hm => ha (List.mem_cons_of_mem _ hm))
    simp only [List.map_cons, List.cons_append]
    rw [action, h]
    · exact ih
    · intro he hw
      rcases ha with ha | ha
      · exact ha (List.append_eq_nil_iff.1 he).2
      · exact ha (by simp [hw])

/-- Anything else is an error of the inspector. -/
theorem action_unknown {top : Bool} {cs : List (String × Command)} {w : String} (h : PyDict.get? cs w = none) (rest : List Arg) (hh : rest ≠ [] ∨ w ≠ "help") :
    action (.group top cs) (.word w :: rest) = .error insp := by
  rw [action, h]
  intro he hw
  rcases hh with hh | hh
  · exact hh he
  · exact hh hw

/-- Without a word a group with a name is an error and the one without a name does nothing; `help` alone prints help, even if there is a command of this name;
what is no word is an error. -/
theorem action_others (cs : List (String × Command)) :
    action (.group true cs) [] = .ok none ∧ action (.group false cs) [] = .error insp ∧ (∀ top, action (.group top cs) [.word "help"] = .ok none) ∧
    ∀ top a rest, (∀ w, a ≠ .word w) → action (.group top cs) (a :: rest) = .error insp := by
  refine ⟨rfl, rfl, fun _ => rfl, fun top a rest h => ?_⟩
  cases a with
  | word w => exact absurd rfl (h w)
  | _ => simp [action]

theorem drop_space {c : Char} {r : List Char} (h : c.isWhitespace = false) : (c :: r).dropWhile Char.isWhitespace = c :: r := by simp [h]

theorem alpha_not_space {c : Char} (h : c.isAlpha = true) : c.isWhitespace = false := by
  by_contra hc
  have hw : c.isWhitespace = true := by simpa using hc
  simp only [Char.isWhitespace, Bool.or_eq_true, decide_eq_true_eq] at hw
  rcases hw with (((rfl | rfl) | rfl) | rfl) <;> revert h <;> decide

/-- The characters that the completer takes for those of a name. -/
theorem nameChar_iff (x : Char) : nameChar x = true ↔ x.isAlpha = true ∨ x.isDigit = true ∨ x = '_' := by
  simp [nameChar, Char.isAlphanum, or_assoc]

theorem takeWhile_name {l r : List Char} (h : ∀ x ∈ l, nameChar x = true) : (l ++ ' ' :: r).takeWhile nameChar = l ∧ (l ++ ' ' :: r).dropWhile nameChar = ' ' :: r := by
  induction l with
  | nil => exact ⟨rfl, rfl⟩
  | cons x l ih =>
    have := ih fun y hy => h y (by simp [hy])
    simp [h x (by simp), this.1, this.2]

theorem firstWord_named {w : String} (h : Named w) (r : List Char) : firstWord (w.toList ++ ' ' :: r) = some (w.toList, r.dropWhile Char.isWhitespace) := by
  obtain ⟨c, cs, e, hc, hcs⟩ := h
  obtain ⟨h1, h2⟩ := takeWhile_name (r := r) fun x hx => (nameChar_iff x).2 (hcs x hx)
  unfold firstWord
  rw [e, List.cons_append, drop_space (alpha_not_space hc)]
  simp only [hc, if_true, h1, h2]
  rfl

/-- Blanks before the first word do not matter, and neither do more of them after it. -/
theorem firstWord_blanks {b : List Char} (h : ∀ c ∈ b, c.isWhitespace = true) (cs : List Char) :
    firstWord (b ++ cs) = firstWord cs ∧ ∀ w, Named w → firstWord (w.toList ++ ' ' :: (b ++ cs)) = firstWord (w.toList ++ ' ' :: cs) := by
  have e : (b ++ cs).dropWhile Char.isWhitespace = cs.dropWhile Char.isWhitespace := List.dropWhile_append_of_pos h
  exact ⟨by unfold firstWord; rw [e], fun w hw => by rw [firstWord_named hw, firstWord_named hw, e]⟩

/-- After an unknown word nothing is offered. -/
theorem complete_unknown {leaf : String → List Char → String → List String} {top : Bool} {cs : List (String × Command)} {w : String} (hw : Named w)
    (h : PyDict.get? cs w = none) (n : Nat) (r : List Char) (active : String) : complete leaf n (.group top cs) (w.toList ++ ' ' :: r) active = [] := by
  cases n with
  | zero => rfl
  | succ n => rw [complete, firstWord_named hw]; simp only [String.ofList_toList, h]

/-- The words with a blank after each. -/
def typed : List String → List Char
  | [] => []
  | w :: ws => w.toList ++ ' ' :: typed ws

theorem typed_space {ws : List String} (h : ∀ w ∈ ws, Named w) : (typed ws).dropWhile Char.isWhitespace = typed ws := by
  cases ws with
  | nil => rfl
  | cons w ws =>
    obtain ⟨c, cs, e, hc, _⟩ := h w (by simp)
    rw [typed, e, List.cons_append, drop_space (alpha_not_space hc)]

/-- After words that lead to a command, its own completions are offered. -/
theorem complete_leads {leaf : String → List Char → String → List String} {c d : Command} {ws : List String} (h : Leads c ws d) (hw : ∀ w ∈ ws, Named w)
    (n : Nat) (active : String) : complete leaf (n + ws.length) c (typed ws) active = complete leaf n d [] active := by
  induction h with
  | here => rfl
  | @down top cs w c d ws h hd ih =>
    have ih := ih fun x hx => hw x (List.mem_cons_of_mem _ hx)
    rw [show n + (w :: ws).length = (n + ws.length) + 1 from rfl, complete, typed, firstWord_named (hw w (by simp))]
    simp only [String.ofList_toList, h]
    rw [typed_space fun x hx => hw x (List.mem_cons_of_mem _ hx), ih]

/-- **What is completed can be run**: after words that lead to a group, exactly the names of its commands that begin with what was typed are offered, and taking
one of them leads to this command. -/
theorem complete_action {leaf : String → List Char → String → List String} {c : Command} {ws : List String} {top : Bool} {cs : List (String × Command)}
    (h : Leads c ws (.group top cs)) (hw : ∀ w ∈ ws, Named w) (hn : (PyDict.keys cs).Nodup) (n : Nat) (active : String) :
    (∀ s, s ∈ complete leaf (n + 1 + ws.length) c (typed ws) active ↔ ∃ k, k ∈ PyDict.keys cs ∧ active.toList <+: k.toList ∧ s = k ++ " ") ∧
    ∀ k d, (k, d) ∈ cs → ∀ args, args ≠ [] ∨ ("help" ∉ ws ∧ k ≠ "help") → action c ((ws ++ [k]).map .word ++ args) = action d args := by
  refine ⟨fun s => ?_, fun k d hk args ha => ?_⟩
  · rw [complete_leads h hw, complete]
    simp only [firstWord, List.dropWhile_nil, List.mem_map, List.mem_filter, List.isPrefixOf_iff_prefix, PyDict.keys]
    constructor
    · rintro ⟨kc, ⟨h1, h2⟩, rfl⟩
      exact ⟨kc.1, ⟨kc, h1, rfl⟩, h2, rfl⟩
    · rintro ⟨k, ⟨kc, h1, rfl⟩, h2, rfl⟩
      exact ⟨kc, ⟨h1, h2⟩, rfl⟩
  · refine action_leads ?_ ?_
    · clear ha hw
      generalize hg : Command.group top cs = g at h
      induction h with
      | here => subst hg; exact .down (PyDict.get?_of_mem hn hk) (.here d)
      | down h' _ ih => exact .down h' (ih hg)
    · rcases ha with ha | ⟨h1, h2⟩
      · exact .inl ha
      · refine .inr fun hm => ?_
        rcases List.mem_append.1 hm with hm | hm
        · exact h1 hm
        · simp at hm; exact h2 hm.symm

/-! ## Completion of paths -/

/-- `finish` in `pathcomplete`, titus/inspector/defs.py 208-216: `none` for what is neither a directory nor a file, such as a link that leads nowhere. -/
def finish (isdir exists' : String → Bool) (x : String) : Option String :=
  let quote := if ' ' ∈ x.toList then "\"" else ""
  if isdir x then some (quote ++ x ++ (if x.toList.getLast? = some '/' then "" else "/"))
  else if exists' x then some (quote ++ x ++ " ")
  else none

/-- A path without blanks is completed to itself, with a slash or a blank after it. -/
theorem finish_plain {isdir exists' : String → Bool} {x : String} (hb : ' ' ∉ x.toList) (hs : x.toList.getLast? ≠ some '/') :
    (isdir x = true → finish isdir exists' x = some (x ++ "/")) ∧ (isdir x = false → exists' x = true → finish isdir exists' x = some (x ++ " ")) := by
  refine ⟨fun h => by simp [finish, hb, h, hs], fun h h' => by simp [finish, hb, h, h']⟩

/-- A directory whose path ends with a slash gets no other. -/
theorem finish_slash {isdir exists' : String → Bool} {x : String} (hb : ' ' ∉ x.toList) (hs : x.toList.getLast? = some '/') (h : isdir x = true) :
    finish isdir exists' x = some x := by simp [finish, hb, h, hs]

/-- A file with a blank in its name is completed to a text that begins with a quotation mark and does not end with one, so that it has to be closed by hand. -/
theorem finish_blank_violation {isdir exists' : String → Bool} {x : String} (hb : ' ' ∈ x.toList) (hd : isdir x = false) (he : exists' x = true) :
    finish isdir exists' x = some ("\"" ++ x ++ " ") := by simp [finish, hb, hd, he]

/-- A link that leads nowhere is no text at all. -/
theorem finish_link_violation {isdir exists' : String → Bool} {x : String} (hd : isdir x = false) (he : exists' x = false) : finish isdir exists' x = none := by
  simp [finish, hd, he]

/-- `os.path.split` of the standard library, called in titus/inspector/defs.py 200: what is before the last slash, without slashes at its end unless it consists of them, and what is after it. -/
def split (p : List Char) : List Char × List Char :=
  let head := (p.reverse.dropWhile (· != '/')).reverse
  (if head.all (· == '/') then head else (head.reverse.dropWhile (· == '/')).reverse, (p.reverse.takeWhile (· != '/')).reverse)

/-- `os.path.join` of the standard library for a second part without slashes, called in titus/inspector/defs.py 217. -/
def join (base x : List Char) : List Char := if base.getLast? = some '/' then base ++ x else base ++ '/' :: x

/-- The paths that `pathcomplete` hands to `finish`, titus/inspector/defs.py 200-217, for a text in which a tilde has been replaced; `none` if there is no such
directory.  `listdir` is a parameter. -/
def paths (isdir : List Char → Bool) (listdir : List Char → List (List Char)) (active : List Char) : Option (List (List Char)) :=
  let base := if (split active).1 = [] then ['.'] else (split active).1
  let last := (split active).2
  if isdir base then
    some (((listdir base).filter fun x => if last = [] then !['.'].isPrefixOf x else last.isPrefixOf x).map fun x => if base = ['.'] then x else join base x)
  else none

theorem split_spec {d l : List Char} (hl : '/' ∉ l) (hd : d ≠ []) (hs : d.getLast? ≠ some '/') : split (d ++ '/' :: l) = (d, l) := by
  have h1 : ∀ x ∈ l.reverse, (x != '/') = true := fun x hx => by
    simp only [bne_iff_ne, ne_eq]; rintro rfl; exact hl (List.mem_reverse.1 hx)
  have e : (d ++ '/' :: l).reverse = l.reverse ++ '/' :: d.reverse := by simp
  have e1 : (l.reverse ++ '/' :: d.reverse).dropWhile (· != '/') = '/' :: d.reverse := by
    rw [List.dropWhile_append_of_pos h1]; simp
  have e2 : (l.reverse ++ '/' :: d.reverse).takeWhile (· != '/') = l.reverse := by
    rw [List.takeWhile_append_of_pos h1]; simp
  obtain ⟨d', z, rfl⟩ : ∃ d' z, d = d' ++ [z] := ⟨d.dropLast, d.getLast hd, (List.dropLast_append_getLast hd).symm⟩
  have hz : z ≠ '/' := by simpa using hs
  simp only [split, e, e1, e2]
  simp [hz]

theorem split_plain {l : List Char} (hl : '/' ∉ l) : split l = ([], l) := by
  have h1 : ∀ x ∈ l.reverse, (x != '/') = true := fun x hx => by
    simp only [bne_iff_ne, ne_eq]; rintro rfl; exact hl (List.mem_reverse.1 hx)
  have e1 : l.reverse.dropWhile (· != '/') = [] := by
    have := List.dropWhile_append_of_pos (l₂ := []) h1
    simpa only [List.append_nil, List.dropWhile_nil] using this
  have e2 : l.reverse.takeWhile (· != '/') = l.reverse := by
    have := List.takeWhile_append_of_pos (l₂ := []) h1
    simpa only [List.append_nil, List.takeWhile_nil] using this
  simp [split, e1, e2]

/-- A name is offered if it begins with what was typed; hidden ones only if something was typed. -/
def Offered (typed x : List Char) : Prop := typed <+: x ∧ (typed = [] → x.head? ≠ some '.')

theorem offered_iff (l x : List Char) : (if l = [] then !['.'].isPrefixOf x else l.isPrefixOf x) = true ↔ Offered l x := by
  by_cases h : l = []
  · subst h
    cases x with
    | nil => simp [Offered]
    | cons c x =>
      have : ('.' = c) ↔ (c = '.') := ⟨Eq.symm, Eq.symm⟩
      simp [Offered, List.isPrefixOf, this]
  · simp [Offered, h, List.isPrefixOf_iff_prefix]

/-- **Completions of paths**: for a text without a slash, exactly the names here that begin with it; for a directory, a slash and more text, exactly the paths in
this directory whose names begin with that text.  All of them begin with what was typed. -/
theorem paths_spec {isdir : List Char → Bool} {listdir : List Char → List (List Char)} {l : List Char} (hl : '/' ∉ l) :
    (isdir ['.'] = true → ∃ ps, paths isdir listdir l = some ps ∧ ∀ p, p ∈ ps ↔ p ∈ listdir ['.'] ∧ Offered l p) ∧
    ∀ d, d ≠ [] → d ≠ ['.'] → d.getLast? ≠ some '/' → isdir d = true → ∃ ps, paths isdir listdir (d ++ '/' :: l) = some ps ∧
      (∀ p, p ∈ ps ↔ ∃ x, x ∈ listdir d ∧ Offered l x ∧ p = d ++ '/' :: x) ∧ ∀ p ∈ ps, d ++ '/' :: l <+: p := by
  refine ⟨fun h => ?_, fun d hd hdot hs h => ?_⟩
  · refine ⟨_, by unfold paths; rw [split_plain hl]; simp only [if_true, h]; rfl, fun p => ?_⟩
    simp only [List.map_id', List.mem_filter, offered_iff]
  · have key : ∀ p, p ∈ ((listdir d).filter fun x => if l = [] then !['.'].isPrefixOf x else l.isPrefixOf x).map (fun x => if d = ['.'] then x else join d x) ↔
        ∃ x, x ∈ listdir d ∧ Offered l x ∧ p = d ++ '/' :: x := by
      intro p
      simp only [List.mem_map, List.mem_filter, offered_iff, hdot, if_false, join, hs, and_assoc, eq_comm (a := p)]
    refine ⟨_, by unfold paths; rw [split_spec hl hd hs]; simp only [hd, if_false, h, if_true], key, fun p hp => ?_⟩
    obtain ⟨x, _, ho, rfl⟩ := (key p).1 hp
    exact (List.prefix_append_right_inj d).2 (List.cons_prefix_cons.2 ⟨rfl, ho.1⟩)

theorem split_root {l : List Char} (hl : '/' ∉ l) : split ('/' :: l) = (['/'], l) := by
  have h1 : ∀ x ∈ l.reverse, (x != '/') = true := fun x hx => by
    simp only [bne_iff_ne, ne_eq]; rintro rfl; exact hl (List.mem_reverse.1 hx)
  have e1 : (l.reverse ++ ['/']).dropWhile (· != '/') = ['/'] := by
    rw [List.dropWhile_append_of_pos h1]; rfl
  have e2 : (l.reverse ++ ['/']).takeWhile (· != '/') = l.reverse := by
    rw [List.takeWhile_append_of_pos h1]; simp
  simp only [split, List.reverse_cons, e1, e2]
  simp

/-- For a slash and more text, exactly the paths in the root whose names begin with that text, with one slash. -/
theorem paths_root {isdir : List Char → Bool} {listdir : List Char → List (List Char)} {l : List Char} (hl : '/' ∉ l) (h : isdir ['/'] = true) :
    ∃ ps, paths isdir listdir ('/' :: l) = some ps ∧ ∀ p, p ∈ ps ↔ ∃ x, x ∈ listdir ['/'] ∧ Offered l x ∧ p = '/' :: x := by
  have hn : (['/'] : List Char) ≠ [] := by simp
  have hd : (['/'] : List Char) ≠ ['.'] := by decide
  refine ⟨_, by unfold paths; rw [split_root hl]; simp only [hn, if_false, h, if_true]; rfl, fun p => ?_⟩
  simp only [List.mem_map, List.mem_filter, offered_iff, hd, if_false, and_assoc, eq_comm (a := p)]
  rfl

/-- Where there is no such directory there is no list at all, not an empty one: `SimpleCommand.complete`, titus/inspector/defs.py 489-508, then raises a
TypeError, since it extends a list by it. -/
theorem paths_none_violation {isdir : List Char → Bool} {listdir : List Char → List (List Char)} {d l : List Char} (hl : '/' ∉ l) (hd : d ≠ [])
    (hs : d.getLast? ≠ some '/') (h : isdir d = false) : paths isdir listdir (d ++ '/' :: l) = none := by
  unfold paths; rw [split_spec hl hd hs]; simp [hd, h]

/-- After `./` what was typed is lost: the names are offered without it. -/
theorem paths_dot_violation {isdir : List Char → Bool} {listdir : List Char → List (List Char)} {l : List Char} (hl : '/' ∉ l) :
    paths isdir listdir ('.' :: '/' :: l) = paths isdir listdir l := by
  have := split_spec (d := ['.']) hl (by simp) (by decide)
  unfold paths; rw [split_plain hl, show '.' :: '/' :: l = ['.'] ++ '/' :: l from rfl, this]; simp

theorem paths_example : paths (fun _ => true) (fun d => if d = ['m'] then [['a', 'b'], ['.', 'a'], ['b']] else []) ['m', '/', 'a'] = some [['m', '/', 'a', 'b']] ∧
    paths (fun _ => true) (fun d => if d = ['m'] then [['a', 'b'], ['.', 'a'], ['b']] else []) ['m', '/'] = some [['m', '/', 'a', 'b'], ['m', '/', 'b']] ∧
    paths (fun _ => true) (fun d => if d = ['/'] then [['m']] else []) ['/'] = some [['/', 'm']] := by
  refine ⟨?_, ?_, ?_⟩ <;> decide +kernel

/-! ## Directories -/

/-- Where one is, and `dirStack`, titus/inspector/main.py 153-166. -/
structure Dirs (D : Type) where
  cwd : D
  stack : List D

/-- The file system: what a path leads to from a directory when that is a directory, `os.path.expanduser`, and whether a directory is still there. -/
structure Fs (D : Type) where
  resolve : D → String → Option D
  expand : String → String
  alive : D → Bool

variable {D : Type}

/-- `cd`, titus/inspector/main.py 153-161: the directory is put on the stack before the step. -/
def cd (fs : Fs D) (st : Dirs D) (x : String) : Option Err × Dirs D := match fs.resolve st.cwd x with
  | none => (some insp, st)
  | some _ => match fs.resolve st.cwd (fs.expand x) with
    | none => (some (.py "OSError"), { st with stack := st.cwd :: st.stack })
    | some d => (none, ⟨d, st.cwd :: st.stack⟩)

/-- `back`, titus/inspector/main.py 162-164: the directory is taken from the stack before the step. -/
def back (fs : Fs D) (st : Dirs D) : Option Err × Dirs D := match st.stack with
  | [] => (some insp, st)
  | d :: r => if fs.alive d then (none, ⟨d, r⟩) else (some (.py "OSError"), { st with stack := r })

/-- `cd` several times, as long as it succeeds. -/
def cds (fs : Fs D) : Dirs D → List String → Option (Dirs D)
  | st, [] => some st
  | st, x :: xs => match cd fs st x with
    | (none, st') => cds fs st' xs
    | _ => none

/-- `back` several times, as long as it succeeds. -/
def backs (fs : Fs D) : Dirs D → Nat → Option (Dirs D)
  | st, 0 => some st
  | st, n + 1 => match back fs st with
    | (none, st') => backs fs st' n
    | _ => none

theorem backs_add (fs : Fs D) : ∀ (n m : Nat) (st : Dirs D), backs fs st (n + m) = (backs fs st n).bind fun st => backs fs st m
  | 0, m, st => by simp [backs]
  | n + 1, m, st => by
    rw [show n + 1 + m = (n + m) + 1 from by omega, backs, backs]
    rcases back fs st with ⟨_ | e, st'⟩
    · exact backs_add fs n m st'
    · rfl

/-- **`back` undoes `cd`**: as many times as one has gone on, and one is where one was. -/
theorem cds_backs {fs : Fs D} (ha : ∀ d, fs.alive d = true) : ∀ (xs : List String) (st st' : Dirs D), cds fs st xs = some st' → backs fs st' xs.length = some st
  | [], st, st', h => by simpa [cds, backs, eq_comm] using h
  | x :: xs, st, st', h => by
    rw [cds] at h
    split at h
    · next st1 h1 =>
      have ih := cds_backs ha xs st1 st' h
      rw [List.length_cons, backs_add, ih]
      unfold cd at h1
      split at h1
      · cases h1
      · split at h1
        · cases h1
        · cases h1
          simp [backs, back, ha]
    · cases h

/-- With nothing on the stack `back` is an error of the inspector and changes nothing. -/
theorem back_empty (fs : Fs D) (d : D) : back fs ⟨d, []⟩ = (some insp, ⟨d, []⟩) := rfl

/-- The home directory cannot be reached with a tilde unless there is a directory of that name here: the test is made before the tilde is replaced. -/
theorem tilde_violation {fs : Fs D} {st : Dirs D} {x : String} {home : D} (h : fs.resolve st.cwd (fs.expand x) = some home) (hx : fs.resolve st.cwd x = none) :
    fs.resolve st.cwd (fs.expand x) = some home ∧ cd fs st x = (some insp, st) := ⟨h, by simp [cd, hx]⟩

/-- A `cd` or `back` that fails leaves the stack changed. -/
theorem failed_violation {fs : Fs D} {st : Dirs D} :
    (∀ x d, fs.resolve st.cwd x = some d → fs.resolve st.cwd (fs.expand x) = none → (cd fs st x).2.stack = st.cwd :: st.stack ∧ (cd fs st x).1 ≠ none) ∧
    (∀ d r, st.stack = d :: r → fs.alive d = false → (back fs st).2.stack = r ∧ (back fs st).1 ≠ none) := by
  refine ⟨fun x d h1 h2 => by simp [cd, h1, h2], fun d r h1 h2 => by simp [back, h1, h2]⟩

/-! ## An example -/

/-- A command and two gadgets. -/
def root : Command := .group true [("load", .leaf "load"), ("json", .group false [("look", .leaf "json look"), ("count", .leaf "json count")]),
  ("pfa", .group false [("cells", .leaf "pfa cells"), ("calls", .leaf "pfa calls")])]

theorem root_example : Leads root ["pfa"] (.group false [("cells", .leaf "pfa cells"), ("calls", .leaf "pfa calls")]) ∧
    complete (fun _ _ _ => []) 2 root "pfa ".toList "ce" = ["cells "] ∧ Named "pfa" ∧
    action root [.word "pfa", .word "cells", .word "m"] = .ok (some ("pfa cells", [.word "m"])) :=
  ⟨.down rfl (.here _), by decide +kernel, ⟨'p', "fa".toList, by decide +kernel, by decide +kernel, by decide +kernel⟩, rfl⟩

/-- Directories as lists of names. -/
def tree : Fs (List String) := ⟨fun d x => if x = "~" then none else if x = "/home" then some ["home"] else some (x :: d), fun x => if x = "~" then "/home" else x, fun _ => true⟩

theorem tree_example : ∃ st, cds tree ⟨["work"], []⟩ ["a", "b"] = some st ∧ st.cwd = ["b", "a", "work"] ∧ cd tree ⟨["work"], []⟩ "~" = (some insp, ⟨["work"], []⟩) ∧
    tree.resolve ["work"] (tree.expand "~") = some ["home"] := by
  refine ⟨_, rfl, rfl, rfl, rfl⟩

end Verif.Inspector.Groups
