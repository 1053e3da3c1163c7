import Verif.Inspector.Complete
import Verif.Inspector.Changed
import Verif.Pretty.Lex
/-! # Completions lead on (C107) -/

namespace Verif.Inspector
open Avro Producer

/-- The parts of an object or list with their places. -/
def parts : Val → List (Ix × Val)
  | .dict d => d.map fun kv => (.key kv.1, kv.2)
  | .arr xs => xs.zipIdx.map fun p => (.pos p.2, p.1)
  | _ => []

/-- A key that is read as it is: a word, or a text with a blank and without quotation marks, backslashes and line breaks. -/
def Plain (k : String) : Prop := (∃ c cs, k.toList = c :: cs ∧ c.isAlpha = true ∧ ∀ x ∈ cs, wordChar x = true) ∨
  (' ' ∈ k.toList ∧ ∀ x ∈ k.toList, x ≠ '"' ∧ x ≠ '\\' ∧ x ≠ '\n' ∧ x ≠ '\r')

/-! ## One completion -/

theorem takeWhile_stop {α : Type} {p : α → Bool} {l r : List α} (h : ∀ x ∈ l, p x = true) (hr : ∀ x ∈ r.head?, p x = false) :
    (l ++ r).takeWhile p = l ∧ (l ++ r).dropWhile p = r := by
  induction l with
  | nil =>
    cases r with
    | nil => exact ⟨rfl, rfl⟩
    | cons x r => simp [hr x (by simp)]
  | cons x l ih =>
    have := ih fun y hy => h y (by simp [hy])
    simp [h x (by simp), this.1, this.2]

theorem mem_takeWhile {α : Type} {p : α → Bool} {l : List α} {c : α} (h : c ∈ l.takeWhile p) : p c = true :=
  List.all_eq_true.1 List.all_takeWhile c h

/-- What comes after a completion, and more after it. -/
def Ends (t : List Char) : Prop := ∃ c r, t = c :: r ∧ (c = ',' ∨ c = ']')

theorem ending_ends (v : Val) (r : List Char) : Ends (ending v ++ r) := by
  unfold ending
  split
  · exact ⟨_, _, rfl, .inl rfl⟩
  · exact ⟨_, _, rfl, .inr rfl⟩

theorem ending_stop {p : Char → Bool} {t : List Char} (ht : Ends t) (h1 : p ',' = false) (h2 : p ']' = false) : ∀ x ∈ t.head?, p x = false := by
  obtain ⟨c, r, e, hc⟩ := ht
  rw [e]
  rcases hc with rfl | rfl <;> simpa

/-- What is left after the characters of paths does not begin with a slash. -/
theorem no_path {cs : List Char} (h : ∀ x ∈ cs, x ≠ '/') {t : List Char} (ht : Ends t) : begins '/' ((cs ++ t).dropWhile pathChar) = false := by
  induction cs with
  | nil =>
    obtain ⟨c, r, e, hc⟩ := ht
    rw [List.nil_append, e]
    rcases hc with rfl | rfl <;> rfl
  | cons x cs ih =>
    rw [List.cons_append, List.dropWhile_cons]
    split
    · exact ih fun y hy => h y (by simp [hy])
    · simpa [begins] using h x (by simp)

theorem wordChar_slash {x : Char} (h : wordChar x = true) : x ≠ '/' := by
  rintro rfl; revert h; decide

theorem alpha_word {x : Char} (h : x.isAlpha = true) : wordChar x = true := by
  simp [wordChar, Char.isAlphanum, h]

theorem word_read {c : Char} {cs : List Char} (hc : c.isAlpha = true) (hcs : ∀ x ∈ cs, wordChar x = true) {t : List Char} (ht : Ends t) :
    index1 (c :: cs ++ t) = some (.key (String.ofList (c :: cs)), t) := by
  have hs := takeWhile_stop hcs (ending_stop (p := wordChar) ht (by decide) (by decide))
  have h0 : (c == '_') = false := by
    cases h : c == '_' with
    | false => rfl
    | true => rw [beq_iff_eq] at h; subst h; revert hc; decide
  have h1 : begins '[' (t) = false := by
    obtain ⟨x, r, e, hx⟩ := ht
    rw [e]
    rcases hx with rfl | rfl <;> rfl
  have h2 : begins '/' (((c :: cs) ++ t).dropWhile pathChar) = false := by
    refine no_path (fun x hx => ?_) ht
    rcases List.mem_cons.1 hx with rfl | hx
    · exact wordChar_slash (alpha_word hc)
    · exact wordChar_slash (hcs x hx)
  rw [List.cons_append] at h2 ⊢
  simp only [index1, h0, hs.1, hs.2, h1, h2, hc, Bool.and_false, Bool.false_eq_true, if_false, if_true]

theorem quoted_read {cs : List Char} (h : ∀ x ∈ cs, x ≠ '"' ∧ x ≠ '\\' ∧ x ≠ '\n' ∧ x ≠ '\r') (rest : List Char) :
    quoted (cs ++ '"' :: rest) = some (.key (String.ofList cs), rest) := by
  have hs := takeWhile_stop (p := fun c => c != '"' && c != '\\') (l := cs) (r := '"' :: rest) (fun x hx => by simp [h x hx]) (by simp)
  have hn : (cs.any fun c => c == '\n' || c == '\r') = false := by
    rw [List.any_eq_false]
    intro x hx
    simp [h x hx]
  unfold quoted
  rw [hs.2, hs.1]
  simp [hn]

/-- The completion of a key is read as the key exactly if the key is plain (keys with backslashes left aside). -/
theorem key_read_iff {k : String} (hb : '\\' ∉ k.toList) {t : List Char} (ht : Ends t) : index1 (quote k.toList ++ t) = some (.key k, t) ↔ Plain k := by
  constructor
  · intro h
    by_cases hsp : ' ' ∈ k.toList
    · refine .inr ⟨hsp, ?_⟩
      rw [quote, if_pos hsp] at h
      simp only [List.cons_append, index1] at h
      have h1 : begins '/' ('"' :: (k.toList ++ ['"'] ++ t) |>.dropWhile pathChar) = false := rfl
      rw [if_neg (by decide), if_neg (by simp [show ('"' : Char).isAlpha = false by decide]), if_neg (by rw [h1]; decide), if_neg (by decide), if_pos (by decide)] at h
      unfold quoted at h
      split at h
      · next rest hd =>
        split at h
        · cases h
        · next hn =>
          simp only [Option.some.injEq, Prod.mk.injEq, Ix.key.injEq] at h
          have hk : (k.toList ++ ['"'] ++ t).takeWhile (fun c => c != '"' && c != '\\') = k.toList := by
            rw [← String.toList_ofList (l := (k.toList ++ ['"'] ++ t).takeWhile _), h.1]
          rw [hk] at hn
          intro x hx
          have h2 := mem_takeWhile (hk ▸ hx)
          simp only [Bool.and_eq_true, bne_iff_ne, ne_eq] at h2
          simp only [Bool.not_eq_true, List.any_eq_false] at hn
          have h3 := hn x hx
          simp only [Bool.or_eq_false_iff, beq_eq_false_iff_ne, ne_eq] at h3
          exact ⟨h2.1, h2.2, h3.1, h3.2⟩
      · cases h
    · refine .inl ?_
      rw [quote, if_neg hsp] at h
      have hi : ∀ sg cs, ¬ ∃ r, integer sg cs = some (.key k, r) := by
        rintro sg cs ⟨r, hr⟩
        unfold integer at hr
        split at hr
        · cases hr
        · split at hr <;> simp at hr
      cases hk : k.toList with
      | nil =>
        rw [hk] at h
        obtain ⟨c, r, e, hc⟩ := ht
        rw [List.nil_append, e] at h
        rcases hc with rfl | rfl
        · have : index1 (',' :: r) = integer [] (',' :: r) := rfl
          exact absurd ⟨_, this ▸ h⟩ (hi [] _)
        · have : index1 (']' :: r) = integer [] (']' :: r) := rfl
          exact absurd ⟨_, this ▸ h⟩ (hi [] _)
      | cons c cs =>
        rw [hk, List.cons_append] at h
        simp only [index1] at h
        split at h
        · cases h
        split at h
        · cases h
        split at h
        · cases h
        split at h
        · next hc =>
          simp only [Option.some.injEq, Prod.mk.injEq, Ix.key.injEq] at h
          have he : c :: (cs ++ t).takeWhile wordChar = c :: cs := by
            rw [← hk, ← h.1, String.toList_ofList]
          simp only [List.cons.injEq, true_and] at he
          exact ⟨c, cs, rfl, hc, fun x hx => mem_takeWhile (he ▸ hx)⟩
        split at h
        · next hq =>
          rw [beq_iff_eq] at hq
          subst hq
          unfold quoted at h
          split at h
          · split at h
            · cases h
            · simp only [Option.some.injEq, Prod.mk.injEq, Ix.key.injEq] at h
              have he : (cs ++ t).takeWhile (fun c => c != '"' && c != '\\') = '"' :: cs := by
                rw [← hk, ← h.1, String.toList_ofList]
              have := mem_takeWhile (c := '"') (he ▸ List.mem_cons_self)
              simp at this
          · cases h
        split at h
        · exact absurd ⟨_, h⟩ (hi _ _)
        · exact absurd ⟨_, h⟩ (hi _ _)
  · rintro (⟨c, cs, e, hc, hcs⟩ | ⟨hsp, h⟩)
    · have hsp : ' ' ∉ k.toList := by
        rw [e]
        intro h
        have : wordChar ' ' = true := by
          rcases List.mem_cons.1 h with h | h
          · exact alpha_word (h ▸ hc)
          · exact hcs _ h
        revert this; decide
      rw [quote, if_neg hsp, e, word_read hc hcs ht, ← e, String.ofList_toList]
    · rw [quote, if_pos hsp]
      have := quoted_read h (t)
      rw [String.ofList_toList] at this
      have h1 : begins '/' ('"' :: (k.toList ++ ['"'] ++ t) |>.dropWhile pathChar) = false := rfl
      simp only [List.cons_append, index1]
      rw [if_neg (by decide), if_neg (by simp [show ('"' : Char).isAlpha = false by decide]), if_neg (by rw [h1]; decide), if_neg (by decide), if_pos (by decide)]
      rw [List.append_assoc]
      exact this

theorem fmt_nat (n : Nat) : Lib.Num.fmt 10 n = Lib.Num.natStr 10 (n + 1) n := by
  have : Lib.Num.signStr (n : Int) = [] := by simp [Lib.Num.signStr]
  simp [Lib.Num.fmt, Lib.Num.digitsStr, this]

/-- The digits of a number with zeros before them. -/
theorem padded_digits (k n : Nat) : (∀ c ∈ padded k n, c.isDigit = true) ∧ padded k n ≠ [] ∧ Lib.Num.pyInt 10 (padded k n) = some (n : Int) := by
  have hb := Lib.Num.natStr_body 10 (by decide) (by decide) (n + 1) n (by omega)
  refine ⟨?_, ?_, ?_⟩
  · intro c hc
    rw [padded, fmt_nat] at hc
    rcases List.mem_append.1 hc with h | h
    · rw [(List.mem_replicate.1 h).2]; rfl
    · exact Pretty.Lex.digits_digit _ _ c h
  · obtain ⟨c, l, e, _⟩ := Pretty.Lex.digits_head (n + 1) n (by omega)
    rw [padded, fmt_nat, e]
    simp
  · rw [Lib.Num.pyInt_iff, padded, fmt_nat]
    exact ⟨[], [], [], _, [], 1, n, by simp; rfl, by simp, by simp, .none, .none, hb.zeros (by omega) _, by simp⟩

theorem floats_ends {t : List Char} (ht : Ends t) : floats t = false := by
  obtain ⟨c, r, rfl, hc⟩ := ht
  have h1 : (c == 'e' || c == 'E') = false := by rcases hc with rfl | rfl <;> rfl
  unfold floats
  split
  · next h =>
    injection h with h _
    subst h
    revert hc; decide
  · next h => injection h with h _; rw [← h, h1]; rfl
  · next h => injection h with h _; rw [← h, h1]; rfl
  · next h => injection h with h _; rw [← h, h1]; rfl
  · rfl

/-- The completion of a place in a list is read as the place. -/
theorem pos_read (k n : Nat) {t : List Char} (ht : Ends t) : index1 (quote (padded k n) ++ t) = some (.pos n, t) := by
  obtain ⟨hd, hne, hp⟩ := padded_digits k n
  have hsp : ' ' ∉ padded k n := fun h => by have := hd _ h; revert this; decide
  rw [quote, if_neg hsp]
  have hs := takeWhile_stop hd (ending_stop (p := Char.isDigit) ht (by decide) (by decide))
  have hpath := no_path (cs := padded k n) (fun x hx e => by have := hd x hx; rw [e] at this; revert this; decide) ht
  have hfl : floats t = false := floats_ends ht
  cases hc : padded k n with
  | nil => exact absurd hc hne
  | cons c cs =>
    rw [hc] at hd hs hpath hp
    have hc1 := hd c (by simp)
    have ha : c.isAlpha = false := by
      cases h : c.isAlpha with
      | false => rfl
      | true =>
        simp only [Char.isDigit, Char.isAlpha, Char.isUpper, Char.isLower, Bool.and_eq_true, Bool.or_eq_true, decide_eq_true_eq] at h hc1
        have h1 := hc1.2
        rcases h with h | h
        · exact absurd (UInt32.le_trans h.1 h1) (by decide)
        · exact absurd (UInt32.le_trans h.1 h1) (by decide)
    have hx : ∀ x : Char, x.isDigit = false → (c == x) = false := by
      intro x hx
      cases h : c == x with
      | false => rfl
      | true => rw [beq_iff_eq] at h; rw [h, hx] at hc1; cases hc1
    rw [List.cons_append] at hs hpath ⊢
    simp only [index1, hx '_' (by decide), hx '"' (by decide), hx '-' (by decide), ha, hpath, Bool.false_and, Bool.false_eq_true, if_false]
    rw [integer, hs.1, hs.2, hfl]
    simp [hp]

/-! ## Completions -/

theorem str_parts : ∀ (items : List Ix) (s : String) {w : Val}, extaction (.str s) items = .ok w → isPart w = false
  | [], _, _, h => by cases h; rfl
  | .key k :: is, s, w, h => by cases h
  | .pos i :: is, s, w, h => by
    rw [extaction] at h
    cases hs : step (.str s) (.pos i) with
    | error e => rw [hs] at h; cases h
    | ok u =>
      rw [hs] at h
      simp only [step] at hs
      split at hs
      · cases hs; exact str_parts is _ h
      · cases hs

/-- Where there is an object or list, the loop finds it. -/
theorem descend_ok : ∀ (items : List Ix) {v node : Val}, extaction v items = .ok node → isPart node = true → descend v items = .ok (some node)
  | [], v, node, h, _ => by cases h; cases v <;> rfl
  | i :: is, v, node, h, hn => by
    have h0 := h
    rw [extaction] at h
    cases hs : step v i with
    | error e => rw [hs] at h; cases h
    | ok u =>
      rw [hs] at h
      have ih := descend_ok is h hn
      cases v with
      | dict d =>
        cases i with
        | pos i => cases hs
        | key k =>
          simp only [step] at hs
          split at hs
          · next hg => cases hs; simp only [descend, hg, ih]
          · cases hs
      | arr xs =>
        cases i with
        | key k => cases hs
        | pos i =>
          have hl : i < xs.length := by
            simp only [step] at hs
            by_contra hl
            have : place xs.length i = none := by
              unfold place
              simp only [not_lt] at hl
              split
              · rw [if_neg (by omega)]
              · omega
            rw [this] at hs
            cases hs
          simp only [descend, hl, if_true, hs, ih]
      | str s =>
        have := str_parts _ _ h0
        rw [hn] at this; cases this
      | _ => cases i <;> cases hs

theorem extaction_snoc : ∀ (items : List Ix) {v node : Val} (i : Ix), extaction v items = .ok node → extaction v (items ++ [i]) = extaction node [i]
  | [], _, _, _, h => by cases h; rfl
  | j :: is, v, node, i, h => by
    rw [extaction] at h
    rw [List.cons_append, extaction]
    cases hs : step v j with
    | error e => rw [hs] at h; cases h
    | ok u => rw [hs] at h; exact extaction_snoc is i h

/-- The text of the completion for one part of `node`. -/
def entry (node : Val) (p : Ix × Val) : List Char := match p.1 with
  | .key k => quote k.toList ++ ending p.2
  | .pos i => quote (padded (Nat.clog 10 (parts node).length) i.toNat) ++ ending p.2

theorem parts_read {node : Val} (hd : ∀ d, node = .dict d → (PyDict.keys d).Nodup ∧ ∀ k ∈ PyDict.keys d, Plain k) :
    ∀ p ∈ parts node, (∀ r, index1 (entry node p ++ r) = some (p.1, ending p.2 ++ r)) ∧ extaction node [p.1] = .ok p.2 := by
  intro p hp
  cases node with
  | dict d =>
    obtain ⟨hn, hk⟩ := hd d rfl
    obtain ⟨⟨k, w⟩, hm, rfl⟩ := List.mem_map.1 hp
    have hkm : k ∈ PyDict.keys d := List.mem_map.2 ⟨_, hm, rfl⟩
    have hb : '\\' ∉ k.toList := by
      rcases hk k hkm with ⟨c, cs, e, hc, hcs⟩ | ⟨_, h⟩
      · rw [e]
        intro h
        have : wordChar '\\' = true := by
          rcases List.mem_cons.1 h with h | h
          · exact alpha_word (h ▸ hc)
          · exact hcs _ h
        revert this; decide
      · exact fun h' => (h _ h').2.1 rfl
    refine ⟨fun r => by simpa [entry] using (key_read_iff hb (ending_ends w r)).2 (hk k hkm), ?_⟩
    have : PyDict.get? d k = some w := PyDict.get?_of_mem hn hm
    simp [extaction, step, this]
  | arr xs =>
    obtain ⟨⟨w, i⟩, hm, rfl⟩ := List.mem_map.1 hp
    refine ⟨fun r => by simpa [entry] using pos_read _ i (ending_ends w r), ?_⟩
    have hg := List.mem_zipIdx hm
    simp only [Nat.zero_add, Nat.sub_zero] at hg
    obtain ⟨_, hl, hw⟩ := hg
    have : place xs.length (i : Int) = some i := by simp [place, hl]
    simp [extaction, step, this, hl, hw]
  | _ => simp [parts] at hp

/-- **Completions lead on**: where an object or a list is, there is one completion for each of its parts, in order; each is read as the place of the part,
leads to it, and is open exactly if the part has parts itself. -/
theorem completions_lead_partial {v node : Val} {items : List Ix} (h : extaction v items = .ok node) (hp : isPart node = true) (hne : node ≠ .arr [])
    (hd : ∀ d, node = .dict d → (PyDict.keys d).Nodup ∧ ∀ k ∈ PyDict.keys d, Plain k) :
    ∃ cs, completions v items = .ok cs ∧ List.Forall₂ (fun c p => index1 c = some (p.1, if isPart p.2 then [',', ' '] else [']']) ∧
      extaction v (items ++ [p.1]) = .ok p.2) cs (parts node) := by
  refine ⟨(parts node).map (entry node), ?_, ?_⟩
  · rw [completions, descend_ok items h hp]
    cases node with
    | dict d => simp [parts, entry]
    | arr xs =>
      cases xs with
      | nil => exact absurd rfl hne
      | cons x xs => simp [parts, entry, -List.zipIdx_cons]
    | _ => cases hp
  · rw [List.forall₂_map_left_iff, List.forall₂_same]
    intro p hpm
    obtain ⟨h1, h2⟩ := parts_read hd p hpm
    exact ⟨by simpa [ending] using h1 [], by rw [extaction_snoc items p.1 h, h2]⟩

/-- Everything else has no completions. -/
theorem completions_none {v node : Val} {items : List Ix} (h : extaction v items = .ok node) (hp : isPart node = false) (hs : ∀ i ∈ items, ∀ n, i ≠ .pos n ∨ 0 ≤ n) :
    completions v items = .ok [] := by
  have key : ∀ (items : List Ix) (v : Val), (∀ i ∈ items, ∀ n, i ≠ .pos n ∨ 0 ≤ n) → extaction v items = .ok node →
      descend v items = .ok none ∨ descend v items = .ok (some node) := by
    intro items
    induction items with
    | nil => intro v _ h; cases h; right; cases v <;> rfl
    | cons i is ih =>
      intro v hs h
      rw [extaction] at h
      cases hst : step v i with
      | error e => rw [hst] at h; cases h
      | ok u =>
        rw [hst] at h
        have ih := ih u (fun j hj => hs j (by simp [hj])) h
        cases v with
        | dict d =>
          cases i with
          | pos i => cases hst
          | key k =>
            simp only [step] at hst
            split at hst
            · next hg => cases hst; simpa only [descend, hg] using ih
            · cases hst
        | arr xs =>
          cases i with
          | key k => cases hst
          | pos i =>
            by_cases hl : i < xs.length
            · simpa only [descend, hl, if_true, hst] using ih
            · left; simp [descend, hl]
        | _ => left; cases i <;> rfl
  rcases key items v hs h with h | h
  · rw [completions, h]
  · rw [completions, h]
    cases node <;> first | rfl | cases hp

/-- The exceptions: an empty list, and negative numbers that are too small. -/
theorem completions_error {v : Val} {items : List Ix} {e : Err} (h : completions v items = .error e) :
    (e = .py "ValueError" ∧ extaction v items = .ok (.arr [])) ∨ (e = indexErr ∧ ∃ i < 0, Ix.pos i ∈ items) := by
  have key : ∀ (items : List Ix) (v : Val), (∀ e, descend v items = .error e → e = indexErr ∧ ∃ i < 0, Ix.pos i ∈ items) ∧
      ∀ w, descend v items = .ok (some w) → extaction v items = .ok w := by
    intro items
    induction items with
    | nil =>
      intro v
      refine ⟨fun e h => ?_, fun w h => ?_⟩
      · cases v <;> cases h
      · cases v <;> · simp only [descend, Except.ok.injEq, Option.some.injEq] at h; rw [← h]; rfl
    | cons i is ih =>
      intro v
      cases v with
      | dict d =>
        cases i with
        | pos i => exact ⟨fun e h => (by cases h), fun w h => (by cases h)⟩
        | key k =>
          cases hg : PyDict.get? d k with
          | none => simp [descend, hg]
          | some u =>
            have := ih u
            refine ⟨fun e h => ?_, fun w h => ?_⟩
            · simp only [descend, hg] at h
              obtain ⟨h1, i, hi, hm⟩ := this.1 e h
              exact ⟨h1, i, hi, by simp [hm]⟩
            · simp only [descend, hg] at h
              simp [extaction, step, hg, this.2 w h]
      | arr xs =>
        cases i with
        | key k => exact ⟨fun e h => (by cases h), fun w h => (by cases h)⟩
        | pos i =>
          by_cases hl : i < xs.length
          · cases hst : step (.arr xs) (.pos i) with
            | error e' =>
              refine ⟨fun e h => ?_, fun w h => ?_⟩
              · simp only [descend, hl, if_true, hst, Except.error.injEq] at h
                subst h
                simp only [step] at hst
                split at hst
                · cases hst
                · next hn =>
                  cases hst
                  refine ⟨rfl, i, ?_, by simp⟩
                  by_contra h0
                  have hp : place xs.length i = some i.toNat := by simp [place, not_lt.1 h0, hl]
                  rw [hp] at hn
                  simp only [Option.bind_some, List.getElem?_eq_none_iff] at hn
                  omega
              · simp [descend, hl, hst] at h
            | ok u =>
              have := ih u
              refine ⟨fun e h => ?_, fun w h => ?_⟩
              · simp only [descend, hl, if_true, hst] at h
                obtain ⟨h1, j, hj, hm⟩ := this.1 e h
                exact ⟨h1, j, hj, by simp [hm]⟩
              · simp only [descend, hl, if_true, hst] at h
                rw [extaction, hst]
                exact this.2 w h
          · simp [descend, hl]
      | _ => cases i <;> exact ⟨fun e h => (by cases h), fun w h => (by cases h)⟩
  obtain ⟨k1, k2⟩ := key items v
  unfold completions at h
  split at h
  · next hd => cases h; exact .inr (k1 _ hd)
  · cases h
  · next hd => cases h; exact .inl ⟨rfl, k2 _ hd⟩
  · cases h
  · cases h

/-! ## A whole path -/

/-- The text that comes from taking the completions along a path. -/
def taken : Val → List Ix → List Char
  | _, [] => []
  | v, i :: is => match step v i with
    | .ok w => entry v (i, w) ++ taken w is
    | .error _ => []

/-- Keys are distinct and plain everywhere, and positions count from the start. -/
inductive Along : Val → List Ix → Val → Prop
  | last {v w : Val} {i : Ix} (h : (i, w) ∈ parts v) (hd : ∀ d, v = .dict d → (PyDict.keys d).Nodup ∧ ∀ k ∈ PyDict.keys d, Plain k) : Along v [i] w
  | more {v u w : Val} {i : Ix} {is : List Ix} (h : (i, u) ∈ parts v) (hd : ∀ d, v = .dict d → (PyDict.keys d).Nodup ∧ ∀ k ∈ PyDict.keys d, Plain k)
      (hu : Along u is w) : Along v (i :: is) w

theorem Along.part {v w : Val} {is : List Ix} (h : Along v is w) : isPart v = true := by
  cases h with
  | last h _ => cases v <;> first | rfl | simp [parts] at h
  | more h _ _ => cases v <;> first | rfl | simp [parts] at h

/-- No token begins with a blank. -/
theorem index1_blank {cs : List Char} {r : Ix × List Char} (h : index1 cs = some r) : skipBlanks cs = cs := by
  cases cs with
  | nil => rfl
  | cons c cs =>
    have h1 : c ≠ ' ' := by rintro rfl; rw [show index1 (' ' :: cs) = if begins '/' ((' ' :: cs).dropWhile pathChar) then none else integer [] (' ' :: cs) from rfl] at h; cases h
    have h2 : c ≠ '\t' := by rintro rfl; cases h
    simp [skipBlanks, h1, h2]

/-- **Taking completions types the path**: the text is read as the path, and it is closed exactly if its end has no parts. -/
theorem taken_read {v w : Val} {is : List Ix} (h : Along v is w) : readIndexes is.length (taken v is) = some (is, !isPart w) ∧ extaction v is = .ok w := by
  induction h with
  | @last v w i h hd =>
    obtain ⟨h1, h2⟩ := parts_read hd _ h
    have hst : step v i = .ok w := by
      rw [extaction] at h2
      cases hs : step v i with
      | error e => rw [hs] at h2; cases h2
      | ok u => rw [hs] at h2; simpa [extaction] using h2
    have h3 := h1 []
    refine ⟨?_, h2⟩
    simp only [taken, hst, List.length_singleton, readIndexes]
    rw [index1_blank h3, h3]
    cases hp : isPart w <;> simp [ending, hp, skipBlanks]
  | @more v u w i is h hd hu ih =>
    obtain ⟨h1, h2⟩ := parts_read hd _ h
    have hst : step v i = .ok u := by
      rw [extaction] at h2
      cases hs : step v i with
      | error e => rw [hs] at h2; cases h2
      | ok u => rw [hs] at h2; simpa [extaction] using h2
    have h3 := h1 (taken u is)
    have hp := hu.part
    refine ⟨?_, by rw [extaction, hst]; exact ih.2⟩
    have hb := ih.1
    have hsk : readIndexes is.length (' ' :: taken u is) = readIndexes is.length (taken u is) := by
      cases is.length <;> simp [readIndexes, skipBlanks]
    have hne : (skipBlanks (' ' :: taken u is)).isEmpty = false := by
      cases hx : skipBlanks (' ' :: taken u is) with
      | cons => rfl
      | nil =>
        have hx' : skipBlanks (taken u is) = [] := by simpa [skipBlanks] using hx
        cases hl : is.length with
        | zero => rw [hl] at hb; simp [readIndexes] at hb
        | succ n => rw [hl] at hb; simp [readIndexes, hx', index1] at hb
    simp only [taken, hst, List.length_cons, readIndexes]
    rw [index1_blank h3, h3]
    simp only [ending, hp, if_true, List.cons_append, List.nil_append]
    have : skipBlanks (',' :: ' ' :: taken u is) = ',' :: ' ' :: taken u is := rfl
    rw [this]
    simp only [hne, Bool.false_eq_true, if_false]
    rw [hsk, hb]

/-! ## An example, and completions that do not lead on -/

def sample : Val := .dict [("cells", .dict [("my model", .arr [.int 1, .dict [("x", .null)]])]), ("name", .str "N")]

theorem sample_completions : completions sample [] = .ok ["cells, ".toList, "name]".toList] ∧
    completions sample [.key "cells", .key "my model"] = .ok ["0]".toList, "1, ".toList] ∧
    taken sample [.key "cells", .key "my model", .pos 1, .key "x"] = "cells, \"my model\", 1, x]".toList := by
  decide +kernel

theorem plain_word {k : String} (h : (match k.toList with | [] => false | c :: cs => c.isAlpha && cs.all wordChar) = true) : Plain k := by
  cases hk : k.toList with
  | nil => rw [hk] at h; cases h
  | cons c cs =>
    rw [hk, Bool.and_eq_true] at h
    exact .inl ⟨c, cs, hk, h.1, List.all_eq_true.1 h.2⟩

theorem sample_along : Along sample [.key "cells", .key "my model", .pos 1, .key "x"] .null := by
  refine .more (u := .dict [("my model", .arr [.int 1, .dict [("x", .null)]])]) (by simp [sample, parts]) ?_
    (.more (u := .arr [.int 1, .dict [("x", .null)]]) (by simp [parts]) ?_ (.more (u := .dict [("x", .null)]) (by simp [parts]) (by simp) (.last (by simp [parts]) ?_)))
  · intro d hd
    cases hd
    refine ⟨by simp [PyDict.keys], fun k hk => ?_⟩
    simp only [PyDict.keys, List.map_cons, List.map_nil, List.mem_cons, List.not_mem_nil, or_false] at hk
    rcases hk with rfl | rfl <;> exact plain_word (by decide +kernel)
  · intro d hd
    cases hd
    refine ⟨by simp [PyDict.keys], fun k hk => ?_⟩
    simp only [PyDict.keys, List.map_cons, List.map_nil, List.mem_cons, List.not_mem_nil, or_false] at hk
    subst hk
    exact .inr ⟨by decide +kernel, by decide +kernel⟩
  · intro d hd
    cases hd
    refine ⟨by simp [PyDict.keys], fun k hk => ?_⟩
    simp only [PyDict.keys, List.map_cons, List.map_nil, List.mem_cons, List.not_mem_nil, or_false] at hk
    subst hk
    exact plain_word (by decide +kernel)

/-- VIOLATION: completing in an empty list is a ValueError (the logarithm of 0). -/
theorem empty_violation (d : List (String × Val)) (k : String) : completions (.dict ((k, .arr []) :: d)) [.key k] = .error (.py "ValueError") := by
  simp [completions, descend, PyDict.get?]

/-- VIOLATION: below the beginning of a list it is an IndexError, beyond its end there are no completions. -/
theorem before_violation (x : Val) : completions (.arr [x]) [.pos (-2)] = .error indexErr ∧ completions (.arr [x]) [.pos 2] = .ok [] := ⟨rfl, rfl⟩

/-- VIOLATION: a key of digits is completed without quotation marks and read as a number, which raises a KeyError. -/
theorem digits_violation (v : Val) : index1 (quote "10".toList ++ ending v) = some (.pos 10, ending v) ∧
    extaction (.dict [("10", v)]) [.pos 10] = .error keyErr ∧ extaction (.dict [("10", v)]) [.key "10"] = .ok v := by
  refine ⟨?_, rfl, rfl⟩
  have h : quote "10".toList = quote (padded 2 10) := by decide +kernel
  have := pos_read 2 10 (ending_ends v [])
  rw [List.append_nil] at this
  rw [h, this]
  rfl

/-- VIOLATION: keys with a hyphen, a leading underscore or an apostrophe are completed to something else or to a syntax error. -/
theorem hyphen_violation : index1 (quote "a-b".toList ++ [']']) = some (.key "a", "-b]".toList) ∧ index1 (quote "_id".toList ++ [']']) = none ∧
    index1 (quote "a\"b c".toList ++ [']']) = some (.key "a", "b c\"]".toList) := by decide +kernel

/-- The letters, digits, underscore and dot of `[A-Za-z0-9_\.]`, by their codes. -/
def Worded (c : Char) : Prop :=
  (65 ≤ c.toNat ∧ c.toNat ≤ 90) ∨ (97 ≤ c.toNat ∧ c.toNat ≤ 122) ∨ (48 ≤ c.toNat ∧ c.toNat ≤ 57) ∨ c.toNat = 95 ∨ c.toNat = 46

theorem toNat_eq {c d : Char} : c = d ↔ c.toNat = d.toNat :=
  ⟨fun h => h ▸ rfl, fun h => Char.ext (UInt32.toNat_inj.1 h)⟩

theorem wordChar_iff (c : Char) : wordChar c = true ↔ Worded c := by
  have h1 : c = '_' ↔ c.toNat = 95 := toNat_eq
  have h2 : c = '.' ↔ c.toNat = 46 := toNat_eq
  simp only [wordChar, Char.isAlphanum, Char.isAlpha, Char.isUpper, Char.isLower, Char.isDigit, Bool.or_eq_true, Bool.and_eq_true, decide_eq_true_eq, beq_iff_eq,
    h1, h2, Worded, UInt32.le_iff_toNat_le, ge_iff_le]
  have e : c.val.toNat = c.toNat := rfl
  have a1 : 'A'.val.toNat = 65 := rfl
  have a2 : 'Z'.val.toNat = 90 := rfl
  have a3 : 'a'.val.toNat = 97 := rfl
  have a4 : 'z'.val.toNat = 122 := rfl
  have a5 : '0'.val.toNat = 48 := rfl
  have a6 : '9'.val.toNat = 57 := rfl
  simp only [e, a1, a2, a3, a4, a5, a6]
  omega

/-- The characters of a path: those of a word and `~@$%-+\`. -/
theorem pathChar_iff (c : Char) : pathChar c = true ↔ Worded c ∨ c ∈ ['~', '@', '$', '%', '-', '+', '\\'] := by
  simp only [pathChar, Bool.or_eq_true, wordChar_iff, beq_iff_eq, List.mem_cons, List.not_mem_nil, or_false]
  tauto

end Verif.Inspector
