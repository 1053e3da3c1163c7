import Verif.Producer.Look
/-! # The outline of a JSON document: theorems (C102) -/

namespace Verif.Producer
open Avro

/-! ## Depth -/

mutual
theorem acceptable_iff : ∀ (v : Val) (l : Int), acceptable v l = true ↔ 0 ≤ l ∧ height v ≤ l
  | .dict d, l => by
    rw [acceptable, height]
    split
    · next h => simp; omega
    · next h =>
      rw [acceptableD_iff d (l - 1)]
      constructor
      · rintro (h | rfl)
        · omega
        · simp only [heightD]; omega
      · intro h; left; omega
  | .arr xs, l => by
    rw [acceptable, height]
    split
    · next h => simp; omega
    · next h =>
      rw [acceptableL_iff xs (l - 1)]
      constructor
      · rintro (h | rfl)
        · omega
        · simp only [heightL]; omega
      · intro h; left; omega
  | .null, l | .bool _, l | .int _, l | .flt _, l | .str _, l | .bytes _, l => by simp [acceptable, height]
theorem acceptableD_iff : ∀ (d : List (String × Val)) (l : Int), acceptableD d l = true ↔ (heightD d : Int) ≤ l + 1 ∨ d = []
  | [], l => by simp [acceptableD]
  | (k, v) :: d, l => by
    have hv := acceptable_iff v l
    have hd := acceptableD_iff d l
    rw [acceptableD, Bool.and_eq_true, hv, hd, heightD]
    constructor
    · rintro ⟨h1, h2 | rfl⟩
      · left; omega
      · left; simp only [heightD]; omega
    · rintro (h1 | h)
      · exact ⟨by omega, .inl (by omega)⟩
      · cases h
theorem acceptableL_iff : ∀ (xs : List Val) (l : Int), acceptableL xs l = true ↔ (heightL xs : Int) ≤ l + 1 ∨ xs = []
  | [], l => by simp [acceptableL]
  | v :: d, l => by
    have hv := acceptable_iff v l
    have hd := acceptableL_iff d l
    rw [acceptableL, Bool.and_eq_true, hv, hd, heightL]
    constructor
    · rintro ⟨h1, h2 | rfl⟩
      · left; omega
      · left; simp only [heightL]; omega
    · rintro (h1 | h)
      · exact ⟨by omega, .inl (by omega)⟩
      · cases h
end

theorem height_mem {d : List (String × Val)} {k : String} {v : Val} (h : (k, v) ∈ d) : height v + 1 ≤ heightD d := by
  induction d with
  | nil => cases h
  | cons kv d ih =>
    obtain ⟨k', v'⟩ := kv
    rw [heightD]
    rcases List.mem_cons.1 h with h | h
    · cases h; omega
    · have := ih h; omega

theorem height_memL {xs : List Val} {v : Val} (h : v ∈ xs) : height v + 1 ≤ heightL xs := by
  induction xs with
  | nil => cases h
  | cons x xs ih =>
    rw [heightL]
    rcases List.mem_cons.1 h with h | h
    · cases h; omega
    · have := ih h; omega

/-! ## The rows, directly -/

mutual
/-- The rows of a part: `pre` stands before it, `e` after it. -/
def lines (T : Texts) (i w : Int) : Int → List Ix → List Char → List Char → List Char → Val → List Row
  | m, ix, pre, ind, e, .dict d =>
    if (height (.dict d) : Int) ≤ i then [(indexText w ix, ind ++ pre ++ dumps T (.dict d) ++ e)]
    else if m > 0 then (indexText w ix, ind ++ pre ++ ['{']) :: linesD T i w (m - 1) ix (ind ++ [' ', ' ']) d ++ [([], ind ++ ['}'] ++ e)]
    else [(indexText w ix, ind ++ pre ++ ['{', '.', '.', '.', '}'] ++ e)]
  | m, ix, pre, ind, e, .arr xs =>
    if (height (.arr xs) : Int) ≤ i then [(indexText w ix, ind ++ pre ++ dumps T (.arr xs) ++ e)]
    else if m > 0 then (indexText w ix, ind ++ pre ++ ['[']) :: linesL T i w (m - 1) ix (ind ++ [' ', ' ']) 0 xs ++ [([], ind ++ [']'] ++ e)]
    else [(indexText w ix, ind ++ pre ++ ['[', '.', '.', '.', ']'] ++ e)]
  | _, ix, pre, ind, e, v => [(indexText w ix, ind ++ pre ++ dumps T v ++ e)]
@[inherit_doc lines] def linesD (T : Texts) (i w : Int) : Int → List Ix → List Char → List (String × Val) → List Row
  | _, _, _, [] => []
  | m, ix, ind, (k, v) :: d =>
    lines T i w m (ix ++ [.key k]) (T.key k ++ [':', ' ']) ind (if d.isEmpty then [] else [',']) v ++ linesD T i w m ix ind d
@[inherit_doc lines] def linesL (T : Texts) (i w : Int) : Int → List Ix → List Char → Nat → List Val → List Row
  | _, _, _, _, [] => []
  | m, ix, ind, n, v :: xs => lines T i w m (ix ++ [.pos n]) [] ind (if xs.isEmpty then [] else [',']) v ++ linesL T i w m ix ind (n + 1) xs
end

/-- Entries with commas after all of them. -/
def commaD (T : Texts) (i w m : Int) (ix : List Ix) (ind : List Char) (d : List (String × Val)) : List Row :=
  d.flatMap fun kv => lines T i w m (ix ++ [.key kv.1]) (T.key kv.1 ++ [':', ' ']) ind [','] kv.2

/-- Elements with commas after all of them. -/
def commaL (T : Texts) (i w m : Int) (ix : List Ix) (ind : List Char) : Nat → List Val → List Row
  | _, [] => []
  | n, v :: xs => lines T i w m (ix ++ [.pos n]) [] ind [','] v ++ commaL T i w m ix ind (n + 1) xs

theorem onLast_snoc (f : List Char → List Char) : ∀ (b : List Row) (x s : List Char), onLast f (b ++ [(x, s)]) = .ok (b ++ [(x, f s)])
  | [], x, s => rfl
  | [r], x, s => by simp [onLast]
  | r :: r' :: b, x, s => by
    have := onLast_snoc f (r' :: b) x s
    rw [List.cons_append] at this
    rw [List.cons_append, List.cons_append, onLast, this]
    rfl

theorem onLast_append (f : List Char → List Char) (a : List Row) {b b' : List Row} (h : onLast f b = .ok b') : onLast f (a ++ b) = .ok (a ++ b') := by
  rcases List.eq_nil_or_concat b with rfl | ⟨c, r, rfl⟩
  · cases h
  · obtain ⟨x, s⟩ := r
    rw [List.concat_eq_append] at h ⊢
    rw [onLast_snoc] at h; cases h
    rw [← List.append_assoc, onLast_snoc, List.append_assoc]

theorem lstrip_ind {ind s : List Char} (hi : ∀ c ∈ ind, c = ' ') (hs : ∃ c t, s = c :: t ∧ c.isWhitespace = false) : lstrip (ind ++ s) = s := by
  obtain ⟨c, t, rfl, hc⟩ := hs
  unfold lstrip
  rw [List.dropWhile_append_of_pos]
  · rw [List.dropWhile_cons_of_neg (by simp [hc])]
  · intro c hc; rw [hi c hc]; decide

theorem rstripComma_one {s : List Char} (hs : ∃ t c, s = t ++ [c] ∧ c ≠ ',') : rstripComma (s ++ [',']) = s := by
  obtain ⟨t, c, rfl, hc⟩ := hs
  simp [rstripComma, hc]

theorem dumps_plain {T : Texts} (hT : T.plain) (v : Val) : (∃ c s, dumps T v = c :: s ∧ c.isWhitespace = false) ∧ ∃ s c, dumps T v = s ++ [c] ∧ c ≠ ',' := by
  cases v with
  | dict d => exact ⟨⟨'{', _, by rw [dumps]; rfl, by decide⟩, ⟨'{' :: dumpsD T d, '}', by rw [dumps], by decide⟩⟩
  | arr xs => exact ⟨⟨'[', _, by rw [dumps]; rfl, by decide⟩, ⟨'[' :: dumpsL T xs, ']', by rw [dumps], by decide⟩⟩
  | _ => rw [dumps] <;> first | exact hT _ | (intros; simp_all)

theorem last_append {a s : List Char} (h : ∃ t c, s = t ++ [c] ∧ c ≠ ',') : ∃ t c, a ++ s = t ++ [c] ∧ c ≠ ',' := by
  obtain ⟨t, c, rfl, hc⟩ := h
  exact ⟨a ++ t, c, by simp, hc⟩

/-- A text that begins with something visible and does not end with a comma. -/
def Firm (s : List Char) : Prop := (∃ c t, s = c :: t ∧ c.isWhitespace = false) ∧ ∃ t c, s = t ++ [c] ∧ c ≠ ','

theorem opens_firm {T : Texts} (hT : T.plain) {i m : Int} {v : Val} {o : List Char} (h : Opens T i m v o) : Firm o := by
  cases h with
  | all h => exact dumps_plain hT v
  | dict _ _ => exact ⟨⟨'{', [], rfl, by decide⟩, ⟨[], '{', rfl, by decide⟩⟩
  | arr _ _ => exact ⟨⟨'[', [], rfl, by decide⟩, ⟨[], '[', rfl, by decide⟩⟩
  | cutDict _ _ => exact ⟨⟨'{', ['.', '.', '.', '}'], by decide +kernel, by decide⟩, ⟨['{', '.', '.', '.'], '}', by decide +kernel, by decide⟩⟩
  | cutArr _ _ => exact ⟨⟨'[', ['.', '.', '.', ']'], by decide +kernel, by decide⟩, ⟨['[', '.', '.', '.'], ']', by decide +kernel, by decide⟩⟩

/-- The kinds of lines of a part. -/
theorem lines_form (T : Texts) {i : Int} (hi : 0 ≤ i) (w m : Int) (ix : List Ix) (v : Val) :
    (∃ o, Opens T i m v o ∧ (m ≤ 0 ∨ height v ≤ i) ∧ ∀ pre ind e, lines T i w m ix pre ind e v = [(indexText w ix, ind ++ pre ++ o ++ e)]) ∨
    (∃ d, v = .dict d ∧ i < heightD d ∧ 0 < m ∧ ∀ pre ind e,
      lines T i w m ix pre ind e v = (indexText w ix, ind ++ pre ++ ['{']) :: linesD T i w (m - 1) ix (ind ++ [' ', ' ']) d ++ [([], ind ++ ['}'] ++ e)]) ∨
    (∃ xs, v = .arr xs ∧ i < heightL xs ∧ 0 < m ∧ ∀ pre ind e,
      lines T i w m ix pre ind e v = (indexText w ix, ind ++ pre ++ ['[']) :: linesL T i w (m - 1) ix (ind ++ [' ', ' ']) 0 xs ++ [([], ind ++ [']'] ++ e)]) := by
  have leaf : (∀ d, v ≠ .dict d) → (∀ xs, v ≠ .arr xs) → height v = 0 ∧ ∀ pre ind e, lines T i w m ix pre ind e v = [(indexText w ix, ind ++ pre ++ dumps T v ++ e)] := by
    intro h1 h2
    cases v with
    | dict d => exact absurd rfl (h1 d)
    | arr xs => exact absurd rfl (h2 xs)
    | _ => exact ⟨by simp [height], by intros; rw [lines] <;> simp⟩
  cases v with
  | dict d =>
    by_cases h : (height (.dict d) : Int) ≤ i
    · exact .inl ⟨_, .all h, .inr h, fun pre ind e => by rw [lines, if_pos h]⟩
    · by_cases hm : m > 0
      · exact .inr (.inl ⟨d, rfl, by rw [height] at h; omega, hm, fun pre ind e => by rw [lines, if_neg h, if_pos hm]⟩)
      · exact .inl ⟨_, .cutDict (by omega) (by omega), .inl (by omega), fun pre ind e => by rw [lines, if_neg h, if_neg hm]; rfl⟩
  | arr xs =>
    by_cases h : (height (.arr xs) : Int) ≤ i
    · exact .inl ⟨_, .all h, .inr h, fun pre ind e => by rw [lines, if_pos h]⟩
    · by_cases hm : m > 0
      · exact .inr (.inr ⟨xs, rfl, by rw [height] at h; omega, hm, fun pre ind e => by rw [lines, if_neg h, if_pos hm]⟩)
      · exact .inl ⟨_, .cutArr (by omega) (by omega), .inl (by omega), fun pre ind e => by rw [lines, if_neg h, if_neg hm]; rfl⟩
  | _ =>
    have := leaf (by simp) (by simp)
    exact .inl ⟨_, .all (by omega), .inr (by omega), this.2⟩

theorem headed_lines {T : Texts} (hT : T.plain) {i : Int} (hi : 0 ≤ i) (w m : Int) (ix : List Ix) (v : Val) {ind : List Char} (hs : ∀ c ∈ ind, c = ' ') (pre : List Char) :
    headed w ix ind pre (lines T i w m ix [] ind [] v) = .ok (lines T i w m ix pre ind [','] v) := by
  rcases lines_form T hi w m ix v with ⟨o, ho, _, hl⟩ | ⟨d, rfl, _, _, hl⟩ | ⟨xs, rfl, _, _, hl⟩
  · rw [hl, hl, headed]
    have := onLast_snoc (· ++ [',']) [] (indexText w ix) (ind ++ pre ++ lstrip (ind ++ [] ++ o ++ []))
    rw [List.nil_append] at this
    rw [this, List.append_nil, List.append_nil, lstrip_ind hs (opens_firm hT ho).1]
    rfl
  · rw [hl, hl, List.cons_append, headed, ← List.cons_append, onLast_snoc, List.append_nil, List.append_nil,
      lstrip_ind hs ⟨'{', [], rfl, by decide⟩]
  · rw [hl, hl, List.cons_append, headed, ← List.cons_append, onLast_snoc, List.append_nil, List.append_nil,
      lstrip_ind hs ⟨'[', [], rfl, by decide⟩]

theorem strip_lines {T : Texts} (hT : T.plain) {i : Int} (hi : 0 ≤ i) (w m : Int) (ix : List Ix) (v : Val) (ind pre : List Char) :
    onLast rstripComma (lines T i w m ix pre ind [','] v) = .ok (lines T i w m ix pre ind [] v) := by
  rcases lines_form T hi w m ix v with ⟨o, ho, _, hl⟩ | ⟨d, rfl, _, _, hl⟩ | ⟨xs, rfl, _, _, hl⟩
  · rw [hl, hl]
    have := onLast_snoc rstripComma [] (indexText w ix) (ind ++ pre ++ o ++ [','])
    rw [List.nil_append] at this
    rw [this, rstripComma_one (last_append (opens_firm hT ho).2), List.append_nil]
    rfl
  · rw [hl, hl, onLast_snoc, rstripComma_one ⟨ind, '}', rfl, by decide⟩, List.append_nil]
  · rw [hl, hl, onLast_snoc, rstripComma_one ⟨ind, ']', rfl, by decide⟩, List.append_nil]

theorem strip_commaD {T : Texts} (hT : T.plain) {i : Int} (hi : 0 ≤ i) (w m : Int) (ix : List Ix) (ind : List Char) : ∀ (d : List (String × Val)), d ≠ [] →
    onLast rstripComma (commaD T i w m ix ind d) = .ok (linesD T i w m ix ind d)
  | [], h => absurd rfl h
  | [(k, v)], _ => by
    simp only [commaD, List.flatMap_cons, List.flatMap_nil, List.append_nil, linesD, List.isEmpty_nil, if_true]
    exact strip_lines hT hi w m _ v ind _
  | (k, v) :: kv :: d, _ => by
    have := strip_commaD hT hi w m ix ind (kv :: d) (by simp)
    rw [commaD, List.flatMap_cons, linesD]
    exact onLast_append _ _ this

theorem strip_commaL {T : Texts} (hT : T.plain) {i : Int} (hi : 0 ≤ i) (w m : Int) (ix : List Ix) (ind : List Char) : ∀ (n : Nat) (xs : List Val), xs ≠ [] →
    onLast rstripComma (commaL T i w m ix ind n xs) = .ok (linesL T i w m ix ind n xs)
  | _, [], h => absurd rfl h
  | n, [v], _ => by
    simp only [commaL, List.append_nil, linesL, List.isEmpty_nil, if_true]
    exact strip_lines hT hi w m _ v ind _
  | n, v :: x :: xs, _ => by
    have := strip_commaL hT hi w m ix ind (n + 1) (x :: xs) (by simp)
    rw [commaL, linesL]
    exact onLast_append _ _ this

theorem blanks_more {ind : List Char} (hs : ∀ c ∈ ind, c = ' ') : ∀ c ∈ ind ++ [' ', ' '], c = ' ' := by
  intro c hc
  rcases List.mem_append.1 hc with h | h
  · exact hs c h
  · simpa using h

mutual
theorem rows_eq {T : Texts} (hT : T.plain) {i : Int} (hi : 0 ≤ i) (w : Int) : ∀ (m : Int) (ix : List Ix) (ind : List Char) (v : Val), (∀ c ∈ ind, c = ' ') →
    rows T i w m ix ind v = .ok (lines T i w m ix [] ind [] v)
  | m, ix, ind, .dict d, hs => by
    rw [rows, lines]
    simp only [acceptable_iff, hi, true_and, List.append_nil]
    split
    · rfl
    · next h =>
      split
      · have hd : d ≠ [] := by rintro rfl; simp only [height, heightD] at h; omega
        rw [rowsD_eq hT hi w (m - 1) ix _ d (blanks_more hs)]
        simp only [strip_commaD hT hi w (m - 1) ix _ d hd]
      · rfl
  | m, ix, ind, .arr xs, hs => by
    rw [rows, lines]
    simp only [acceptable_iff, hi, true_and, List.append_nil]
    split
    · rfl
    · next h =>
      split
      · have hd : xs ≠ [] := by rintro rfl; simp only [height, heightL] at h; omega
        rw [rowsL_eq hT hi w (m - 1) ix _ 0 xs (blanks_more hs)]
        simp only [strip_commaL hT hi w (m - 1) ix _ 0 xs hd]
      · rfl
  | m, ix, ind, .null, _ | m, ix, ind, .bool _, _ | m, ix, ind, .int _, _ | m, ix, ind, .flt _, _ | m, ix, ind, .str _, _ | m, ix, ind, .bytes _, _ => by
    simp [rows, lines, acceptable_iff, hi, height]
theorem rowsD_eq {T : Texts} (hT : T.plain) {i : Int} (hi : 0 ≤ i) (w : Int) : ∀ (m : Int) (ix : List Ix) (ind : List Char) (d : List (String × Val)), (∀ c ∈ ind, c = ' ') →
    rowsD T i w m ix ind d = .ok (commaD T i w m ix ind d)
  | m, ix, ind, [], _ => by rw [rowsD]; rfl
  | m, ix, ind, (k, v) :: d, hs => by
    rw [rowsD, rows_eq hT hi w m _ ind v hs]
    simp only [headed_lines hT hi w m _ v hs, rowsD_eq hT hi w m ix ind d hs]
    rfl
theorem rowsL_eq {T : Texts} (hT : T.plain) {i : Int} (hi : 0 ≤ i) (w : Int) : ∀ (m : Int) (ix : List Ix) (ind : List Char) (n : Nat) (xs : List Val), (∀ c ∈ ind, c = ' ') →
    rowsL T i w m ix ind n xs = .ok (commaL T i w m ix ind n xs)
  | m, ix, ind, n, [], _ => by rw [rowsL]; rfl
  | m, ix, ind, n, v :: xs, hs => by
    rw [rowsL, rows_eq hT hi w m _ ind v hs]
    simp only [headed_lines hT hi w m _ v hs, rowsL_eq hT hi w m ix ind (n + 1) xs hs]
    rfl
end

/-! ## What the data column says -/

/-- The data column, with each row on a new line. -/
def body (b : List Row) : List Char := b.flatMap fun r => '\n' :: r.2

theorem body_append (a b : List Row) : body (a ++ b) = body a ++ body b := List.flatMap_append ..

theorem white_nil : White [] := by simp [White]

theorem white_blank : White [' '] := by simp [White]

theorem white_line {ind : List Char} (hs : ∀ c ∈ ind, c = ' ') : White ('\n' :: ind) := by
  intro c hc
  rcases List.mem_cons.1 hc with rfl | hc
  · exact .inr rfl
  · exact .inl (hs c hc)

mutual
theorem dumps_shows (T : Texts) {i : Int} : ∀ (m : Int) (v : Val), height v ≤ i → Shows T (tooDeep i) m v (dumps T v)
  | m, .dict [], h => by
    have := Shows.noDict (T := T) (cut := tooDeep i) (m := m) (fun hc => by have := hc.2; omega)
    simpa [dumps, dumpsD] using this
  | m, .dict (kv :: d), h => by
    rw [dumps]
    have := Shows.dict (T := T) (cut := tooDeep i) (m := m) (e := []) (fun hc => by have := hc.2; omega)
      (dumpsD_shows T (m - 1) (kv :: d) (by simp) (by rw [height] at h; omega) white_nil) white_nil
    simpa using this
  | m, .arr [], h => by
    have := Shows.noArr (T := T) (cut := tooDeep i) (m := m) (fun hc => by have := hc.2; omega)
    simpa [dumps, dumpsL] using this
  | m, .arr (x :: xs), h => by
    rw [dumps]
    have := Shows.arr (T := T) (cut := tooDeep i) (m := m) (e := []) (fun hc => by have := hc.2; omega)
      (dumpsL_shows T (m - 1) (x :: xs) (by simp) (by rw [height] at h; omega) white_nil) white_nil
    simpa using this
  | m, .null, _ | m, .bool _, _ | m, .int _, _ | m, .flt _, _ | m, .str _, _ | m, .bytes _, _ => by
    rw [dumps]
    · exact .leaf (by simp) (by simp)
    all_goals simp
theorem dumpsD_shows (T : Texts) {i : Int} : ∀ (m : Int) (d : List (String × Val)), d ≠ [] → heightD d ≤ i → ∀ {a : List Char}, White a → ShowsD T (tooDeep i) m d (a ++ dumpsD T d)
  | _, [], h, _, _, _ => absurd rfl h
  | m, [(k, v)], _, h, a, ha => by
    rw [heightD] at h
    have := ShowsD.one (k := k) ha white_blank (dumps_shows T m v (i := i) (by omega))
    simpa [dumpsD] using this
  | m, (k, v) :: kv :: d, _, h, a, ha => by
    rw [heightD] at h
    have := ShowsD.more (k := k) ha white_blank (dumps_shows T m v (i := i) (by omega)) (dumpsD_shows T m (kv :: d) (by simp) (by omega) white_blank)
    rw [dumpsD]
    simpa using this
theorem dumpsL_shows (T : Texts) {i : Int} : ∀ (m : Int) (xs : List Val), xs ≠ [] → heightL xs ≤ i → ∀ {a : List Char}, White a → ShowsL T (tooDeep i) m xs (a ++ dumpsL T xs)
  | _, [], h, _, _, _ => absurd rfl h
  | m, [v], _, h, a, ha => by
    rw [heightL] at h
    have := ShowsL.one ha (dumps_shows T m v (i := i) (by omega))
    simpa [dumpsL] using this
  | m, v :: x :: xs, _, h, a, ha => by
    rw [heightL] at h
    have := ShowsL.more ha (dumps_shows T m v (i := i) (by omega)) (dumpsL_shows T m (x :: xs) (by simp) (by omega) white_blank)
    rw [dumpsL]
    simpa using this
end

theorem opens_shows {T : Texts} {i m : Int} {v : Val} {o : List Char} (h : Opens T i m v o) (hm : m ≤ 0 ∨ height v ≤ i) : Shows T (tooDeep i) m v o := by
  cases h with
  | all h => exact dumps_shows T m v h
  | dict h h' => omega
  | arr h h' => omega
  | cutDict h h' => exact .cutDict ⟨h', h⟩
  | cutArr h h' => exact .cutArr ⟨h', h⟩

mutual
theorem lines_shows (T : Texts) {i : Int} (hi : 0 ≤ i) (w : Int) : ∀ (v : Val) (m : Int) (ix : List Ix) (pre ind e : List Char), (∀ c ∈ ind, c = ' ') →
    ∃ s, body (lines T i w m ix pre ind e v) = '\n' :: ind ++ pre ++ s ++ e ∧ Shows T (tooDeep i) m v s
  | .dict d, m, ix, pre, ind, e, hs => by
    rcases lines_form T hi w m ix (.dict d) with ⟨o, ho, hm, hl⟩ | ⟨d', hd, h1, h2, hl⟩ | ⟨xs, hx, _⟩
    · exact ⟨o, by rw [hl]; simp [body], opens_shows ho hm⟩
    · cases hd
      have hne : d ≠ [] := by rintro rfl; simp only [heightD] at h1; omega
      have := linesD_shows T hi w d (m - 1) ix (ind ++ [' ', ' ']) (blanks_more hs) hne
      refine ⟨_, ?_, .dict (fun hc => by have := hc.1; omega) this (white_line hs)⟩
      rw [hl, body_append]
      simp [body]
    · cases hx
  | .arr xs, m, ix, pre, ind, e, hs => by
    rcases lines_form T hi w m ix (.arr xs) with ⟨o, ho, hm, hl⟩ | ⟨d', hd, _⟩ | ⟨xs', hx, h1, h2, hl⟩
    · exact ⟨o, by rw [hl]; simp [body], opens_shows ho hm⟩
    · cases hd
    · cases hx
      have hne : xs ≠ [] := by rintro rfl; simp only [heightL] at h1; omega
      have := linesL_shows T hi w xs (m - 1) ix (ind ++ [' ', ' ']) 0 (blanks_more hs) hne
      refine ⟨_, ?_, .arr (fun hc => by have := hc.1; omega) this (white_line hs)⟩
      rw [hl, body_append]
      simp [body]
  | .null, m, ix, pre, ind, e, _ | .bool _, m, ix, pre, ind, e, _ | .int _, m, ix, pre, ind, e, _ | .flt _, m, ix, pre, ind, e, _ | .str _, m, ix, pre, ind, e, _
  | .bytes _, m, ix, pre, ind, e, _ => by
    exact ⟨_, by rw [lines] <;> simp [body], dumps_shows T m _ (by simp [height]; exact hi)⟩
theorem linesD_shows (T : Texts) {i : Int} (hi : 0 ≤ i) (w : Int) : ∀ (d : List (String × Val)) (m : Int) (ix : List Ix) (ind : List Char), (∀ c ∈ ind, c = ' ') → d ≠ [] →
    ShowsD T (tooDeep i) m d (body (linesD T i w m ix ind d))
  | [], _, _, _, _, h => absurd rfl h
  | [(k, v)], m, ix, ind, hs, _ => by
    obtain ⟨s, h1, h2⟩ := lines_shows T hi w v m (ix ++ [.key k]) (T.key k ++ [':', ' ']) ind [] hs
    have := ShowsD.one (k := k) (white_line hs) white_blank h2
    simpa [linesD, h1] using this
  | (k, v) :: kv :: d, m, ix, ind, hs, _ => by
    obtain ⟨s, h1, h2⟩ := lines_shows T hi w v m (ix ++ [.key k]) (T.key k ++ [':', ' ']) ind [','] hs
    have := ShowsD.more (k := k) (white_line hs) white_blank h2 (linesD_shows T hi w (kv :: d) m ix ind hs (by simp))
    rw [linesD, body_append]
    simpa [h1] using this
theorem linesL_shows (T : Texts) {i : Int} (hi : 0 ≤ i) (w : Int) : ∀ (xs : List Val) (m : Int) (ix : List Ix) (ind : List Char) (n : Nat), (∀ c ∈ ind, c = ' ') → xs ≠ [] →
    ShowsL T (tooDeep i) m xs (body (linesL T i w m ix ind n xs))
  | [], _, _, _, _, _, h => absurd rfl h
  | [v], m, ix, ind, n, hs, _ => by
    obtain ⟨s, h1, h2⟩ := lines_shows T hi w v m (ix ++ [.pos n]) [] ind [] hs
    have := ShowsL.one (white_line hs) h2
    simpa [linesL, h1] using this
  | v :: x :: xs, m, ix, ind, n, hs, _ => by
    obtain ⟨s, h1, h2⟩ := lines_shows T hi w v m (ix ++ [.pos n]) [] ind [','] hs
    have := ShowsL.more (white_line hs) h2 (linesL_shows T hi w (x :: xs) m ix ind (n + 1) hs (by simp))
    rw [linesL, body_append]
    simpa [h1] using this
end

mutual
/-- If there are levels enough, nothing is cut. -/
theorem shows_spells {T : Texts} {i : Int} : ∀ (v : Val) (m n : Int) (s : List Char), height v ≤ m + i → Shows T (tooDeep i) m v s → Shows T (fun _ _ => False) n v s
  | .dict d, m, n, s, hm, h => by
    cases h with
    | leaf h1 _ => exact absurd rfl (h1 d)
    | cutDict h => have := h.1; have := h.2; omega
    | noDict h => exact .noDict (fun h => h)
    | dict h hr he => exact .dict (fun h => h) (showsD_spells d _ _ _ (by rw [height] at hm; omega) hr) he
  | .arr xs, m, n, s, hm, h => by
    cases h with
    | leaf _ h1 => exact absurd rfl (h1 xs)
    | cutArr h => have := h.1; have := h.2; omega
    | noArr h => exact .noArr (fun h => h)
    | arr h hr he => exact .arr (fun h => h) (showsL_spells xs _ _ _ (by rw [height] at hm; omega) hr) he
  | .null, m, n, s, _, h | .bool _, m, n, s, _, h | .int _, m, n, s, _, h | .flt _, m, n, s, _, h | .str _, m, n, s, _, h | .bytes _, m, n, s, _, h => by
    cases h with
    | leaf h1 h2 => exact .leaf h1 h2
@[inherit_doc shows_spells] theorem showsD_spells {T : Texts} {i : Int} : ∀ (d : List (String × Val)) (m n : Int) (s : List Char), heightD d ≤ m + 1 + i →
    ShowsD T (tooDeep i) m d s → ShowsD T (fun _ _ => False) n d s
  | [], m, n, s, _, h => by cases h
  | (k, v) :: d, m, n, s, hm, h => by
    rw [heightD] at hm
    cases h with
    | one ha hb h => exact .one ha hb (shows_spells v m n _ (by omega) h)
    | more ha hb h hr => exact .more ha hb (shows_spells v m n _ (by omega) h) (showsD_spells d m n _ (by omega) hr)
@[inherit_doc shows_spells] theorem showsL_spells {T : Texts} {i : Int} : ∀ (xs : List Val) (m n : Int) (s : List Char), heightL xs ≤ m + 1 + i →
    ShowsL T (tooDeep i) m xs s → ShowsL T (fun _ _ => False) n xs s
  | [], m, n, s, _, h => by cases h
  | v :: d, m, n, s, hm, h => by
    rw [heightL] at hm
    cases h with
    | one ha h => exact .one ha (shows_spells v m n _ (by omega) h)
    | more ha h hr => exact .more ha (shows_spells v m n _ (by omega) h) (showsL_spells d m n _ (by omega) hr)
end

/-! ## What the index column says -/

theorem keyText_cons (T : Texts) (j : Ix) {p : List Ix} (h : p ≠ []) : keyText T (j :: p) = keyText T p := by
  cases p with
  | nil => exact absurd rfl h
  | cons a p => simp [keyText]

/-- A row of the lines of a part. -/
def RowAt (T : Texts) (i w m : Int) (ix : List Ix) (pre : List Char) (v : Val) (p : List Ix) (c : Val) (r : Row) : Prop :=
  ∃ o a e, Part i m v p c ∧ Opens T i (m - p.length) c o ∧ White a ∧ (e = [] ∨ e = [',']) ∧ r = (indexText w (ix ++ p), a ++ (if p = [] then pre else keyText T p) ++ o ++ e)

theorem rowAt_down {T : Texts} {i w m : Int} {ix : List Ix} {pre : List Char} {v c c' : Val} {j : Ix} {p : List Ix} {r : Row}
    (hp : ∀ {p c'}, Part i (m - 1) c p c' → Part i m v (j :: p) c') (h : RowAt T i w (m - 1) (ix ++ [j]) (keyText T [j]) c p c' r) :
    RowAt T i w m ix pre v (j :: p) c' r := by
  obtain ⟨o, a, e, h1, h2, h3, h4, h5⟩ := h
  refine ⟨o, a, e, hp h1, ?_, h3, h4, ?_⟩
  · have : m - ((j :: p).length : Int) = m - 1 - (p.length : Int) := by simp; omega
    rw [this]; exact h2
  · rw [h5]
    simp only [List.append_assoc, List.singleton_append, reduceCtorEq, if_false]
    by_cases hp : p = []
    · subst hp; simp
    · rw [if_neg hp, keyText_cons T j hp]

theorem white_blanks {ind : List Char} (hs : ∀ c ∈ ind, c = ' ') : White ind := fun c hc => .inl (hs c hc)

theorem lines_scalar (T : Texts) (i w m : Int) (ix : List Ix) (pre ind e : List Char) (v : Val) (h1 : ∀ d, v ≠ .dict d) (h2 : ∀ xs, v ≠ .arr xs) :
    lines T i w m ix pre ind e v = [(indexText w ix, ind ++ pre ++ dumps T v ++ e)] := by
  cases v with
  | dict d => exact absurd rfl (h1 d)
  | arr xs => exact absurd rfl (h2 xs)
  | _ => rw [lines] <;> simp

theorem rowAt_scalar {T : Texts} {i w m : Int} {ix : List Ix} {pre ind e : List Char} {v : Val} (hs : ∀ c ∈ ind, c = ' ') (he : e = [] ∨ e = [',']) (hi : 0 ≤ i)
    (h1 : ∀ d, v ≠ .dict d) (h2 : ∀ xs, v ≠ .arr xs) : RowAt T i w m ix pre v [] v (indexText w ix, ind ++ pre ++ dumps T v ++ e) := by
  refine ⟨_, ind, e, .here _, .all ?_, white_blanks hs, he, by simp⟩
  cases v with
  | dict d => exact absurd rfl (h1 d)
  | arr xs => exact absurd rfl (h2 xs)
  | _ => simp [height]; exact hi

theorem scalar_parts (T : Texts) {i : Int} (hi : 0 ≤ i) {w m : Int} {ix : List Ix} {pre ind e : List Char} {v : Val} (hs : ∀ c ∈ ind, c = ' ') (he : e = [] ∨ e = [','])
    (h1 : ∀ d, v ≠ .dict d) (h2 : ∀ xs, v ≠ .arr xs) :
    (∀ r ∈ lines T i w m ix pre ind e v, Closing r ∨ ∃ p c, RowAt T i w m ix pre v p c r) ∧
    (∀ p c, Part i m v p c → ∃ r ∈ lines T i w m ix pre ind e v, RowAt T i w m ix pre v p c r) := by
  have hr := rowAt_scalar (T := T) (w := w) (m := m) (ix := ix) (pre := pre) hs he hi h1 h2
  rw [lines_scalar T i w m ix pre ind e v h1 h2]
  refine ⟨fun r h => .inr ⟨[], v, ?_⟩, fun p c hp => ?_⟩
  · cases List.mem_singleton.1 h; exact hr
  · cases hp with
    | here => exact ⟨_, List.mem_singleton.2 rfl, hr⟩
    | key _ _ _ _ => exact absurd rfl (h1 _)
    | pos _ _ _ _ => exact absurd rfl (h2 _)

mutual
/-- Every row is for a part, or closes one; and every part has a row. -/
theorem lines_parts (T : Texts) {i : Int} (hi : 0 ≤ i) (w : Int) : ∀ (v : Val) (m : Int) (ix : List Ix) (pre ind e : List Char), (∀ c ∈ ind, c = ' ') → (e = [] ∨ e = [',']) →
    (∀ r ∈ lines T i w m ix pre ind e v, Closing r ∨ ∃ p c, RowAt T i w m ix pre v p c r) ∧
    (∀ p c, Part i m v p c → ∃ r ∈ lines T i w m ix pre ind e v, RowAt T i w m ix pre v p c r)
  | .dict d, m, ix, pre, ind, e, hs, he => by
    rcases lines_form T hi w m ix (.dict d) with ⟨o, ho, hm, hl⟩ | ⟨d', hd, h1, h2, hl⟩ | ⟨xs, hx, _⟩
    · rw [hl]
      have hr : RowAt T i w m ix pre (.dict d) [] (.dict d) (indexText w ix, ind ++ pre ++ o ++ e) :=
        ⟨o, ind, e, .here _, by simpa using ho, white_blanks hs, he, by simp⟩
      refine ⟨fun r h => .inr ⟨[], .dict d, by rw [List.mem_singleton.1 h]; exact hr⟩, fun p c hp => ?_⟩
      cases hp with
      | here => exact ⟨_, List.mem_singleton.2 rfl, hr⟩
      | key h1 h2 _ _ => omega
    · cases hd
      have ih := linesD_parts T hi w d (m - 1) ix (ind ++ [' ', ' ']) (blanks_more hs)
      have hr : RowAt T i w m ix pre (.dict d) [] (.dict d) (indexText w ix, ind ++ pre ++ ['{']) :=
        ⟨['{'], ind, [], .here _, .dict (by rw [height]; exact h1) (by simpa using h2), white_blanks hs, .inl rfl, by simp⟩
      have hdown : ∀ {k c}, (k, c) ∈ d → ∀ {p c'}, Part i (m - 1) c p c' → Part i m (.dict d) (.key k :: p) c' :=
        fun hk _ _ hp => .key (by rw [height]; exact h1) h2 hk hp
      rw [hl]
      refine ⟨fun r h => ?_, fun p c hp => ?_⟩
      · rcases List.mem_append.1 h with h | h
        · rcases List.mem_cons.1 h with rfl | h
          · exact .inr ⟨[], _, hr⟩
          · rcases ih.1 r h with h | ⟨k, v, p, c, hk, h⟩
            · exact .inl h
            · exact .inr ⟨_, c, rowAt_down (hdown hk) h⟩
        · rw [List.mem_singleton.1 h]
          exact .inl ⟨ind, '}', e, white_blanks hs, .inl rfl, he, rfl⟩
      · cases hp with
        | here => exact ⟨_, List.mem_append_left _ List.mem_cons_self, hr⟩
        | key _ _ hk hp =>
          obtain ⟨r, hm, h⟩ := ih.2 _ _ hk _ _ hp
          exact ⟨r, List.mem_append_left _ (List.mem_cons_of_mem _ hm), rowAt_down (hdown hk) h⟩
    · cases hx
  | .arr xs, m, ix, pre, ind, e, hs, he => by
    rcases lines_form T hi w m ix (.arr xs) with ⟨o, ho, hm, hl⟩ | ⟨d', hd, _⟩ | ⟨xs', hx, h1, h2, hl⟩
    · rw [hl]
      have hr : RowAt T i w m ix pre (.arr xs) [] (.arr xs) (indexText w ix, ind ++ pre ++ o ++ e) :=
        ⟨o, ind, e, .here _, by simpa using ho, white_blanks hs, he, by simp⟩
      refine ⟨fun r h => .inr ⟨[], .arr xs, by rw [List.mem_singleton.1 h]; exact hr⟩, fun p c hp => ?_⟩
      cases hp with
      | here => exact ⟨_, List.mem_singleton.2 rfl, hr⟩
      | pos h1 h2 _ _ => omega
    · cases hd
    · cases hx
      have ih := linesL_parts T hi w xs (m - 1) ix (ind ++ [' ', ' ']) 0 (blanks_more hs)
      have hr : RowAt T i w m ix pre (.arr xs) [] (.arr xs) (indexText w ix, ind ++ pre ++ ['[']) :=
        ⟨['['], ind, [], .here _, .arr (by rw [height]; exact h1) (by simpa using h2), white_blanks hs, .inl rfl, by simp⟩
      have hdown : ∀ {n c}, xs[n]? = some c → ∀ {p c'}, Part i (m - 1) c p c' → Part i m (.arr xs) (.pos (0 + n : Nat) :: p) c' :=
        fun hk _ _ hp => by rw [Nat.zero_add]; exact .pos (by rw [height]; exact h1) h2 hk hp
      rw [hl]
      refine ⟨fun r h => ?_, fun p c hp => ?_⟩
      · rcases List.mem_append.1 h with h | h
        · rcases List.mem_cons.1 h with rfl | h
          · exact .inr ⟨[], _, hr⟩
          · rcases ih.1 r h with h | ⟨k, v, p, c, hk, h⟩
            · exact .inl h
            · exact .inr ⟨_, c, rowAt_down (hdown hk) h⟩
        · rw [List.mem_singleton.1 h]
          exact .inl ⟨ind, ']', e, white_blanks hs, .inr rfl, he, rfl⟩
      · cases hp with
        | here => exact ⟨_, List.mem_append_left _ List.mem_cons_self, hr⟩
        | pos _ _ hk hp =>
          obtain ⟨r, hm, h⟩ := ih.2 _ _ hk _ _ hp
          have := rowAt_down (pre := pre) (hdown hk) h
          rw [Nat.zero_add] at this
          exact ⟨r, List.mem_append_left _ (List.mem_cons_of_mem _ hm), this⟩
  | .null, m, ix, pre, ind, e, hs, he | .bool _, m, ix, pre, ind, e, hs, he | .int _, m, ix, pre, ind, e, hs, he | .flt _, m, ix, pre, ind, e, hs, he
  | .str _, m, ix, pre, ind, e, hs, he | .bytes _, m, ix, pre, ind, e, hs, he => by
    exact scalar_parts T hi hs he (by simp) (by simp)
@[inherit_doc lines_parts] theorem linesD_parts (T : Texts) {i : Int} (hi : 0 ≤ i) (w : Int) : ∀ (d : List (String × Val)) (m : Int) (ix : List Ix) (ind : List Char), (∀ c ∈ ind, c = ' ') →
    (∀ r ∈ linesD T i w m ix ind d, Closing r ∨ ∃ k v p c, (k, v) ∈ d ∧ RowAt T i w m (ix ++ [.key k]) (keyText T [.key k]) v p c r) ∧
    (∀ k v, (k, v) ∈ d → ∀ p c, Part i m v p c → ∃ r ∈ linesD T i w m ix ind d, RowAt T i w m (ix ++ [.key k]) (keyText T [.key k]) v p c r)
  | [], m, ix, ind, _ => ⟨by simp [linesD], by simp⟩
  | (k, v) :: d, m, ix, ind, hs => by
    have hv := lines_parts T hi w v m (ix ++ [.key k]) (T.key k ++ [':', ' ']) ind (if d.isEmpty then [] else [',']) hs (by split <;> simp)
    have hd := linesD_parts T hi w d m ix ind hs
    rw [linesD]
    refine ⟨fun r h => ?_, fun j u hm p c hp => ?_⟩
    · rcases List.mem_append.1 h with h | h
      · rcases hv.1 r h with h | ⟨p, c, h⟩
        · exact .inl h
        · exact .inr ⟨k, v, p, c, List.mem_cons_self, h⟩
      · rcases hd.1 r h with h | ⟨j, u, p, c, hm, h⟩
        · exact .inl h
        · exact .inr ⟨j, u, p, c, List.mem_cons_of_mem _ hm, h⟩
    · rcases List.mem_cons.1 hm with hm | hm
      · cases hm
        obtain ⟨r, h1, h2⟩ := hv.2 p c hp
        exact ⟨r, List.mem_append_left _ h1, h2⟩
      · obtain ⟨r, h1, h2⟩ := hd.2 j u hm p c hp
        exact ⟨r, List.mem_append_right _ h1, h2⟩
@[inherit_doc lines_parts] theorem linesL_parts (T : Texts) {i : Int} (hi : 0 ≤ i) (w : Int) : ∀ (xs : List Val) (m : Int) (ix : List Ix) (ind : List Char) (n : Nat), (∀ c ∈ ind, c = ' ') →
    (∀ r ∈ linesL T i w m ix ind n xs, Closing r ∨ ∃ (j : Nat) (v : Val) (p : List Ix) (c : Val), xs[j]? = some v ∧ RowAt T i w m (ix ++ [.pos (n + j : Nat)]) (keyText T [.pos (n + j : Nat)]) v p c r) ∧
    (∀ (j : Nat) v, xs[j]? = some v → ∀ p c, Part i m v p c → ∃ r ∈ linesL T i w m ix ind n xs, RowAt T i w m (ix ++ [.pos (n + j : Nat)]) (keyText T [.pos (n + j : Nat)]) v p c r)
  | [], m, ix, ind, n, _ => ⟨by simp [linesL], by simp⟩
  | v :: xs, m, ix, ind, n, hs => by
    have hv := lines_parts T hi w v m (ix ++ [.pos n]) [] ind (if xs.isEmpty then [] else [',']) hs (by split <;> simp)
    have hd := linesL_parts T hi w xs m ix ind (n + 1) hs
    have hn : ∀ j : Nat, n + 1 + j = n + (j + 1) := fun j => by omega
    simp only [hn] at hd
    rw [linesL]
    refine ⟨fun r h => ?_, fun j u hm p c hp => ?_⟩
    · rcases List.mem_append.1 h with h | h
      · rcases hv.1 r h with h | ⟨p, c, h⟩
        · exact .inl h
        · exact .inr ⟨0, v, p, c, rfl, h⟩
      · rcases hd.1 r h with h | ⟨j, u, p, c, hm, h⟩
        · exact .inl h
        · exact .inr ⟨j + 1, u, p, c, by simpa using hm, h⟩
    · cases j with
      | zero =>
        cases hm
        obtain ⟨r, h1, h2⟩ := hv.2 p c hp
        exact ⟨r, List.mem_append_left _ h1, h2⟩
      | succ j =>
        obtain ⟨r, h1, h2⟩ := hd.2 j u (by simpa using hm) p c hp
        exact ⟨r, List.mem_append_right _ h1, h2⟩
end

/-! ## Theorems -/

/-- The document that is shown. -/
def shown (drop : Bool) (v : Val) : Val := if drop then dropAt v else v

/-- The rows of the output. -/
theorem look_lines {T : Texts} (hT : T.plain) {i : Int} (hi : 0 ≤ i) (v : Val) (m w : Int) (drop : Bool) :
    look T v m i w drop = .ok (written w ("index".toList, "data".toList) :: (List.replicate (w * 2).toNat '-' ++ ['\n']) ::
      (lines T i w m [] [] [] [] (shown drop v)).map (written w)) := by
  unfold look
  rw [rows_eq hT hi w m [] [] _ (by simp)]
  rfl

theorem body_join : ∀ (b : List Row), body b ++ ['\n'] = '\n' :: b.flatMap fun r => r.2 ++ ['\n']
  | [] => rfl
  | r :: b => by
    have := body_join b
    simp only [body, List.flatMap_cons, List.append_assoc, List.cons_append] at this ⊢
    rw [this]; simp

/-- The data column is the document as JSON, where the parts that are too deep down are dots. -/
theorem data_shows (T : Texts) {i : Int} (hi : 0 ≤ i) (w m : Int) (v : Val) :
    ∃ s, (lines T i w m [] [] [] [] v).flatMap (fun r => r.2 ++ ['\n']) = s ++ ['\n'] ∧ Shows T (tooDeep i) m v s ∧ (height v ≤ m + i → Spells T v s) := by
  obtain ⟨s, h1, h2⟩ := lines_shows T hi w v m [] [] [] [] (by simp)
  refine ⟨s, ?_, h2, fun h => shows_spells v m 0 s h h2⟩
  have := body_join (lines T i w m [] [] [] [] v)
  rw [h1] at this
  simpa using this.symm

theorem upTo_length {s : List Char} {n : Int} (h : 0 ≤ n) : (upTo s n).length ≤ n := by
  rw [upTo, if_pos h, List.length_take]; omega

theorem indexText_length {w : Int} (hw : 3 ≤ w) (p : List Ix) : (indexText w p).length ≤ w := by
  unfold indexText
  split
  · have := upTo_length (s := [','].intercalate (p.map Ix.chars)) (n := w - 3) (by omega)
    rw [List.length_append]
    simp only [List.length_cons, List.length_nil]
    omega
  · omega

theorem written_drop {w : Int} {r : Row} (h : (r.1.length : Int) ≤ w) : (written w r).drop (w.toNat + 1) = r.2 ++ ['\n'] := by
  unfold written
  have : (r.1 ++ List.replicate (w.natAbs - r.1.length) ' ' ++ [' ']).length = w.toNat + 1 := by
    simp only [List.length_append, List.length_replicate, List.length_cons, List.length_nil]; omega
  rw [List.append_assoc (r.1 ++ List.replicate (w.natAbs - r.1.length) ' ' ++ [' ']), ← this, List.drop_left]

theorem closing_short {w : Int} (hw : 0 ≤ w) {r : Row} (h : Closing r) : (r.1.length : Int) ≤ w := by
  obtain ⟨a, b, e, _, _, _, rfl⟩ := h
  simpa using hw

/-- **C102.** Below the two lines of the head, the lines without the index column are the document as JSON; if there are levels enough, all of it. -/
theorem look_shows {T : Texts} (hT : T.plain) {i : Int} (hi : 0 ≤ i) {w : Int} (hw : 3 ≤ w) (v : Val) (m : Int) (drop : Bool) :
    ∃ out s, look T v m i w drop = .ok out ∧ (out.drop 2).flatMap (·.drop (w.toNat + 1)) = s ++ ['\n'] ∧ Shows T (tooDeep i) m (shown drop v) s ∧
      (height (shown drop v) ≤ m + i → Spells T (shown drop v) s) := by
  obtain ⟨s, h1, h2, h3⟩ := data_shows T hi w m (shown drop v)
  refine ⟨_, s, look_lines hT hi v m w drop, ?_, h2, h3⟩
  rw [← h1]
  simp only [List.drop_succ_cons, List.drop_zero, List.flatMap_map]
  refine List.flatMap_congr fun r hr => ?_
  refine written_drop ?_
  rcases (lines_parts T hi w (shown drop v) m [] [] [] [] (by simp) (.inl rfl)).1 r hr with h | ⟨p, c, h⟩
  · exact closing_short (by omega) h
  · obtain ⟨o, a, e, _, _, _, _, rfl⟩ := h
    exact indexText_length hw _

theorem rowAt_rowFor {T : Texts} {i w m : Int} {v : Val} {p : List Ix} {r : Row} : (∃ c, RowAt T i w m [] [] v p c r) ↔ RowFor T i w m v p r := by
  have : (if p = [] then [] else keyText T p) = keyText T p := by
    by_cases hp : p = []
    · subst hp; rfl
    · rw [if_neg hp]
  simp only [RowAt, this, List.nil_append]
  rfl

/-- **C102.** Every line closes a bracket or is for a part of the document, whose place is in the index column; and every part that is shown has its line. -/
theorem look_parts {T : Texts} (hT : T.plain) {i : Int} (hi : 0 ≤ i) (w : Int) (v : Val) (m : Int) (drop : Bool) :
    ∃ (h1 h2 : List Char) (b : List Row), look T v m i w drop = .ok (h1 :: h2 :: b.map (written w)) ∧ (∀ r ∈ b, Closing r ∨ ∃ p, RowFor T i w m (shown drop v) p r) ∧
      ∀ p c, Part i m (shown drop v) p c → ∃ r ∈ b, RowFor T i w m (shown drop v) p r := by
  obtain ⟨h1, h2⟩ := lines_parts T hi w (shown drop v) m [] [] [] [] (by simp) (.inl rfl)
  refine ⟨_, _, _, look_lines hT hi v m w drop, fun r hr => ?_, fun p c hp => ?_⟩
  · rcases h1 r hr with h | ⟨p, c, h⟩
    · exact .inl h
    · exact .inr ⟨p, rowAt_rowFor.1 ⟨c, h⟩⟩
  · obtain ⟨r, hr, h⟩ := h2 p c hp
    exact ⟨r, hr, rowAt_rowFor.1 ⟨c, h⟩⟩

/-- The parts are where their places say. -/
theorem part_sub {i m : Int} {v c : Val} {p : List Ix} (h : Part i m v p c) : Sub v p c ∧ (p.length : Int) ≤ max m 0 := by
  induction h with
  | here v => exact ⟨.here v, by simp⟩
  | key hi hm hk h ih => exact ⟨.key hk ih.1, by have := ih.2; simp only [List.length_cons]; omega⟩
  | pos hi hm hk h ih => exact ⟨.pos hk ih.1, by have := ih.2; simp only [List.length_cons]; omega⟩

/-! ## The key "@" -/

theorem mem_dropAtD {k : String} {u : Val} : ∀ {d : List (String × Val)}, (k, u) ∈ dropAtD d ↔ k ≠ "@" ∧ ∃ v, (k, v) ∈ d ∧ u = dropAt v
  | [] => by simp [dropAtD]
  | (j, v) :: d => by
    have ih := mem_dropAtD (k := k) (u := u) (d := d)
    rw [dropAtD]
    by_cases hj : j = "@"
    · rw [if_pos hj, ih]
      constructor
      · rintro ⟨h, w, hw, rfl⟩; exact ⟨h, w, List.mem_cons_of_mem _ hw, rfl⟩
      · rintro ⟨h, w, hw, rfl⟩
        rcases List.mem_cons.1 hw with hw | hw
        · cases hw; exact absurd hj h
        · exact ⟨h, w, hw, rfl⟩
    · rw [if_neg hj, List.mem_cons, ih]
      constructor
      · rintro (h | ⟨h, w, hw, rfl⟩)
        · cases h; exact ⟨hj, v, List.mem_cons_self, rfl⟩
        · exact ⟨h, w, List.mem_cons_of_mem _ hw, rfl⟩
      · rintro ⟨h, w, hw, rfl⟩
        rcases List.mem_cons.1 hw with hw | hw
        · cases hw; exact .inl rfl
        · exact .inr ⟨h, w, hw, rfl⟩

theorem dropAtL_map : ∀ (xs : List Val), dropAtL xs = xs.map dropAt
  | [] => rfl
  | x :: xs => by rw [dropAtL, dropAtL_map xs]; rfl

/-- Without the key "@", everything else is where it was. -/
theorem dropAt_sub {v u : Val} {p : List Ix} : Sub (dropAt v) p u ↔ .key "@" ∉ p ∧ ∃ w, Sub v p w ∧ u = dropAt w := by
  constructor
  · intro h
    generalize hv : dropAt v = v' at h
    induction h generalizing v with
    | here v' => exact ⟨by simp, v, .here v, hv.symm⟩
    | key hm h ih =>
      cases v with
      | dict d =>
        rw [dropAt] at hv; cases hv
        obtain ⟨hk, w, hw, rfl⟩ := mem_dropAtD.1 hm
        obtain ⟨h1, w', h2, h3⟩ := ih rfl
        refine ⟨?_, w', .key hw h2, h3⟩
        intro hc
        rcases List.mem_cons.1 hc with hc | hc
        · cases hc; exact hk rfl
        · exact h1 hc
      | arr xs => rw [dropAt] at hv; cases hv
      | _ => simp [dropAt] at hv
    | pos hm h ih =>
      cases v with
      | arr xs =>
        rw [dropAt, dropAtL_map] at hv; cases hv
        rw [List.getElem?_map] at hm
        obtain ⟨w, hw, rfl⟩ := Option.map_eq_some_iff.1 hm
        obtain ⟨h1, w', h2, h3⟩ := ih rfl
        exact ⟨by simpa using h1, w', .pos hw h2, h3⟩
      | dict d => rw [dropAt] at hv; cases hv
      | _ => simp [dropAt] at hv
  · rintro ⟨hp, w, hs, rfl⟩
    induction hs with
    | here v => exact .here _
    | key hm h ih =>
      rw [dropAt]
      refine .key (mem_dropAtD.2 ⟨?_, _, hm, rfl⟩) (ih fun hc => hp (List.mem_cons_of_mem _ hc))
      rintro rfl; exact hp List.mem_cons_self
    | pos hm h ih =>
      rw [dropAt, dropAtL_map]
      refine .pos ?_ (ih fun hc => hp (List.mem_cons_of_mem _ hc))
      rw [List.getElem?_map, hm]; rfl

/-! ## The index column can be read -/

theorem natStr_chars : ∀ (fuel n : Nat), ∀ c ∈ Lib.Num.natStr 10 fuel n, Lib.Num.isSpace c = false ∧ c ≠ ','
  | 0, _, c, h => by simp [Lib.Num.natStr] at h
  | fuel + 1, n, c, h => by
    have hd : ∀ d, d < 10 → Lib.Num.isSpace (Lib.Num.digitChar d) = false ∧ Lib.Num.digitChar d ≠ ',' := by decide
    rw [Lib.Num.natStr] at h
    split at h
    · next hn => rw [List.mem_singleton.1 h]; exact hd n hn
    · rcases List.mem_append.1 h with h | h
      · exact natStr_chars fuel _ c h
      · rw [List.mem_singleton.1 h]; exact hd _ (Nat.mod_lt _ (by decide))

theorem trim_id {s : List Char} (h : ∀ c ∈ s, Lib.Num.isSpace c = false) : trim s = s := by
  have key : ∀ s : List Char, (∀ c ∈ s, Lib.Num.isSpace c = false) → s.dropWhile Lib.Num.isSpace = s := by
    intro s h
    cases s with
    | nil => rfl
    | cons c s => rw [List.dropWhile_cons_of_neg (by simp [h c List.mem_cons_self])]
  rw [trim, key s h, key s.reverse (fun c hc => h c (by simpa using hc)), List.reverse_reverse]

theorem writes_pos (n : Nat) : Writes (.pos n) (Ix.chars (.pos n)) := by
  have hf : Ix.chars (.pos n) = Lib.Num.natStr 10 (n + 1) n := by
    rw [Ix.chars, Lib.Num.fmt, Lib.Num.signStr, if_neg (by omega)]; rfl
  have hc := natStr_chars (n + 1) n
  rw [← hf] at hc
  exact .pos (Lib.Num.fmt_numeral 10 (by decide) (by decide) n) (fun h => (hc ',' h).2 rfl) (trim_id fun c h => (hc c h).1)

/-- **C102.** What is in the index column can be given to `get`, if it is not too long and keys have no commas, do not look like numbers and have no white space at
their ends. -/
theorem index_read_partial {i m w : Int} {v c : Val} {p : List Ix} {drop : Bool} (ht : Tidy v) (h : Part i m (shown drop v) p c) (hp : p ≠ [])
    (hk : ∀ k, .key k ∈ p → Writes (.key k) k.toList) (hw : ([','].intercalate (p.map Ix.chars)).length ≤ w) :
    ∃ u, get v (splitIndex (String.ofList (indexText w p))) = .ok u ∧ c = shown drop u := by
  have hix : indexText w p = [','].intercalate (p.map Ix.chars) := by rw [indexText, if_neg (by omega)]
  have hsub := (part_sub h).1
  have hpos : ∀ j, j ∈ p → Writes j j.chars := by
    intro j hj
    cases j with
    | key k => exact hk k hj
    | pos z =>
      obtain ⟨n, rfl⟩ : ∃ n : Nat, z = n := by
        clear hk hw hix hp ht h
        generalize shown drop v = v' at hsub
        induction hsub with
        | here v => cases hj
        | key _ _ ih => exact ih (by simpa using hj)
        | pos _ _ ih =>
          rcases List.mem_cons.1 hj with hj | hj
          · cases hj; exact ⟨_, rfl⟩
          · exact ih hj
      exact writes_pos n
  have := splitIndex_spec (p.map fun j => (j, j.chars, [], [])) (by simpa using hp) (by
    intro q hq
    obtain ⟨j, hj, rfl⟩ := List.mem_map.1 hq
    exact ⟨hpos j hj, by simp [Blank], by simp [Blank]⟩)
  simp only [List.map_map, Function.comp_def, List.nil_append, List.append_nil, List.map_id'] at this
  rw [hix, this]
  cases drop with
  | false => exact ⟨c, get_sub ht hsub, rfl⟩
  | true =>
    obtain ⟨_, u, hu, hc⟩ := dropAt_sub.1 hsub
    exact ⟨u, get_sub ht hu, hc⟩

/-! ## What goes wrong -/

/-- A negative inlineDepth is refused for scalars with a TypeError, and for an empty list or object with an IndexError. -/
theorem inline_violation (T : Texts) {i : Int} (hi : i < 0) (m w : Int) (hm : 0 < m) (n : Int) (drop : Bool) :
    look T (.int n) m i w drop = .error typeErr ∧ look T (.arr []) m i w drop = .error indexErr ∧ look T (.dict []) m i w drop = .error indexErr := by
  have h1 : shown drop (.int n) = .int n := by cases drop <;> rfl
  have h2 : shown drop (.arr []) = .arr [] := by cases drop <;> rfl
  have h3 : shown drop (.dict []) = .dict [] := by cases drop <;> rfl
  unfold shown at h1 h2 h3
  refine ⟨?_, ?_, ?_⟩
  · unfold look; rw [h1, rows, acceptable, if_pos hi] <;> simp
  · unfold look; rw [h2, rows, acceptable, if_pos hi, if_neg (by simp), if_pos hm, rowsL]; rfl
  · unfold look; rw [h3, rows, acceptable, if_pos hi, if_neg (by simp), if_pos hm, rowsD]; rfl

/-- With a width below 3, what is cut off leaves more than the width. -/
theorem width_violation : (indexText 2 [.key "abcde"]).length = 7 := by decide +kernel

/-- Two places can look the same. -/
theorem index_violation (w : Int) : indexText w [.key "a,b"] = indexText w [.key "a", .key "b"] := by
  have : [','].intercalate ([Ix.key "a,b"].map Ix.chars) = [','].intercalate ([Ix.key "a", .key "b"].map Ix.chars) := by decide +kernel
  unfold indexText; rw [this]

/-! ## An example -/

/-- Texts of some scalars; that of a string is in quotes. -/
def someTexts : Texts where
  leaf
    | .int i => Lib.Num.fmt 10 i
    | .str s => '"' :: s.toList ++ ['"']
    | .bool true => "true".toList
    | .bool false => "false".toList
    | _ => "null".toList
  key s := '"' :: s.toList ++ ['"']

theorem someTexts_plain : someTexts.plain := by
  have hd : ∀ d, d < 10 → (Lib.Num.digitChar d).isWhitespace = false ∧ Lib.Num.digitChar d ≠ ',' := by decide
  have hn : ∀ fuel n, ∃ s d, d < 10 ∧ Lib.Num.natStr 10 (fuel + 1) n = s ++ [Lib.Num.digitChar d] := by
    intro fuel n
    rw [Lib.Num.natStr]
    split
    · next h => exact ⟨[], n, h, rfl⟩
    · exact ⟨_, n % 10, Nat.mod_lt _ (by decide), rfl⟩
  have hw : ∀ fuel n, ∀ c ∈ Lib.Num.natStr 10 fuel n, c.isWhitespace = false := by
    intro fuel
    induction fuel with
    | zero => intro n c h; simp [Lib.Num.natStr] at h
    | succ fuel ih =>
      intro n c h
      rw [Lib.Num.natStr] at h
      split at h
      · next hn => rw [List.mem_singleton.1 h]; exact (hd n hn).1
      · rcases List.mem_append.1 h with h | h
        · exact ih _ c h
        · rw [List.mem_singleton.1 h]; exact (hd _ (Nat.mod_lt _ (by decide))).1
  intro v
  cases v with
  | int i =>
    show (∃ c s, Lib.Num.fmt 10 i = c :: s ∧ _) ∧ ∃ s c, Lib.Num.fmt 10 i = s ++ [c] ∧ _
    obtain ⟨s, d, hlt, he⟩ := hn i.natAbs i.natAbs
    refine ⟨?_, Lib.Num.signStr i ++ s, Lib.Num.digitChar d, ?_, (hd d hlt).2⟩
    · unfold Lib.Num.fmt Lib.Num.signStr
      split
      · exact ⟨'-', _, rfl, by decide⟩
      · rw [List.nil_append]
        have hc := hw (i.natAbs + 1) i.natAbs
        unfold Lib.Num.digitsStr
        cases hq : Lib.Num.natStr 10 (i.natAbs + 1) i.natAbs with
        | nil => rw [he] at hq; simp at hq
        | cons c t => exact ⟨c, t, rfl, hc c (by rw [hq]; exact List.mem_cons_self)⟩
    · unfold Lib.Num.fmt Lib.Num.digitsStr
      rw [he, List.append_assoc]
  | str s => exact ⟨⟨'"', _, rfl, by decide⟩, ⟨'"' :: s.toList, '"', rfl, by decide⟩⟩
  | bool b =>
    cases b
    · exact ⟨⟨'f', "alse".toList, by decide +kernel, by decide⟩, ⟨"fals".toList, 'e', by decide +kernel, by decide⟩⟩
    · exact ⟨⟨'t', "rue".toList, by decide +kernel, by decide⟩, ⟨"tru".toList, 'e', by decide +kernel, by decide⟩⟩
  | _ =>
    show (∃ c s, "null".toList = c :: s ∧ _) ∧ ∃ s c, "null".toList = s ++ [c] ∧ _
    exact ⟨⟨'n', "ull".toList, by decide +kernel, by decide⟩, ⟨"nul".toList, 'l', by decide +kernel, by decide⟩⟩

/-- `{"@": "line 1", "a": [1, {"b": 2}]}` on five lines, with lists and objects on one line if there are none in them. -/
example : (look someTexts (.dict [("@", .str "line 1"), ("a", .arr [.int 1, .dict [("b", .int 2)]])]) 8 1 6 true).toOption.map (·.map String.ofList) =
    some ["index  data\n", "------------\n", "       {\n", "a        \"a\": [\n", "a,0        1,\n", "a,1        {\"b\": 2}\n", "         ]\n", "       }\n"] := by
  decide +kernel

example : Part 1 8 (.dict [("a", .arr [.int 1, .dict [("b", .int 2)]])]) [.key "a", .pos (1 : Nat)] (.dict [("b", .int 2)]) :=
  .key (by decide) (by decide) List.mem_cons_self (.pos (by decide) (by decide) rfl (.here _))

end Verif.Producer
