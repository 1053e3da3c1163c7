import Verif.Reader.Base64
import Mathlib.Data.List.TakeWhile
/-! # Encodings and Base64 (`titus/lib/bytes.py` from line 78)

Texts are lists of code points, bytes lists of numbers below 256. Values of PFA type bytes are either Python `bytes` (`raw`) or Python
`str` (`str`), as everywhere in Titus (`bytes.subseq` and `subseqto` are in `Slice`). The codecs of Python's library are modelled
from their definitions (UTF-8: RFC 3629, UTF-16: RFC 2781). -/

namespace Verif.Misc

/-! ## Model -/

/-- A value of PFA type bytes. -/
inductive BVal
  | str (l : List Nat)
  | raw (l : List Nat)
  deriving DecidableEq

/-- A codec in strict mode: `none` is UnicodeEncodeError or UnicodeDecodeError. -/
structure Codec where
  enc : List Nat → Option (List Nat)
  dec : List Nat → Option (List Nat)

/-- `Tester.__call__` (bytes.py 83-97) on bytes: `codecs.decode` of a `str` is a TypeError. -/
def testBytes (c : Codec) : BVal → Res Bool
  | .raw b => .ok (c.dec b).isSome
  | .str _ => .error (.py "TypeError")

/-- `Tester.__call__` on strings. -/
def testString (c : Codec) (s : List Nat) : Bool := (c.enc s).isSome

/-- `stringToBytes` (util.py 418-433) where needed. -/
def toRaw : BVal → Res (List Nat)
  | .raw b => .ok b
  | .str l => if l.all (fun x => decide (x < 256)) then .ok l else .error (.py "TypeError")

/-- `Decoder.__call__` (140-146). -/
def decode (c : Codec) (code : Int) (x : BVal) : Res (List Nat) := do
  let b ← toRaw x
  match c.dec b with
  | some s => .ok s
  | none => .error (.rt code)

/-- `Encoder.__call__` (189-194): the result is a `str`. -/
def encode (c : Codec) (code : Int) (s : List Nat) : Res BVal :=
  match c.enc s with
  | some b => .ok (.str b)
  | none => .error (.rt code)

/-- `ascii`. -/
def ascii : Codec where
  enc s := if s.all (fun x => decide (x < 128)) then some s else none
  dec b := if b.all (fun x => decide (x < 128)) then some b else none

/-- `latin_1`. -/
def latin1 : Codec where
  enc s := if s.all (fun x => decide (x < 256)) then some s else none
  dec b := some b

/-- Unicode scalar values. -/
def scalar (c : Nat) : Bool := decide (c < 0xD800) || (decide (0xE000 ≤ c) && decide (c < 0x110000))

/-- UTF-8 of one character. -/
def utf8Char (c : Nat) : List Nat :=
  if c < 0x80 then [c]
  else if c < 0x800 then [0xC0 + c / 64, 0x80 + c % 64]
  else if c < 0x10000 then [0xE0 + c / 4096, 0x80 + c / 64 % 64, 0x80 + c % 64]
  else [0xF0 + c / 262144, 0x80 + c / 4096 % 64, 0x80 + c / 64 % 64, 0x80 + c % 64]

/-- A continuation byte. -/
def cont (b : Nat) : Bool := decide (0x80 ≤ b) && decide (b < 0xC0)

/-- Reading UTF-8: no overlong forms, no surrogates, nothing above 0x10FFFF. -/
def utf8Dec : List Nat → Option (List Nat)
  | [] => some []
  | a :: r =>
    if a < 0x80 then (utf8Dec r).map (a :: ·)
    else match r with
      | [] => none
      | b :: r =>
        if a < 0xC2 || !cont b then none
        else if a < 0xE0 then (utf8Dec r).map (((a - 0xC0) * 64 + (b - 0x80)) :: ·)
        else match r with
          | [] => none
          | c :: r =>
            if !cont c then none
            else if a < 0xF0 then
              let n := (a - 0xE0) * 4096 + (b - 0x80) * 64 + (c - 0x80)
              if n < 0x800 || !scalar n then none else (utf8Dec r).map (n :: ·)
            else match r with
              | [] => none
              | d :: r =>
                let n := (a - 0xF0) * 262144 + (b - 0x80) * 4096 + (c - 0x80) * 64 + (d - 0x80)
                if !cont d || n < 0x10000 || !scalar n then none else (utf8Dec r).map (n :: ·)

/-- `utf_8`. -/
def utf8 : Codec where
  enc s := if s.all scalar then some (s.flatMap utf8Char) else none
  dec := utf8Dec

/-- UTF-16 of one character, in units. -/
def utf16Char (c : Nat) : List Nat :=
  if c < 0x10000 then [c] else [0xD800 + (c - 0x10000) / 1024, 0xDC00 + (c - 0x10000) % 1024]

/-- Reading units. -/
def utf16Dec : List Nat → Option (List Nat)
  | [] => some []
  | u :: r =>
    if u < 0xD800 || 0xE000 ≤ u then (utf16Dec r).map (u :: ·)
    else if 0xDC00 ≤ u then none
    else match r with
      | [] => none
      | v :: r =>
        if v < 0xDC00 || 0xE000 ≤ v then none
        else (utf16Dec r).map ((0x10000 + (u - 0xD800) * 1024 + (v - 0xDC00)) :: ·)

/-- Bytes of units, and units of bytes. -/
def beBytes (us : List Nat) : List Nat := us.flatMap fun u => [u / 256, u % 256]
def leBytes (us : List Nat) : List Nat := us.flatMap fun u => [u % 256, u / 256]
def beUnits : List Nat → Option (List Nat)
  | [] => some []
  | [_] => none
  | a :: b :: r => (beUnits r).map ((a * 256 + b) :: ·)
def leUnits : List Nat → Option (List Nat)
  | [] => some []
  | [_] => none
  | a :: b :: r => (leUnits r).map ((b * 256 + a) :: ·)

/-- `utf_16_be` and `utf_16_le`. -/
def utf16be : Codec where
  enc s := if s.all scalar then some (beBytes (s.flatMap utf16Char)) else none
  dec b := (beUnits b).bind utf16Dec
def utf16le : Codec where
  enc s := if s.all scalar then some (leBytes (s.flatMap utf16Char)) else none
  dec b := (leUnits b).bind utf16Dec

/-- `utf_16` on a little-endian machine: writes a byte order mark, reads either and without one little-endian. -/
def utf16 : Codec where
  enc s := (utf16le.enc s).map fun b => 0xFF :: 0xFE :: b
  dec
    | 0xFF :: 0xFE :: b => utf16le.dec b
    | 0xFE :: 0xFF :: b => utf16be.dec b
    | b => utf16le.dec b

/-- `bytes.toBase64` (238-241). -/
def toBase64 (x : BVal) : Res String := do
  let b ← toRaw x
  .ok (String.ofList (Reader.b64encode b))

/-- A character of the regular expression `[A-Za-z0-9\+/]`. -/
def b64Char (c : Char) : Bool := (Reader.val64 c).isSome

/-- `re.match("^[A-Za-z0-9\+/]*=*$", s)`; `$` also matches before a newline at the end. -/
def b64Match (s : List Char) : Bool :=
  let t := (s.dropWhile b64Char).dropWhile (· = '=')
  t = [] || t = ['\n']

/-- `bytes.fromBase64` (248-255): only TypeError is caught. -/
def fromBase64 (s : String) : Res BVal :=
  if b64Match s.toList then (Reader.b64decode s).map .str else .error (.rt 16220)

/-! ## Codecs -/

/-- Decoding undoes encoding, and encoding gives bytes. -/
def Codec.Lawful (c : Codec) : Prop := ∀ s b, c.enc s = some b → c.dec b = some s ∧ ∀ x ∈ b, x < 256

/-- There is one encoding of each text. -/
def Codec.Canonical (c : Codec) : Prop := ∀ s b, (∀ x ∈ b, x < 256) → c.dec b = some s → c.enc s = some b

theorem ascii_spec : ascii.Lawful ∧ ascii.Canonical ∧ ∀ s, (ascii.enc s).isSome ↔ ∀ x ∈ s, x < 128 := by
  refine ⟨?_, ?_, ?_⟩
  · intro s b h
    simp only [ascii] at h ⊢
    split at h
    next hs =>
      cases h
      refine ⟨by rw [if_pos hs], fun x hx => ?_⟩
      have := List.all_eq_true.1 hs x hx
      simp at this
      omega
    next => cases h
  · intro s b _ h
    simp only [ascii] at h ⊢
    split at h
    next hs => cases h; rw [if_pos hs]
    next => cases h
  · intro s
    simp [ascii]

theorem latin1_spec : latin1.Lawful ∧ latin1.Canonical ∧ ∀ s, (latin1.enc s).isSome ↔ ∀ x ∈ s, x < 256 := by
  refine ⟨?_, ?_, ?_⟩
  · intro s b h
    simp only [latin1] at h ⊢
    split at h
    next hs =>
      cases h
      refine ⟨rfl, fun x hx => ?_⟩
      simpa using List.all_eq_true.1 hs x hx
    next => cases h
  · intro s b hb h
    simp only [latin1] at h ⊢
    cases h
    rw [if_pos]
    simpa using hb
  · intro s
    simp [latin1]

theorem utf8Dec_char (c : Nat) (hc : scalar c = true) (r : List Nat) : utf8Dec (utf8Char c ++ r) = (utf8Dec r).map (c :: ·) := by
  have hc' : c < 0xD800 ∨ 0xE000 ≤ c ∧ c < 0x110000 := by simpa [scalar] using hc
  unfold utf8Char
  by_cases h1 : c < 0x80
  · rw [if_pos h1]
    simp only [List.cons_append, List.nil_append]
    rw [utf8Dec.eq_def]
    simp only
    rw [if_pos h1]
  · rw [if_neg h1]
    by_cases h2 : c < 0x800
    · rw [if_pos h2]
      simp only [List.cons_append, List.nil_append]
      rw [utf8Dec.eq_def]
      simp only
      rw [if_neg (by omega)]
      rw [if_neg (by simp [cont]; omega), if_pos (by omega)]
      have : (0xC0 + c / 64 - 0xC0) * 64 + (0x80 + c % 64 - 0x80) = c := by omega
      rw [this]
    · rw [if_neg h2]
      by_cases h3 : c < 0x10000
      · rw [if_pos h3]
        simp only [List.cons_append, List.nil_append]
        rw [utf8Dec.eq_def]
        simp only
        rw [if_neg (by omega)]
        have e : (0xE0 + c / 4096 - 0xE0) * 4096 + (0x80 + c / 64 % 64 - 0x80) * 64 + (0x80 + c % 64 - 0x80) = c := by omega
        rw [if_neg (by simp [cont]; omega), if_neg (by omega), if_neg (by simp [cont]; omega), if_pos (by omega), e,
          if_neg (by rw [hc]; simp; omega)]
      · rw [if_neg h3]
        simp only [List.cons_append, List.nil_append]
        rw [utf8Dec.eq_def]
        simp only
        rw [if_neg (by omega)]
        have e : (0xF0 + c / 262144 - 0xF0) * 262144 + (0x80 + c / 4096 % 64 - 0x80) * 4096 + (0x80 + c / 64 % 64 - 0x80) * 64 +
            (0x80 + c % 64 - 0x80) = c := by omega
        rw [if_neg (by simp [cont]; omega), if_neg (by omega), if_neg (by simp [cont]; omega), if_neg (by omega), e,
          if_neg (by rw [hc]; simp [cont]; omega)]

theorem utf8Char_lt (c : Nat) (hc : scalar c = true) : ∀ x ∈ utf8Char c, x < 256 := by
  have hc' : c < 0xD800 ∨ 0xE000 ≤ c ∧ c < 0x110000 := by simpa [scalar] using hc
  unfold utf8Char
  intro x hx
  split at hx
  · simp at hx; omega
  · split at hx
    · simp at hx; omega
    · split at hx
      · simp at hx; omega
      · simp at hx; omega

theorem utf8Dec_canon (b : List Nat) (s : List Nat) (h : utf8Dec b = some s) : s.all scalar = true ∧ s.flatMap utf8Char = b := by
  fun_induction utf8Dec b generalizing s with
  | case1 => cases h; exact ⟨rfl, rfl⟩
  | case2 a r h1 ih =>
    obtain ⟨t, ht, rfl⟩ := Option.map_eq_some_iff.1 h
    obtain ⟨i1, i2⟩ := ih t ht
    refine ⟨by rw [List.all_cons, i1]; simp [scalar]; omega, ?_⟩
    simp [utf8Char, h1, i2]
  | case3 => cases h
  | case4 => cases h
  | case5 a h1 b r h2 h3 ih =>
    obtain ⟨t, ht, rfl⟩ := Option.map_eq_some_iff.1 h
    obtain ⟨i1, i2⟩ := ih t ht
    simp [cont] at h2
    refine ⟨by rw [List.all_cons, i1]; simp [scalar]; omega, ?_⟩
    simp only [List.flatMap_cons, i2]
    unfold utf8Char
    rw [if_neg (by omega), if_pos (by omega)]
    simp
    omega
  | case6 => cases h
  | case7 => cases h
  | case8 => cases h
  | case9 a h1 b h2 h3 c r h4 h5 n h6 ih =>
    obtain ⟨t, ht, rfl⟩ := Option.map_eq_some_iff.1 h
    obtain ⟨i1, i2⟩ := ih t ht
    simp [cont] at h2 h4 h6
    refine ⟨by simp only [List.all_cons, h6.2, i1, Bool.and_self], ?_⟩
    simp only [List.flatMap_cons, i2]
    unfold utf8Char
    rw [if_neg (by omega), if_neg (by omega), if_pos (by omega)]
    simp
    omega
  | case10 => cases h
  | case11 => cases h
  | case12 a h1 b h2 h3 c h4 h5 d r n h6 ih =>
    obtain ⟨t, ht, rfl⟩ := Option.map_eq_some_iff.1 h
    obtain ⟨i1, i2⟩ := ih t ht
    simp [cont] at h2 h4 h6
    have hs := h6.2
    simp [scalar] at hs
    refine ⟨by simp only [List.all_cons, h6.2, i1, Bool.and_self], ?_⟩
    simp only [List.flatMap_cons, i2]
    unfold utf8Char
    rw [if_neg (by omega), if_neg (by omega), if_neg (by omega)]
    simp
    omega

theorem utf8_spec : utf8.Lawful ∧ utf8.Canonical ∧ ∀ s, (utf8.enc s).isSome ↔ s.all scalar = true := by
  refine ⟨?_, ?_, ?_⟩
  · intro s b h
    simp only [utf8] at h ⊢
    split at h
    next hs =>
      cases h
      induction s with
      | nil => exact ⟨rfl, by simp⟩
      | cons c s ih =>
        simp only [List.all_cons, Bool.and_eq_true] at hs
        obtain ⟨i1, i2⟩ := ih hs.2
        simp only [List.flatMap_cons]
        refine ⟨by rw [utf8Dec_char c hs.1, i1]; rfl, ?_⟩
        intro x hx
        rcases List.mem_append.1 hx with hx | hx
        · exact utf8Char_lt c hs.1 x hx
        · exact i2 x hx
    next => cases h
  · intro s b _ h
    simp only [utf8] at h ⊢
    obtain ⟨h1, h2⟩ := utf8Dec_canon b s h
    rw [if_pos h1, h2]
  · intro s
    simp only [utf8]
    by_cases h : s.all scalar = true
    · simp [h]
    · simp [h]

theorem utf16Dec_char (c : Nat) (hc : scalar c = true) (r : List Nat) : utf16Dec (utf16Char c ++ r) = (utf16Dec r).map (c :: ·) := by
  have hc' : c < 0xD800 ∨ 0xE000 ≤ c ∧ c < 0x110000 := by simpa [scalar] using hc
  unfold utf16Char
  by_cases h1 : c < 0x10000
  · rw [if_pos h1]
    simp only [List.cons_append, List.nil_append]
    rw [utf16Dec.eq_def]
    simp only
    rw [if_pos (by simp; omega)]
  · rw [if_neg h1]
    simp only [List.cons_append, List.nil_append]
    rw [utf16Dec.eq_def]
    simp only
    rw [if_neg (by simp; omega), if_neg (by omega), if_neg (by simp; omega)]
    have : 0x10000 + (0xD800 + (c - 0x10000) / 1024 - 0xD800) * 1024 + (0xDC00 + (c - 0x10000) % 1024 - 0xDC00) = c := by omega
    rw [this]

theorem utf16Char_lt (c : Nat) (hc : scalar c = true) : ∀ x ∈ utf16Char c, x < 65536 := by
  have hc' : c < 0xD800 ∨ 0xE000 ≤ c ∧ c < 0x110000 := by simpa [scalar] using hc
  unfold utf16Char
  intro x hx
  split at hx
  · simp at hx; omega
  · simp at hx; omega

theorem utf16Dec_units (s : List Nat) (hs : s.all scalar = true) :
    utf16Dec (s.flatMap utf16Char) = some s ∧ ∀ x ∈ s.flatMap utf16Char, x < 65536 := by
  induction s with
  | nil => exact ⟨rfl, by simp⟩
  | cons c s ih =>
    simp only [List.all_cons, Bool.and_eq_true] at hs
    obtain ⟨i1, i2⟩ := ih hs.2
    simp only [List.flatMap_cons]
    refine ⟨by rw [utf16Dec_char c hs.1, i1]; rfl, ?_⟩
    intro x hx
    rcases List.mem_append.1 hx with hx | hx
    · exact utf16Char_lt c hs.1 x hx
    · exact i2 x hx

theorem utf16Dec_canon (us : List Nat) (hu : ∀ x ∈ us, x < 65536) (s : List Nat) (h : utf16Dec us = some s) :
    s.all scalar = true ∧ s.flatMap utf16Char = us := by
  fun_induction utf16Dec us generalizing s with
  | case1 => cases h; exact ⟨rfl, rfl⟩
  | case2 u r h1 ih =>
    obtain ⟨t, ht, rfl⟩ := Option.map_eq_some_iff.1 h
    obtain ⟨i1, i2⟩ := ih (fun x hx => hu x (by simp [hx])) t ht
    have := hu u (by simp)
    simp at h1
    refine ⟨by rw [List.all_cons, i1]; simp [scalar]; omega, ?_⟩
    simp [utf16Char, this, i2]
  | case3 => cases h
  | case4 => cases h
  | case5 => cases h
  | case6 u h1 h2 v r h3 ih =>
    obtain ⟨t, ht, rfl⟩ := Option.map_eq_some_iff.1 h
    obtain ⟨i1, i2⟩ := ih (fun x hx => hu x (by simp [hx])) t ht
    simp at h1 h3
    refine ⟨by rw [List.all_cons, i1]; simp [scalar]; omega, ?_⟩
    simp only [List.flatMap_cons, i2]
    unfold utf16Char
    rw [if_neg (by omega)]
    simp
    omega

theorem beUnits_bytes (us : List Nat) : beUnits (beBytes us) = some us := by
  induction us with
  | nil => rfl
  | cons u us ih =>
    have : beBytes (u :: us) = u / 256 :: u % 256 :: beBytes us := rfl
    rw [this, beUnits, ih]
    simp
    omega

theorem leUnits_bytes (us : List Nat) : leUnits (leBytes us) = some us := by
  induction us with
  | nil => rfl
  | cons u us ih =>
    have : leBytes (u :: us) = u % 256 :: u / 256 :: leBytes us := rfl
    rw [this, leUnits, ih]
    simp
    omega

theorem beBytes_units (b us : List Nat) (hb : ∀ x ∈ b, x < 256) (h : beUnits b = some us) : beBytes us = b ∧ ∀ x ∈ us, x < 65536 := by
  fun_induction beUnits b generalizing us with
  | case1 => cases h; exact ⟨rfl, by simp⟩
  | case2 => cases h
  | case3 a c r ih =>
    obtain ⟨t, ht, rfl⟩ := Option.map_eq_some_iff.1 h
    obtain ⟨i1, i2⟩ := ih t (fun x hx => hb x (by simp [hx])) ht
    have h1 := hb a (by simp)
    have h2 := hb c (by simp)
    refine ⟨?_, ?_⟩
    · have : beBytes ((a * 256 + c) :: t) = (a * 256 + c) / 256 :: (a * 256 + c) % 256 :: beBytes t := rfl
      rw [this, i1]
      congr 1
      · omega
      · congr 1; omega
    · intro x hx
      rcases List.mem_cons.1 hx with rfl | hx
      · omega
      · exact i2 x hx

theorem leBytes_units (b us : List Nat) (hb : ∀ x ∈ b, x < 256) (h : leUnits b = some us) : leBytes us = b ∧ ∀ x ∈ us, x < 65536 := by
  fun_induction leUnits b generalizing us with
  | case1 => cases h; exact ⟨rfl, by simp⟩
  | case2 => cases h
  | case3 a c r ih =>
    obtain ⟨t, ht, rfl⟩ := Option.map_eq_some_iff.1 h
    obtain ⟨i1, i2⟩ := ih t (fun x hx => hb x (by simp [hx])) ht
    have h1 := hb a (by simp)
    have h2 := hb c (by simp)
    refine ⟨?_, ?_⟩
    · have : leBytes ((c * 256 + a) :: t) = (c * 256 + a) % 256 :: (c * 256 + a) / 256 :: leBytes t := rfl
      rw [this, i1]
      congr 1
      · omega
      · congr 1; omega
    · intro x hx
      rcases List.mem_cons.1 hx with rfl | hx
      · omega
      · exact i2 x hx

theorem beBytes_lt (us : List Nat) (h : ∀ x ∈ us, x < 65536) : ∀ x ∈ beBytes us, x < 256 := by
  intro x hx
  obtain ⟨u, hu, hx⟩ := List.mem_flatMap.1 hx
  have := h u hu
  simp at hx
  omega

theorem leBytes_lt (us : List Nat) (h : ∀ x ∈ us, x < 65536) : ∀ x ∈ leBytes us, x < 256 := by
  intro x hx
  obtain ⟨u, hu, hx⟩ := List.mem_flatMap.1 hx
  have := h u hu
  simp at hx
  omega

theorem utf16be_spec : utf16be.Lawful ∧ utf16be.Canonical ∧ ∀ s, (utf16be.enc s).isSome ↔ s.all scalar = true := by
  refine ⟨?_, ?_, ?_⟩
  · intro s b h
    simp only [utf16be] at h ⊢
    split at h
    next hs =>
      cases h
      have := utf16Dec_units s hs
      rw [beUnits_bytes]
      exact ⟨this.1, beBytes_lt _ this.2⟩
    next => cases h
  · intro s b hb h
    simp only [utf16be] at h ⊢
    obtain ⟨us, h1, h2⟩ := Option.bind_eq_some_iff.1 h
    obtain ⟨h3, h4⟩ := beBytes_units b us hb h1
    obtain ⟨h5, h6⟩ := utf16Dec_canon us h4 s h2
    rw [if_pos h5, h6, h3]
  · intro s
    simp only [utf16be]
    by_cases h : s.all scalar = true <;> simp [h]

theorem utf16le_spec : utf16le.Lawful ∧ utf16le.Canonical ∧ ∀ s, (utf16le.enc s).isSome ↔ s.all scalar = true := by
  refine ⟨?_, ?_, ?_⟩
  · intro s b h
    simp only [utf16le] at h ⊢
    split at h
    next hs =>
      cases h
      have := utf16Dec_units s hs
      rw [leUnits_bytes]
      exact ⟨this.1, leBytes_lt _ this.2⟩
    next => cases h
  · intro s b hb h
    simp only [utf16le] at h ⊢
    obtain ⟨us, h1, h2⟩ := Option.bind_eq_some_iff.1 h
    obtain ⟨h3, h4⟩ := leBytes_units b us hb h1
    obtain ⟨h5, h6⟩ := utf16Dec_canon us h4 s h2
    rw [if_pos h5, h6, h3]
  · intro s
    simp only [utf16le]
    by_cases h : s.all scalar = true <;> simp [h]

/-- `utf_16` reads what it writes; other bytes can stand for the same text. -/
theorem utf16_spec : utf16.Lawful ∧ (∀ s, (utf16.enc s).isSome ↔ s.all scalar = true) ∧ ¬ utf16.Canonical := by
  refine ⟨?_, ?_, ?_⟩
  · intro s b h
    obtain ⟨b', h1, rfl⟩ := Option.map_eq_some_iff.1 h
    obtain ⟨h2, h3⟩ := utf16le_spec.1 s b' h1
    refine ⟨h2, ?_⟩
    intro x hx
    simp only [List.mem_cons] at hx
    rcases hx with rfl | rfl | hx
    · omega
    · omega
    · exact h3 x hx
  · intro s
    have := utf16le_spec.2.2 s
    simpa [utf16] using this
  · intro h
    have := h [97] [97, 0] (by simp) (by decide)
    revert this
    decide

/-- With a byte order mark `utf_16` reads either order. -/
theorem utf16_marks (s b : List Nat) : (utf16be.enc s = some b → utf16.dec (0xFE :: 0xFF :: b) = some s) ∧
    (utf16le.enc s = some b → utf16.dec (0xFF :: 0xFE :: b) = some s) :=
  ⟨fun h => (utf16be_spec.1 s b h).1, fun h => (utf16le_spec.1 s b h).1⟩

example : utf16be.enc [97, 0x1F600] = some [0, 97, 0xD8, 0x3D, 0xDE, 0] := by decide +kernel

/-! ## The functions -/

theorem toRaw_str (b : List Nat) (hb : ∀ x ∈ b, x < 256) : toRaw (.str b) = .ok b := by
  simp only [toRaw]
  rw [if_pos (by simpa using hb)]

/-- Encoding and decoding with the same codec gives the text back. -/
theorem decode_encode (c : Codec) (hc : c.Lawful) (code code' : Int) (s : List Nat) (x : BVal) (h : encode c code s = .ok x) :
    decode c code' x = .ok s := by
  unfold encode at h
  split at h
  next b hb =>
    cases h
    obtain ⟨h1, h2⟩ := hc s b hb
    unfold decode
    rw [toRaw_str b h2]
    simp only [bind, Except.bind]
    rw [h1]
  next => cases h

/-- `bytes.encode*` raises its error exactly for the texts `bytes.is*` refuses, and nothing else. -/
theorem encode_errors (c : Codec) (code : Int) (s : List Nat) :
    (testString c s = true → ∃ b, encode c code s = .ok (.str b)) ∧ (testString c s = false → encode c code s = .error (.rt code)) := by
  unfold testString encode
  cases c.enc s with
  | none => exact ⟨by simp, fun _ => rfl⟩
  | some b => exact ⟨fun _ => ⟨b, rfl⟩, by simp⟩

/-- On bytes: `bytes.decode*` raises its error exactly for those `bytes.is*` refuses. A `str` of bytes is decoded like the bytes. -/
theorem decode_errors (c : Codec) (code : Int) (b : List Nat) (hb : ∀ x ∈ b, x < 256) :
    (testBytes c (.raw b) = .ok true → ∃ s, decode c code (.raw b) = .ok s) ∧
    (testBytes c (.raw b) = .ok false → decode c code (.raw b) = .error (.rt code)) ∧
    decode c code (.str b) = decode c code (.raw b) := by
  unfold testBytes decode
  rw [toRaw_str b hb]
  simp only [toRaw, bind, Except.bind]
  cases c.dec b with
  | none => exact ⟨by simp, fun _ => rfl, trivial⟩
  | some s => exact ⟨fun _ => ⟨s, rfl⟩, by simp, trivial⟩

/-- Every tester raises a Python error for bytes that are a `str`, such as the results of `bytes.encode*`. -/
theorem tester_violation : encode utf8 16170 [97] = .ok (.str [97]) ∧ testBytes utf8 (.str [97]) = .error (.py "TypeError") ∧
    testBytes utf8 (.raw [97]) = .ok true := by
  refine ⟨by decide +kernel, rfl, by decide +kernel⟩

/-! ## Base64 -/

theorem encode_match (bs : List Nat) (h : ∀ b ∈ bs, b < 256) : b64Match (Reader.b64encode bs) = true := by
  have hc : ∀ v, v < 64 → b64Char (Reader.char64 v) = true := by
    intro v hv
    simp [b64Char, (Reader.char64_spec v hv).1]
  have he : b64Char '=' = false := by decide
  have key : ∀ cs, (cs.dropWhile b64Char).dropWhile (· = '=') = [] → b64Match cs = true := by
    intro cs h; simp [b64Match, h]
  apply key
  fun_induction Reader.b64encode bs with
  | case1 => rfl
  | case2 a =>
    have := h a (by simp)
    rw [List.dropWhile_cons_of_pos (hc _ (by omega)), List.dropWhile_cons_of_pos (hc _ (by omega)),
      List.dropWhile_cons_of_neg (by simp [he])]
    rfl
  | case3 a b =>
    have h1 := h a (by simp)
    have h2 := h b (by simp)
    rw [List.dropWhile_cons_of_pos (hc _ (by omega)), List.dropWhile_cons_of_pos (hc _ (by omega)),
      List.dropWhile_cons_of_pos (hc _ (by omega)), List.dropWhile_cons_of_neg (by simp [he])]
    rfl
  | case4 a b c r ih =>
    have h1 := h a (by simp)
    have h2 := h b (by simp)
    have h3 := h c (by simp)
    rw [List.dropWhile_cons_of_pos (hc _ (by omega)), List.dropWhile_cons_of_pos (hc _ (by omega)),
      List.dropWhile_cons_of_pos (hc _ (by omega)), List.dropWhile_cons_of_pos (hc _ (by omega))]
    exact ih fun x hx => h x (by simp [hx])

/-- Base64 and back. -/
theorem base64_round (x : BVal) (b : List Nat) (hx : x = .raw b ∨ x = .str b) (hb : ∀ c ∈ b, c < 256) :
    ∃ t, toBase64 x = .ok t ∧ fromBase64 t = .ok (.str b) := by
  have hr : toRaw x = .ok b := by
    rcases hx with rfl | rfl
    · rfl
    · exact toRaw_str b hb
  refine ⟨_, by unfold toBase64; rw [hr]; rfl, ?_⟩
  unfold fromBase64
  rw [String.toList_ofList, if_pos (encode_match b hb), Reader.b64decode_encode b hb]
  rfl

/-- A text with a character outside the alphabet raises the documented error. -/
theorem fromBase64_errors (s : String) (c : Char) (hc : c ∈ s.toList) (h1 : b64Char c = false) (h2 : c ≠ '=') (h3 : c ≠ '\n') :
    fromBase64 s = .error (.rt 16220) := by
  unfold fromBase64
  rw [if_neg]
  unfold b64Match
  have e1 : c ∈ s.toList.dropWhile b64Char := by
    rw [← List.takeWhile_append_dropWhile (p := b64Char) (l := s.toList)] at hc
    rcases List.mem_append.1 hc with hc | hc
    · have := List.mem_takeWhile_imp hc
      rw [h1] at this
      cases this
    · exact hc
  have e2 : c ∈ (s.toList.dropWhile b64Char).dropWhile (· = '=') := by
    rw [← List.takeWhile_append_dropWhile (p := (· = '=')) (l := s.toList.dropWhile b64Char)] at e1
    rcases List.mem_append.1 e1 with hc | hc
    · have := List.mem_takeWhile_imp hc
      simp [h2] at this
    · exact hc
  simp only [Bool.or_eq_true, decide_eq_true_eq]
  rintro (h | h)
  · rw [h] at e2; simp at e2
  · rw [h] at e2; simp [h3] at e2

/-- A text of the right characters but the wrong length raises binascii.Error; padding may be of any length, and a newline is accepted
at the end. -/
theorem fromBase64_violation :
    fromBase64 "QUJ" = .error (.py "binascii.Error") ∧
    (fromBase64 "QQ=======" matches .ok (.str [65])) = true ∧ (fromBase64 "QQ==\n" matches .ok (.str [65])) = true := by
  refine ⟨?_, by decide +kernel, by decide +kernel⟩
  have : Reader.b64decode "QUJ" = .error (.py "binascii.Error") := by decide +kernel
  unfold fromBase64
  rw [if_pos (by decide +kernel), this]
  rfl

end Verif.Misc
