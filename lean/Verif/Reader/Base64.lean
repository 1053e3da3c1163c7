import Verif.Py.Basic
import Mathlib.Tactic.IntervalCases
/-! # Base64 as used by the reader and the printer (C45)

Models `base64.b64encode` and `base64.b64decode` of Python's library, as called in `titus/reader.py` 497-501 and
`titus/pfaast.py` 2510-2523.  `base64.b64decode` is not strict: characters outside the alphabet are skipped
and nothing is read after the padding (`binascii.a2b_base64`). -/

namespace Verif.Reader

/-- The character of a value below 64. -/
def char64 (v : Nat) : Char :=
  Char.ofNat (if v < 26 then 65 + v else if v < 52 then 71 + v else if v < 62 then v - 4 else if v = 62 then 43 else 47)

/-- The value of a character of the alphabet. -/
def val64 (c : Char) : Option Nat :=
  let n := c.toNat
  if 65 ≤ n ∧ n ≤ 90 then some (n - 65) else if 97 ≤ n ∧ n ≤ 122 then some (n - 71)
  else if 48 ≤ n ∧ n ≤ 57 then some (n + 4) else if n = 43 then some 62 else if n = 47 then some 63 else none

/-- `base64.b64encode(bytes).decode()` -/
def b64encode : List Nat → List Char
  | [] => []
  | [a] => [char64 (a / 4), char64 (a % 4 * 16), '=', '=']
  | [a, b] => [char64 (a / 4), char64 (a % 4 * 16 + b / 16), char64 (b % 16 * 4), '=']
  | a :: b :: c :: r => char64 (a / 4) :: char64 (a % 4 * 16 + b / 16) :: char64 (b % 16 * 4 + c / 64) :: char64 (c % 64) ::
      b64encode r

/-- The loop of `binascii.a2b_base64`: position in the group of four, bits left over, padding seen; `none` is
binascii.Error. -/
def a2b (quad left pads : Nat) : List Char → Option (List Nat)
  | [] => if quad = 0 then some [] else none
  | c :: cs =>
    if c = '=' then
      if 2 ≤ quad then if 4 ≤ quad + (pads + 1) then some [] else a2b quad left (pads + 1) cs
      else a2b quad left pads cs
    else match val64 c with
      | none => a2b quad left pads cs
      | some v =>
        if quad = 0 then a2b 1 v 0 cs
        else if quad = 1 then (a2b 2 (v % 16) 0 cs).map ((left * 4 + v / 16) :: ·)
        else if quad = 2 then (a2b 3 (v % 4) 0 cs).map ((left * 16 + v / 4) :: ·)
        else (a2b 0 0 0 cs).map ((left * 64 + v) :: ·)

/-- `base64.b64decode(data)` for a `str`: ValueError when a character is not ASCII. -/
def b64decode (s : String) : Res (List Nat) :=
  if s.toList.all (fun c => decide (c.toNat < 128)) then match a2b 0 0 0 s.toList with
    | some bs => .ok bs
    | none => .error (.py "binascii.Error")
  else .error (.py "ValueError")

theorem char64_spec (v : Nat) (h : v < 64) : val64 (char64 v) = some v ∧ char64 v ≠ '=' ∧ (char64 v).toNat < 128 := by
  have : ∀ v : Fin 64, val64 (char64 v) = some v.1 ∧ char64 v ≠ '=' ∧ (char64 v).toNat < 128 := by decide +kernel
  exact this ⟨v, h⟩

/-- Decoding undoes encoding. -/
theorem a2b_encode (bs : List Nat) (h : ∀ b ∈ bs, b < 256) : a2b 0 0 0 (b64encode bs) = some bs := by
  fun_induction b64encode bs with
  | case1 => simp [a2b]
  | case2 a =>
    have ha := h a (by simp)
    have h1 := char64_spec (a / 4) (by omega)
    have h2 := char64_spec (a % 4 * 16) (by omega)
    simp only [a2b, h1, h2, if_false, if_true, Option.map_some]
    simp; omega
  | case3 a b =>
    have ha := h a (by simp)
    have hb := h b (by simp)
    have h1 := char64_spec (a / 4) (by omega)
    have h2 := char64_spec (a % 4 * 16 + b / 16) (by omega)
    have h3 := char64_spec (b % 16 * 4) (by omega)
    simp only [a2b, h1, h2, h3, if_false, if_true, Option.map_some]
    simp; omega
  | case4 a b c r ih =>
    have ha := h a (by simp)
    have hb := h b (by simp)
    have hc := h c (by simp)
    have h1 := char64_spec (a / 4) (by omega)
    have h2 := char64_spec (a % 4 * 16 + b / 16) (by omega)
    have h3 := char64_spec (b % 16 * 4 + c / 64) (by omega)
    have h4 := char64_spec (c % 64) (by omega)
    have ih := ih (fun x hx => h x (by simp [hx]))
    simp only [a2b, h1, h2, h3, h4, if_false, if_true, Option.map_some, ih]
    simp; omega

theorem encode_ascii (bs : List Nat) (h : ∀ b ∈ bs, b < 256) : ∀ c ∈ b64encode bs, c.toNat < 128 := by
  fun_induction b64encode bs with
  | case1 => simp
  | case2 a =>
    have ha := h a (by simp)
    have h1 := char64_spec (a / 4) (by omega)
    have h2 := char64_spec (a % 4 * 16) (by omega)
    simp [h1, h2]
  | case3 a b =>
    have ha := h a (by simp)
    have hb := h b (by simp)
    have h1 := char64_spec (a / 4) (by omega)
    have h2 := char64_spec (a % 4 * 16 + b / 16) (by omega)
    have h3 := char64_spec (b % 16 * 4) (by omega)
    simp [h1, h2, h3]
  | case4 a b c r ih =>
    have ha := h a (by simp)
    have hb := h b (by simp)
    have hc := h c (by simp)
    have h1 := char64_spec (a / 4) (by omega)
    have h2 := char64_spec (a % 4 * 16 + b / 16) (by omega)
    have h3 := char64_spec (b % 16 * 4 + c / 64) (by omega)
    have h4 := char64_spec (c % 64) (by omega)
    have ih := ih (fun x hx => h x (by simp [hx]))
    simpa [h1, h2, h3, h4] using ih

theorem b64decode_encode (bs : List Nat) (h : ∀ b ∈ bs, b < 256) : b64decode (String.ofList (b64encode bs)) = .ok bs := by
  have ha : (b64encode bs).all (fun c => decide (c.toNat < 128)) = true := by
    simpa using encode_ascii bs h
  simp [b64decode, ha, a2b_encode bs h]

/-- Decoded bytes are bytes. -/
theorem a2b_lt (cs : List Char) : ∀ (quad left pads : Nat) (bs : List Nat), (quad = 1 → left < 64) → (quad = 2 → left < 16) →
    (quad ≠ 1 → quad ≠ 2 → left < 4) → a2b quad left pads cs = some bs → ∀ b ∈ bs, b < 256 := by
  have v64 : ∀ c v, val64 c = some v → v < 64 := by
    intro c v h
    simp only [val64] at h
    split_ifs at h <;> simp at h <;> omega
  induction cs with
  | nil =>
    intro quad left pads bs _ _ _ h
    simp only [a2b] at h
    split_ifs at h; cases h; simp
  | cons c cs ih =>
    intro quad left pads bs h1 h2 h3 h
    simp only [a2b] at h
    cases hv : val64 c with
    | none =>
      simp only [hv] at h
      split_ifs at h
      · cases h; simp
      · exact ih _ _ _ _ h1 h2 h3 h
      · exact ih _ _ _ _ h1 h2 h3 h
      · exact ih _ _ _ _ h1 h2 h3 h
    | some v =>
      simp only [hv] at h
      have hv := v64 c v hv
      have step : ∀ (q l x : Nat), (q = 1 → l < 64) → (q = 2 → l < 16) → (q ≠ 1 → q ≠ 2 → l < 4) → x < 256 →
          (a2b q l 0 cs).map (x :: ·) = some bs → ∀ b ∈ bs, b < 256 := by
        intro q l x a1 a2 a3 hx hm
        obtain ⟨r, hr, rfl⟩ := Option.map_eq_some_iff.1 hm
        intro b hb
        rcases List.mem_cons.1 hb with rfl | hb
        · exact hx
        · exact ih _ _ _ _ a1 a2 a3 hr b hb
      split_ifs at h with hc hq hp q0 q1 q2
      · cases h; simp
      · exact ih _ _ _ _ h1 h2 h3 h
      · exact ih _ _ _ _ h1 h2 h3 h
      · exact ih _ _ _ _ (by omega) (by omega) (by omega) h
      · exact step _ _ _ (by omega) (by omega) (by omega) (by have := h1 q1; omega) h
      · exact step _ _ _ (by omega) (by omega) (by omega) (by have := h2 q2; omega) h
      · exact step _ _ _ (by omega) (by omega) (by omega) (by have := h3 q1 q2; omega) h

theorem b64decode_lt {s : String} {bs : List Nat} (h : b64decode s = .ok bs) : ∀ b ∈ bs, b < 256 := by
  simp only [b64decode] at h
  split_ifs at h
  split at h
  · next r hr => cases h; exact a2b_lt _ 0 0 0 _ (by omega) (by omega) (by omega) hr
  · cases h

/-- RFC 4648 examples; decoding skips what is not in the alphabet. -/
example : String.ofList (b64encode [102, 111, 111, 98]) = "Zm9vYg==" ∧ b64decode "Zm9vYg==" = .ok [102, 111, 111, 98] ∧
    b64decode "Zm9v\nYg==rest" = .ok [102, 111, 111, 98] ∧ b64decode "Z" = .error (.py "binascii.Error") := by decide +kernel

end Verif.Reader
