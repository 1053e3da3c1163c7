import Verif.Inspector.Find
/-! # What the inspector prints of a key is JSON for this key (C110)

`Verif.Inspector.escape` and `dumpKey` model `json.dumps` of a string.  Here is a reader of JSON strings, written from RFC 8259 (section 7) and not from the
model, which gives back every key. -/

namespace Verif.Inspector.Dumped

/-! ## Specification -/

/-- The value of a hexadecimal digit. -/
def hexVal (c : Char) : Option Nat :=
  if 48 ≤ c.toNat ∧ c.toNat ≤ 57 then some (c.toNat - 48)
  else if 97 ≤ c.toNat ∧ c.toNat ≤ 102 then some (c.toNat - 87)
  else if 65 ≤ c.toNat ∧ c.toNat ≤ 70 then some (c.toNat - 55)
  else none

/-- The character that is written as a reversed solidus and this one. -/
def short : Char → Option Nat
  | '"' => some 34
  | '\\' => some 92
  | '/' => some 47
  | 'b' => some 8
  | 'f' => some 12
  | 'n' => some 10
  | 'r' => some 13
  | 't' => some 9
  | _ => none

/-- The units of UTF-16 between the quotation marks. -/
def units : List Char → Option (List Nat)
  | [] => some []
  | '\\' :: 'u' :: a :: b :: c :: d :: r => match hexVal a, hexVal b, hexVal c, hexVal d, units r with
    | some a, some b, some c, some d, some us => some ((4096 * a + 256 * b + 16 * c + d) :: us)
    | _, _, _, _, _ => none
  | '\\' :: e :: r => match short e, units r with
    | some u, some us => some (u :: us)
    | _, _ => none
  | c :: r => if c = '"' ∨ c = '\\' ∨ c.toNat < 32 ∨ 65536 ≤ c.toNat then none else (units r).map (c.toNat :: ·)

/-- The code points of units of UTF-16: two surrogates are one. -/
def points : List Nat → List Nat
  | [] => []
  | [u] => [u]
  | h :: l :: r => if 0xD800 ≤ h ∧ h < 0xDC00 ∧ 0xDC00 ≤ l ∧ l < 0xE000 then (0x10000 + (h - 0xD800) * 1024 + (l - 0xDC00)) :: points r else h :: points (l :: r)

/-! ## Theorems -/

theorem hexVal_digit (n : Nat) : hexVal (hexDigit n) = some (n % 16) := by
  unfold hexDigit
  have h : n % 16 < 16 := Nat.mod_lt _ (by decide)
  generalize n % 16 = m at h
  have : ∀ m : Fin 16, hexVal ("0123456789abcdef".toList.getD m.1 '0') = some m.1 := by decide +kernel
  exact this ⟨m, h⟩

theorem units_unicode {n : Nat} (h : n < 65536) (r : List Char) : units (unicode n ++ r) = (units r).map (n :: ·) := by
  simp only [unicode, List.cons_append, List.nil_append, units, hexVal_digit]
  have e : 4096 * (n / 4096 % 16) + 256 * (n / 256 % 16) + 16 * (n / 16 % 16) + n % 16 = n := by omega
  cases units r with
  | none => rfl
  | some us => simp [e]

theorem units_short {e : Char} {u : Nat} (h : short e = some u) (he : e ≠ 'u') (r : List Char) : units ('\\' :: e :: r) = (units r).map (u :: ·) := by
  rw [units, h]
  · cases units r <;> rfl
  · intro _ _ _ _ _ h'; exact absurd h' he

/-- The units of UTF-16 of a character. -/
def encode (c : Char) : List Nat := if c.toNat < 65536 then [c.toNat] else [0xD800 + (c.toNat - 65536) / 1024, 0xDC00 + (c.toNat - 65536) % 1024]

theorem toNat_bound (c : Char) : c.toNat < 0xD800 ∨ (0xDFFF < c.toNat ∧ c.toNat < 0x110000) := c.valid

theorem units_escape (c : Char) (r : List Char) : units (escape c ++ r) = (units r).map (encode c ++ ·) := by
  unfold escape
  split_ifs with h1 h2 h3 h4 h5 h6 h7 h8 h9
  · subst h1; exact units_short rfl (by decide) r
  · subst h2; exact units_short rfl (by decide) r
  · subst h3; exact units_short rfl (by decide) r
  · subst h4; exact units_short rfl (by decide) r
  · subst h5; exact units_short rfl (by decide) r
  · rw [List.cons_append, List.cons_append, List.nil_append, units_short rfl (by decide)]; simp [encode, h6]
  · rw [List.cons_append, List.cons_append, List.nil_append, units_short rfl (by decide)]; simp [encode, h7]
  · rw [List.cons_append, List.nil_append, units]
    · have : c.toNat < 65536 := by omega
      rw [if_neg (by push Not; exact ⟨h1, h2, by omega, by omega⟩)]
      simp [encode, this]
    · rintro _ _ _ _ _ rfl; exact fun _ => h2 rfl
    · rintro _ _ rfl; exact fun _ => h2 rfl
  · rw [units_unicode h9]; simp [encode, h9]
  · have := toNat_bound c
    rw [List.append_assoc, units_unicode (by omega), units_unicode (by omega)]
    cases units r <;> simp [encode, h9]

theorem units_key (k : List Char) : units (k.flatMap escape) = some (k.flatMap encode) := by
  induction k with
  | nil => rfl
  | cons c k ih => rw [List.flatMap_cons, units_escape, ih]; rfl

theorem points_encode (c : Char) (us : List Nat) : points (encode c ++ us) = c.toNat :: points us := by
  have hb := toNat_bound c
  unfold encode
  split
  · cases us with
    | nil => rfl
    | cons u us => rw [List.cons_append, List.nil_append, points, if_neg (by omega)]
  · rw [List.cons_append, List.cons_append, List.nil_append, points, if_pos (by omega)]
    have e : 0x10000 + (0xD800 + (c.toNat - 65536) / 1024 - 0xD800) * 1024 + (0xDC00 + (c.toNat - 65536) % 1024 - 0xDC00) = c.toNat := by omega
    rw [e]

/-- **What is printed is read as the key**: between quotation marks, JSON whose code points are those of the key. -/
theorem dumped (k : List Char) : ∃ s us, dumpKey k = '"' :: (s ++ ['"']) ∧ units s = some us ∧ points us = k.map Char.toNat := by
  refine ⟨_, _, rfl, units_key k, ?_⟩
  induction k with
  | nil => rfl
  | cons c k ih => rw [List.flatMap_cons, points_encode, ih]; rfl

/-- Different keys are printed differently. -/
theorem dumped_injective {k k' : List Char} (h : dumpKey k = dumpKey k') : k = k' := by
  obtain ⟨s, us, h1, h2, h3⟩ := dumped k
  obtain ⟨s', us', h1', h2', h3'⟩ := dumped k'
  rw [h1, h1'] at h
  obtain rfl : s = s' := by simpa using h
  rw [h2] at h2'
  cases h2'
  rw [h3] at h3'
  exact List.map_injective_iff.2 (fun a b hab => Char.toNat_inj.1 hab) h3'

theorem hexDigit_ascii (n : Nat) : 32 ≤ (hexDigit n).toNat ∧ (hexDigit n).toNat ≤ 126 := by
  unfold hexDigit
  have h : n % 16 < 16 := Nat.mod_lt _ (by decide)
  generalize n % 16 = m at h
  have : ∀ m : Fin 16, 32 ≤ ("0123456789abcdef".toList.getD m.1 '0').toNat ∧ ("0123456789abcdef".toList.getD m.1 '0').toNat ≤ 126 := by decide +kernel
  exact this ⟨m, h⟩

theorem unicode_ascii (n : Nat) : ∀ x ∈ unicode n, 32 ≤ x.toNat ∧ x.toNat ≤ 126 := by
  intro x hx
  simp only [unicode, List.mem_cons, List.not_mem_nil, or_false] at hx
  rcases hx with rfl | rfl | rfl | rfl | rfl | rfl
  · decide
  · decide
  all_goals exact hexDigit_ascii _

/-- Only printable ASCII is printed. -/
theorem dumped_ascii (k : List Char) : ∀ x ∈ dumpKey k, 32 ≤ x.toNat ∧ x.toNat ≤ 126 := by
  have key : ∀ c, ∀ x ∈ escape c, 32 ≤ x.toNat ∧ x.toNat ≤ 126 := by
    intro c x hx
    unfold escape at hx
    split_ifs at hx with h1 h2 h3 h4 h5 h6 h7 h8 h9
    on_goal 8 => simp only [List.mem_singleton] at hx; subst hx; exact h8
    on_goal 8 => exact unicode_ascii _ x hx
    on_goal 8 => rcases List.mem_append.1 hx with hx | hx <;> exact unicode_ascii _ x hx
    all_goals
      simp only [List.mem_cons, List.not_mem_nil, or_false] at hx
      rcases hx with rfl | rfl <;> decide
  intro x hx
  simp only [dumpKey, List.mem_cons, List.mem_append, List.mem_flatMap, List.not_mem_nil, or_false] at hx
  rcases hx with rfl | ⟨c, _, hc⟩ | rfl
  · decide
  · exact key c x hc
  · decide

theorem dumped_example : dumpKey ['é', ' ', '"', '😀'] = "\"\\u00e9 \\\"\\ud83d\\ude00\"".toList := by decide +kernel

/-- A key with an accent and a blank is printed with a backslash. -/
theorem escape_example : display (.key "é x") = "\"\\u00e9 x\"".toList ∧ display (.key "a \"b\"") = "\"a \\\"b\\\"\"".toList ∧
    display (.key "😀 x") = "\"\\ud83d\\ude00 x\"".toList := by decide +kernel

end Verif.Inspector.Dumped
