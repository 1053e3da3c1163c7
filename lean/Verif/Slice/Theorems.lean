import Verif.Slice.Model
/-! # C01 (slices) and C03 (bytes and strings): specification and theorems -/

namespace Verif.Slice

/-! ## Specification -/

/-- The boundary an index names in a sequence of length `n`: a negative index counts from the
end, and positions outside the sequence are moved to its nearest end. -/
def boundary (n : Nat) (k : Int) : Nat :=
  if k < 0 then (n - k.natAbs) else min n k.natAbs

/-- The block `[i, j)` selected by `start`, `end`. -/
structure Block (n : Nat) (start end_ : Int) (i j : Nat) : Prop where
  lo : i = boundary n start
  hi : j = max i (boundary n end_)
  le : i ≤ j
  inside : j ≤ n

/-! ## Lemmas -/

theorem adjust_eq (n : Nat) (k : Int) : adjust n k = (boundary n k : Int) := by
  unfold adjust boundary; split <;> split <;> omega

theorem norm_eq (n : Nat) (k : Int) :
    (let a := if k ≥ 0 then k else n + k
     let a := if a < 0 then 0 else a
     if a > n then (n : Int) else a) = (boundary n k : Int) := by
  unfold boundary; simp only; (repeat' split) <;> omega

theorem startEnd_eq (n : Nat) (s e : Int) :
    startEnd n s e = ((boundary n s : Int), ((max (boundary n s) (boundary n e) : Nat) : Int)) := by
  have hs := norm_eq n s
  have he := norm_eq n e
  simp only at hs he
  simp only [startEnd, hs, he, Prod.mk.injEq, true_and]
  split <;> omega

theorem block_exists (n : Nat) (s e : Int) :
    Block n s e (boundary n s) (max (boundary n s) (boundary n e)) := by
  refine ⟨rfl, rfl, by omega, ?_⟩
  unfold boundary; split <;> split <;> omega

theorem adjust_nat {n k : Nat} (h : k ≤ n) : adjust n k = k := by
  unfold adjust; split <;> (try split) <;> omega

/-! ## Theorems -/

/-- C01: `subseq` is exactly the block selected by its bounds. -/
theorem subseq_is_block {α : Type _} (a : List α) (start end_ : Int) {i j : Nat}
    (h : Block a.length start end_ i j) : subseq a start end_ = (a.take j).drop i := by
  obtain ⟨hi, hj, hle, hin⟩ := h
  unfold subseq pySlice
  simp only [adjust_eq, ← hi]
  rw [List.drop_take]
  congr 1
  omega

/-- C01: `subseqto` replaces exactly that block and keeps what is before and after it. -/
theorem subseqto_replaces_block {α : Type _} (a r : List α) (start end_ : Int) {i j : Nat}
    (h : Block a.length start end_ i j) :
    subseqto a start end_ r = a.take i ++ r ++ a.drop j := by
  obtain ⟨hi, hj, hle, hin⟩ := h
  unfold subseqto pySliceTo pySliceFrom
  simp only [startEnd_eq, ← hi, ← hj]
  rw [adjust_nat (by omega), adjust_nat (by omega)]
  simp

/-- C01: every pair of bounds selects exactly one block, inside the sequence. -/
theorem block_unique (n : Nat) (start end_ : Int) :
    ∃ i j, Block n start end_ i j ∧ ∀ i' j', Block n start end_ i' j' → i' = i ∧ j' = j := by
  refine ⟨_, _, block_exists n start end_, ?_⟩
  rintro i' j' ⟨h1, h2, -, -⟩
  subst h1; subst h2; exact ⟨rfl, rfl⟩

/-- C01: replacing a slice by itself gives the sequence back. -/
theorem subseqto_subseq {α : Type _} (a : List α) (start end_ : Int) :
    subseqto a start end_ (subseq a start end_) = a := by
  have h := block_exists a.length start end_
  rw [subseqto_replaces_block a _ start end_ h, subseq_is_block a start end_ h]
  obtain ⟨-, -, hle, hin⟩ := h
  generalize boundary a.length start = i at *
  generalize max i (boundary a.length end_) = j at *
  rw [List.drop_take]
  have : a.take i ++ (a.drop i).take (j - i) = a.take j := by
    rw [← List.take_add]; congr 1; omega
  rw [this, List.take_append_drop]

/-- C01: after a replacement, reading the place where it went gives the replacement. -/
theorem subseq_subseqto {α : Type _} (a r : List α) (start end_ : Int) {i j : Nat}
    (h : Block a.length start end_ i j) :
    subseq (subseqto a start end_ r) i (i + r.length : Nat) = r := by
  have hlen : (subseqto a start end_ r).length = i + r.length + (a.length - j) := by
    rw [subseqto_replaces_block a r start end_ h]
    obtain ⟨-, -, hle, hin⟩ := h
    simp; omega
  have hb : Block (subseqto a start end_ r).length (i : Int) ((i + r.length : Nat) : Int)
      i (i + r.length) := by
    rw [hlen]; constructor <;> (try unfold boundary) <;> (try split) <;> omega
  rw [subseq_is_block _ _ _ hb, subseqto_replaces_block a r start end_ h]
  obtain ⟨-, -, hle, hin⟩ := h
  have hi : (a.take i).length = i := by simp; omega
  rw [List.append_assoc, List.take_append, List.drop_append]
  simp [hi]

/-- Non-vacuity of `Block`: `[1,2,3,4,5][-4:-1]` selects `[1,4)`. -/
example : Block ([1, 2, 3, 4, 5] : List Nat).length (-4) (-1) 1 4 := by
  constructor <;> decide
/-- A reversed range selects an empty block. -/
example : Block ([1, 2, 3] : List Nat).length 2 1 2 2 := by constructor <;> decide

/-- A list of bytes. -/
def IsBytes (x : List Nat) : Prop := ∀ b ∈ x, b < 256

/-- C03: printing bytes as a string and reading them back is the identity. -/
theorem stringToBytes_bytesToString (x : List Nat) (h : IsBytes x) :
    (bytesToString x >>= stringToBytes) = .ok x := by
  have h1 : (x.all fun b => decide (b < 0x110000)) = true := by
    rw [List.all_eq_true]; intro b hb; have := h b hb; simp; omega
  have h2 : (x.all fun b => decide (b < 256)) = true := by
    rw [List.all_eq_true]; intro b hb; have := h b hb; simpa using this
  simp only [bytesToString, h1, if_true, stringToBytes, h2, bind, Except.bind]

/-- C03: `stringToBytes` succeeds exactly on strings of characters below 256. -/
theorem stringToBytes_ok_iff (s : List Nat) :
    (∃ b, stringToBytes s = .ok b) ↔ ∀ c ∈ s, c < 256 := by
  unfold stringToBytes
  constructor
  · rintro ⟨b, h⟩
    split at h
    · next h' => rw [List.all_eq_true] at h'; intro c hc; simpa using h' c hc
    · cases h
  · intro h
    rw [if_pos]
    · exact ⟨_, rfl⟩
    · rw [List.all_eq_true]; intro c hc; simpa using h c hc

/-- C03: reading a string as bytes and printing it is the identity where it succeeds, and the
failure is a TypeError. -/
theorem bytesToString_stringToBytes (s b : List Nat) (h : stringToBytes s = .ok b) :
    IsBytes b ∧ bytesToString b = .ok s := by
  have hs := (stringToBytes_ok_iff s).1 ⟨b, h⟩
  unfold stringToBytes at h
  split at h
  · cases h
    refine ⟨hs, ?_⟩
    unfold bytesToString
    rw [if_pos]
    rw [List.all_eq_true]; intro c hc; have := hs c hc; simp; omega
  · cases h

theorem stringToBytes_error (s : List Nat) (h : ∃ c ∈ s, 256 ≤ c) :
    stringToBytes s = .error (.py "TypeError") := by
  unfold stringToBytes
  rw [if_neg]
  rw [List.all_eq_true]
  obtain ⟨c, hc, hc'⟩ := h
  intro hh; have := hh c hc; simp at this; omega

example : stringToBytes [104, 255] = .ok [104, 255] := by decide
example : stringToBytes [104, 256] = .error (.py "TypeError") := by decide

/-- The bytes a PFA bytes value stands for. -/
def PBytes.val : PBytes → List Nat
  | .str s => s
  | .bytes b => b

theorem bytesToString_ok {x : List Nat} (h : IsBytes x) : bytesToString x = .ok x := by
  unfold bytesToString
  rw [if_pos]
  rw [List.all_eq_true]; intro c hc; have := h c hc; simp; omega

theorem toRaw_ok {x : PBytes} (h : IsBytes x.val) : toRaw x = .ok x.val := by
  cases x with
  | bytes b => rfl
  | str s =>
    simp only [toRaw, stringToBytes, PBytes.val] at *
    rw [if_pos]
    rw [List.all_eq_true]; intro c hc; simpa using h c hc

theorem IsBytes.sub {x y : List Nat} (h : IsBytes x) (hs : ∀ b ∈ y, b ∈ x) : IsBytes y :=
  fun b hb => h b (hs b hb)

/-- C01: `bytes.subseq` never raises and selects the block, whether the value is held as
`str` or `bytes`. -/
theorem bytesSubseq_is_block (x : PBytes) (hx : IsBytes x.val) (start end_ : Int) {i j : Nat}
    (h : Block x.val.length start end_ i j) :
    bytesSubseq x start end_ = .ok ((x.val.take j).drop i) := by
  cases x with
  | str s => simpa [bytesSubseq, subseq, PBytes.val] using subseq_is_block s start end_ h
  | bytes b =>
    have hb := subseq_is_block b start end_ h
    simp only [subseq] at hb
    simp only [bytesSubseq, hb, PBytes.val]
    exact bytesToString_ok (hx.sub fun c hc => List.mem_of_mem_take (List.mem_of_mem_drop hc))

/-- C01: `bytes.subseqto` never raises and replaces exactly the block. -/
theorem bytesSubseqto_replaces_block (x r : PBytes) (hx : IsBytes x.val) (hr : IsBytes r.val)
    (start end_ : Int) {i j : Nat} (h : Block x.val.length start end_ i j) :
    bytesSubseqto x start end_ r = .ok (x.val.take i ++ r.val ++ x.val.drop j) := by
  have hb := subseqto_replaces_block x.val r.val start end_ h
  simp only [subseqto] at hb
  simp only [bytesSubseqto, toRaw_ok hx, toRaw_ok hr, bind, Except.bind, hb]
  apply bytesToString_ok
  intro c hc
  simp only [List.mem_append] at hc
  rcases hc with (hc | hc) | hc
  · exact hx c (List.mem_of_mem_take hc)
  · exact hr c hc
  · exact hx c (List.mem_of_mem_drop hc)

example : bytesSubseqto (.str [1, 2, 3, 4]) (-3) (-1) (.bytes [9]) = .ok [1, 9, 4] := by decide

/-- `negativeIndex` of an index in `[-n, n)` is the position counted from the right end. -/
theorem negativeIndex_spec (n : Nat) (k : Int) (h1 : -(n : Int) ≤ k) (h2 : k < n) :
    0 ≤ negativeIndex n k ∧ negativeIndex n k < n ∧
      (negativeIndex n k = k ∨ negativeIndex n k = n + k) := by
  unfold negativeIndex; split <;> omega

end Verif.Slice
