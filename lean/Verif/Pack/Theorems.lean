import Verif.Pack.Model
import Mathlib.Data.Int.ModEq
/-!
# unpack inverts pack (C22)
-/

namespace Verif.Pack
open Verif.Avro (Flt Val numVal)

/-! ## Specification -/

/-- Weight of the bytes of a number, the first byte being the least significant. -/
def weight (bs : List Nat) : Nat := (bs.zipIdx.map (fun p => p.1 * 256 ^ p.2)).sum

/-- `v` is a number of `w` bytes, signed or not. -/
def InRange (w : Nat) (unsigned : Bool) (v : Int) : Prop :=
  if unsigned then 0 ≤ v ∧ v < 256 ^ w else -(256 ^ w) ≤ 2 * v ∧ 2 * v < 256 ^ w

/-- The integer formats: width, byte order, signedness. -/
def intFormat : Decl → Option (Nat × Bool × Bool)
  | .byte u => some (1, false, u)
  | .short l u => some (2, l, u)
  | .int l u => some (4, l, u)
  | .long l u => some (8, l, u)
  | _ => none

/-- What a piece of bytes means in each format. -/
inductive Piece : Decl → Val → List Nat → Prop
  | pad (b : Nat) : Piece .pad .null [b]
  | true {b : Nat} : b ≠ 0 → Piece .boolean (.bool true) [b]
  | false : Piece .boolean (.bool false) [0]
  | int {d : Decl} {w : Nat} {l u : Bool} {v : Int} {bs : List Nat} : intFormat d = some (w, l, u) → bs.length = w →
      InRange w u v → (v ≡ weight (if l then bs else bs.reverse) [ZMOD 256 ^ w]) → Piece d (.int v) bs
  | float {l : Bool} {bs : List Nat} : bs.length = 4 → Piece (.float l) (.flt (dec32 l bs)) bs
  | double {l : Bool} {bs : List Nat} : bs.length = 8 → Piece (.double l) (.flt (dec64 l bs)) bs
  | raw {bs : List Nat} : Piece (.rawSize bs.length) (.bytes bs) bs
  | toNull {bs : List Nat} : 0 ∉ bs → Piece .toNull (.bytes bs) (bs ++ [0])
  | prefixed {bs : List Nat} : Piece .prefixed (.bytes bs) (bs.length :: bs)

/-- A sequence of bytes made of pieces. -/
inductive Pieces : List (String × Decl) → List (String × Val) → List Nat → Prop
  | nil : Pieces [] [] []
  | cons {s : String} {d : Decl} {v : Val} {bs rest : List Nat} {fs : List (String × Decl)} {vs : List (String × Val)} :
      Piece d v bs → Pieces fs vs rest → Pieces ((s, d) :: fs) ((s, v) :: vs) (bs ++ rest)

def Bytes (bs : List Nat) : Prop := ∀ b ∈ bs, b < 256

/-! ## Numbers -/

theorem leNat_eq_weight (bs : List Nat) : leNat bs = weight bs := by
  have h : ∀ (bs : List Nat) (k : Nat), ((bs.zipIdx k).map (fun p => p.1 * 256 ^ p.2)).sum = 256 ^ k * leNat bs := by
    intro bs
    induction bs with
    | nil => intro k; simp [leNat]
    | cons b bs ih =>
      intro k
      simp only [List.zipIdx_cons, List.map_cons, List.sum_cons, ih (k + 1), leNat, pow_succ]
      ring
  have := h bs 0
  simp only [pow_zero, one_mul] at this
  exact this.symm

theorem lowBytes_length (w n : Nat) : (lowBytes w n).length = w := by
  induction w generalizing n with
  | zero => rfl
  | succ w ih => simp [lowBytes, ih]

theorem lowBytes_bytes (w n : Nat) : Bytes (lowBytes w n) := by
  induction w generalizing n with
  | zero => intro b h; cases h
  | succ w ih =>
    intro b h
    rcases List.mem_cons.1 h with rfl | h
    · exact Nat.mod_lt _ (by decide)
    · exact ih _ b h

theorem leNat_lowBytes (w n : Nat) : leNat (lowBytes w n) = n % 256 ^ w := by
  induction w generalizing n with
  | zero => simp [lowBytes, leNat, Nat.mod_one]
  | succ w ih => rw [lowBytes, leNat, ih, pow_succ, mul_comm (256 ^ w), Nat.mod_mul]

theorem leNat_lt {bs : List Nat} (h : Bytes bs) : leNat bs < 256 ^ bs.length := by
  induction bs with
  | nil => simp [leNat]
  | cons b bs ih =>
    have h1 := ih (fun b hb => h b (by simp [hb]))
    have h2 := h b (by simp)
    simp only [leNat, List.length_cons, pow_succ]
    omega

theorem order_length (l : Bool) (bs : List Nat) : (order l bs).length = bs.length := by
  cases l <;> simp [order]

theorem order_bytes {l : Bool} {bs : List Nat} (h : Bytes bs) : Bytes (order l bs) := by
  cases l
  · intro b hb; exact h b (by simpa [order] using hb)
  · exact h

theorem order_order (l : Bool) (bs : List Nat) : order l (order l bs) = bs := by
  cases l <;> simp [order]

theorem pow8 (w : Nat) : (2 : Int) ^ (8 * w) = 256 ^ w := by rw [pow_mul]; norm_num

theorem half8 {w : Nat} (hw : 0 < w) : (2 : Int) * 2 ^ (8 * w - 1) = 256 ^ w := by
  rw [← pow8, ← pow_succ', Nat.sub_add_cancel (by omega)]

theorem half8n {w : Nat} (hw : 0 < w) : (2 : Nat) * 2 ^ (8 * w - 1) = 256 ^ w := by
  have := half8 hw
  exact_mod_cast this

/-- The number read is the only number in range with the weight of the bytes. -/
theorem unpackInt_spec {w : Nat} (hw : 0 < w) {l u : Bool} {bs : List Nat} (hb : Bytes bs) (hl : bs.length = w) :
    InRange w u (unpackInt w l u bs) ∧
    (unpackInt w l u bs ≡ weight (if l then bs else bs.reverse) [ZMOD 256 ^ w]) := by
  have hlt : leNat (order l bs) < 256 ^ w := by
    have := leNat_lt (order_bytes (l := l) hb)
    rwa [order_length, hl] at this
  have hi : ((leNat (order l bs) : Nat) : Int) < 256 ^ w := by exact_mod_cast hlt
  have hh := half8 hw
  have hhn := half8n hw
  rw [← leNat_eq_weight]
  change InRange w u _ ∧ (_ ≡ (leNat (order l bs) : Int) [ZMOD 256 ^ w])
  simp only [unpackInt]
  generalize leNat (order l bs) = n at *
  unfold InRange
  have hc : ((2 ^ (8 * w - 1) : Nat) : Int) = 2 ^ (8 * w - 1) := by push_cast; rfl
  cases u
  · simp only [Bool.false_eq_true, if_false, pow8]
    split
    · refine ⟨⟨by omega, by omega⟩, rfl⟩
    · refine ⟨⟨by omega, by omega⟩, ?_⟩
      exact (Int.modEq_iff_dvd.2 ⟨1, by ring⟩)
  · simp only [if_true]
    exact ⟨⟨by omega, hi⟩, rfl⟩

theorem range_unique {w : Nat} {u : Bool} {a b : Int} (ha : InRange w u a) (hb : InRange w u b)
    (h : a ≡ b [ZMOD 256 ^ w]) : a = b := by
  obtain ⟨k, hk⟩ := Int.modEq_iff_dvd.1 h
  have hp : (0 : Int) < 256 ^ w := by positivity
  unfold InRange at ha hb
  generalize (256 : Int) ^ w = M at *
  have h1 : -M < b - a ∧ b - a < M := by cases u <;> simp at ha hb <;> omega
  have hk0 : k = 0 := by
    rcases lt_trichotomy k 0 with h0 | h0 | h0
    · nlinarith
    · exact h0
    · nlinarith
  subst hk0
  omega

/-- Numbers in range are packed into bytes of their weight; other numbers are refused. -/
theorem packInt_spec {w : Nat} (hw : 0 < w) (l u : Bool) (v : Int) :
    (InRange w u v → ∃ bs, packInt w l u v = .ok bs ∧ bs.length = w ∧ Bytes bs ∧
      (v ≡ weight (if l then bs else bs.reverse) [ZMOD 256 ^ w])) ∧
    (¬ InRange w u v → packInt w l u v = .error structErr) := by
  have hh := half8 hw
  have hp : (0 : Int) < 256 ^ w := by positivity
  have key : ∀ n : Nat, (v ≡ (n : Int) [ZMOD 256 ^ w]) →
      (order l (lowBytes w n)).length = w ∧ Bytes (order l (lowBytes w n)) ∧
      (v ≡ weight (if l then order l (lowBytes w n) else (order l (lowBytes w n)).reverse) [ZMOD 256 ^ w]) := by
    intro n hn
    refine ⟨by rw [order_length, lowBytes_length], order_bytes (lowBytes_bytes _ _), ?_⟩
    rw [← leNat_eq_weight]
    change (v ≡ (leNat (order l (order l (lowBytes w n))) : Int) [ZMOD 256 ^ w])
    rw [order_order, leNat_lowBytes]
    push_cast
    exact hn.trans (Int.mod_modEq _ _).symm
  unfold packInt InRange
  cases u
  · simp only [Bool.false_eq_true, if_false]
    constructor
    · intro h
      rw [if_pos ⟨by omega, by omega⟩]
      refine ⟨_, rfl, key _ ?_⟩
      rw [Int.toNat_of_nonneg (Int.emod_nonneg _ (by rw [pow8]; exact hp.ne')), pow8]
      exact (Int.mod_modEq _ _).symm
    · intro h
      rw [if_neg (fun h' => h ⟨by omega, by omega⟩)]
  · simp only [if_true, pow8]
    constructor
    · intro h
      rw [if_pos h]
      refine ⟨_, rfl, key _ ?_⟩
      rw [Int.toNat_of_nonneg h.1]
    · intro h
      rw [if_neg h]

/-! ## Unpacking -/

theorem take_eq_len {bs : List Nat} {n : Nat} : (bs.take n).length ≠ n ↔ bs.length < n := by
  rw [List.length_take]; omega

theorem idxOf?_spec {bs : List Nat} {i : Nat} (h : bs.idxOf? 0 = some i) :
    bs = bs.take i ++ 0 :: bs.drop (i + 1) ∧ 0 ∉ bs.take i := by
  induction bs generalizing i with
  | nil => cases h
  | cons b bs ih =>
    rw [List.idxOf?_cons] at h
    by_cases hb : b = 0
    · simp [hb] at h
      subst h; subst hb
      simp
    · simp [hb] at h
      obtain ⟨j, hj, rfl⟩ := h
      obtain ⟨h1, h2⟩ := ih hj
      refine ⟨?_, ?_⟩
      · simpa using h1
      · simp only [List.take_succ_cons, List.mem_cons, not_or]
        exact ⟨fun h => hb h.symm, h2⟩

theorem idxOf?_append {bs rest : List Nat} (h : 0 ∉ bs) : (bs ++ 0 :: rest).idxOf? 0 = some bs.length := by
  induction bs with
  | nil => simp [List.idxOf?_cons]
  | cons b bs ih =>
    simp only [List.mem_cons, not_or] at h
    rw [List.cons_append, List.idxOf?_cons]
    simp [ih h.2, Ne.symm h.1]

theorem piece_fixed {d : Decl} {n : Nat} (hd : d.size? = some n) {bs : List Nat} (hb : Bytes bs) (hl : bs.length = n) :
    Piece d (fixedVal d bs) bs := by
  cases d <;> cases hd
  · obtain ⟨b, rfl⟩ := List.length_eq_one_iff.1 hl; exact .pad b
  · obtain ⟨b, rfl⟩ := List.length_eq_one_iff.1 hl
    by_cases h : b = 0
    · subst h; exact .false
    · have : fixedVal .boolean [b] = .bool true := by simp [fixedVal, h]
      rw [this]; exact .true h
  · obtain ⟨h1, h2⟩ := unpackInt_spec (w := 1) (by omega) (l := Bool.false) (u := by assumption) hb hl
    exact .int rfl hl h1 h2
  · obtain ⟨h1, h2⟩ := unpackInt_spec (w := 2) (by omega) hb hl
    exact .int rfl hl h1 h2
  · obtain ⟨h1, h2⟩ := unpackInt_spec (w := 4) (by omega) hb hl
    exact .int rfl hl h1 h2
  · obtain ⟨h1, h2⟩ := unpackInt_spec (w := 8) (by omega) hb hl
    exact .int rfl hl h1 h2
  · exact .float hl
  · exact .double hl
  · subst hl; exact .raw

theorem piece_fixed_eq {d : Decl} {v : Val} {bs : List Nat} (h : Piece d v bs) (hb : Bytes bs) :
    ∀ n, d.size? = some n → bs.length = n ∧ fixedVal d bs = v := by
  intro n hd
  cases h with
  | pad b => cases hd; exact ⟨rfl, rfl⟩
  | true hne => cases hd; exact ⟨rfl, by simp [fixedVal, hne]⟩
  | false => cases hd; exact ⟨rfl, by simp [fixedVal]⟩
  | int h1 h2 h3 h4 =>
    have val : ∀ {w : Nat} {l u : Bool} {v : Int}, 0 < w → bs.length = w → InRange w u v →
        (v ≡ weight (if l then bs else bs.reverse) [ZMOD 256 ^ w]) → unpackInt w l u bs = v := by
      intro w l u v hw hl hr hc
      obtain ⟨g1, g2⟩ := unpackInt_spec hw (l := l) (u := u) hb hl
      exact range_unique g1 hr (g2.trans hc.symm)
    cases d <;> cases h1 <;> cases hd
    · exact ⟨h2, congrArg Val.int (val (by omega) h2 h3 h4)⟩
    · exact ⟨h2, congrArg Val.int (val (by omega) h2 h3 h4)⟩
    · exact ⟨h2, congrArg Val.int (val (by omega) h2 h3 h4)⟩
    · exact ⟨h2, congrArg Val.int (val (by omega) h2 h3 h4)⟩
  | float h => cases hd; exact ⟨h, rfl⟩
  | double h => cases hd; exact ⟨h, rfl⟩
  | raw => cases hd; exact ⟨rfl, rfl⟩
  | toNull => cases hd
  | prefixed => cases hd

/-- One format: the bytes begin with a piece of that format. -/
theorem unpackOne_iff {d : Decl} {bs : List Nat} (hb : Bytes bs) {v : Val} {rest : List Nat} :
    unpackOne d bs = some (v, rest) ↔ ∃ part, bs = part ++ rest ∧ Piece d v part := by
  by_cases hs : ∃ n, d.size? = some n
  · obtain ⟨n, hn⟩ := hs
    have hu : unpackOne d bs = if (bs.take n).length ≠ n then none else some (fixedVal d (bs.take n), bs.drop n) := by
      cases d <;> cases hn <;> rfl
    rw [hu]
    constructor
    · intro h
      split at h
      · cases h
      · rename_i hl
        simp only [ne_eq, not_not] at hl
        cases h
        exact ⟨bs.take n, (List.take_append_drop n bs).symm,
          piece_fixed hn (fun b hm => hb b (List.mem_of_mem_take hm)) hl⟩
    · rintro ⟨part, rfl, hp⟩
      obtain ⟨h1, h2⟩ := piece_fixed_eq hp (fun b hm => hb b (by simp [hm])) n hn
      subst h1
      simp [h2]
  · cases d <;> first | exact absurd ⟨_, rfl⟩ hs | skip
    · constructor
      · intro h; cases h
      · rintro ⟨part, _, hp⟩; cases hp with | int h => cases h
    · simp only [unpackOne]
      constructor
      · intro h
        cases hi : bs.idxOf? 0 with
        | none => rw [hi] at h; cases h
        | some i =>
          rw [hi] at h
          cases h
          obtain ⟨h1, h2⟩ := idxOf?_spec hi
          exact ⟨bs.take i ++ [0], by simpa using h1, .toNull h2⟩
      · rintro ⟨part, rfl, hp⟩
        cases hp with
        | int h => cases h
        | toNull h =>
          simp only [List.append_assoc, List.singleton_append, idxOf?_append h]
          simp [List.drop_append]
    · simp only [unpackOne]
      constructor
      · intro h
        cases bs with
        | nil => cases h
        | cons n bs =>
          simp only at h
          split at h
          · cases h
          · rename_i hl
            simp only [ne_eq, not_not] at hl
            cases h
            refine ⟨n :: bs.take n, by simp, ?_⟩
            have := Piece.prefixed (bs := bs.take n)
            rwa [hl] at this
      · rintro ⟨part, rfl, hp⟩
        cases hp with
        | int h => cases h
        | prefixed => simp

/-- C22: the then branch is taken exactly when the bytes are a sequence of pieces of the given formats
with nothing left over, and the variables are bound to the values of the pieces. -/
theorem unpack_iff {fs : List (String × Decl)} {bs : List Nat} (hb : Bytes bs) {vs : List (String × Val)} :
    unpack fs bs = some vs ↔ Pieces fs vs bs := by
  induction fs generalizing bs vs with
  | nil =>
    simp only [unpack]
    constructor
    · intro h
      split at h
      · cases h
      · rename_i hl
        simp only [ne_eq, not_not, List.length_eq_zero_iff] at hl
        cases h; subst hl; exact .nil
    · intro h; cases h; rfl
  | cons f fs ih =>
    obtain ⟨s, d⟩ := f
    simp only [unpack]
    constructor
    · intro h
      cases hu : unpackOne d bs with
      | none => rw [hu] at h; cases h
      | some p =>
        obtain ⟨v, rest⟩ := p
        rw [hu] at h
        simp only [Option.map_eq_some_iff] at h
        obtain ⟨vs', h1, rfl⟩ := h
        obtain ⟨part, rfl, hp⟩ := (unpackOne_iff hb).1 hu
        exact .cons hp ((ih (fun b hm => hb b (by simp [hm]))).1 h1)
    · intro h
      cases h with
      | cons hp hr =>
        rw [(unpackOne_iff hb).2 ⟨_, rfl, hp⟩]
        simp only [(ih (fun b hm => hb b (by simp [hm]))).2 hr, Option.map_some]

/-- C22: the branch taken by `unpackElse`. -/
theorem unpackElse_spec {α : Type} {fs : List (String × Decl)} {bs : List Nat} (hb : Bytes bs)
    (thenC : List (String × Val) → α) (elseC : α) :
    (∀ vs, Pieces fs vs bs → unpackElse fs bs thenC elseC = thenC vs) ∧
    ((¬ ∃ vs, Pieces fs vs bs) → unpackElse fs bs thenC elseC = elseC) := by
  constructor
  · intro vs h
    simp only [unpackElse, (unpack_iff hb).2 h]
  · intro h
    cases hu : unpack fs bs with
    | none => simp only [unpackElse, hu]
    | some vs => exact absurd ⟨vs, (unpack_iff hb).1 hu⟩ h

/-- C22: formats of fixed size match exactly the byte strings of the total length. -/
theorem unpack_length {fs : List (String × Decl)} {sizes : List Nat} (hs : fs.map (fun f => f.2.size?) = sizes.map some)
    {bs : List Nat} (hb : Bytes bs) : (∃ vs, unpack fs bs = some vs) ↔ bs.length = sizes.sum := by
  induction fs generalizing sizes bs with
  | nil =>
    cases sizes with
    | cons => cases hs
    | nil =>
      simp only [unpack, List.sum_nil]
      by_cases h : bs.length = 0 <;> simp [h]
  | cons f fs ih =>
    obtain ⟨s, d⟩ := f
    cases sizes with
    | nil => cases hs
    | cons n sizes =>
      simp only [List.map_cons, List.cons.injEq] at hs
      have hu : unpackOne d bs = if (bs.take n).length ≠ n then none else some (fixedVal d (bs.take n), bs.drop n) := by
        cases d <;> cases hs.1 <;> rfl
      simp only [unpack, hu, List.sum_cons]
      by_cases h : (bs.take n).length ≠ n
      · rw [if_pos h]
        rw [take_eq_len] at h
        constructor
        · rintro ⟨_, h⟩; cases h
        · intro; omega
      · rw [if_neg h]
        rw [take_eq_len] at h
        have := ih hs.2 (bs := bs.drop n) (fun b hm => hb b (List.mem_of_mem_drop hm))
        rw [List.length_drop] at this
        constructor
        · rintro ⟨vs, hv⟩
          simp only [Option.map_eq_some_iff] at hv
          obtain ⟨vs', h1, _⟩ := hv
          have := this.1 ⟨vs', h1⟩
          omega
        · intro hl
          obtain ⟨vs, hv⟩ := this.2 (by omega)
          exact ⟨_, (by simp only [hv, Option.map_some]; rfl)⟩

/-! ## Packing -/

/-- `struct.pack` writes a pattern that means the number, whenever some pattern does. -/
structure FloatBits.Sound (F : FloatBits) : Prop where
  f32 : ∀ bs, Bytes bs → bs.length = 4 → ∃ cs, F.enc32 (dec32 true bs) = .ok cs ∧ Bytes cs ∧ cs.length = 4 ∧
    dec32 true cs = dec32 true bs
  f64 : ∀ bs, Bytes bs → bs.length = 8 → ∃ cs, F.enc64 (dec64 true bs) = .ok cs ∧ Bytes cs ∧ cs.length = 8 ∧
    dec64 true cs = dec64 true bs

open Classical in
/-- Such an encoding exists. -/
theorem FloatBits.exists_sound : ∃ F : FloatBits, F.Sound := by
  refine ⟨⟨fun x => if h : ∃ cs, Bytes cs ∧ cs.length = 4 ∧ dec32 true cs = x then .ok h.choose else .error structErr,
    fun x => if h : ∃ cs, Bytes cs ∧ cs.length = 8 ∧ dec64 true cs = x then .ok h.choose else .error structErr⟩, ?_, ?_⟩
  · intro bs h1 h2
    have h : ∃ cs, Bytes cs ∧ cs.length = 4 ∧ dec32 true cs = dec32 true bs := ⟨bs, h1, h2, rfl⟩
    exact ⟨h.choose, by simp only [dif_pos h], h.choose_spec⟩
  · intro bs h1 h2
    have h : ∃ cs, Bytes cs ∧ cs.length = 8 ∧ dec64 true cs = dec64 true bs := ⟨bs, h1, h2, rfl⟩
    exact ⟨h.choose, by simp only [dif_pos h], h.choose_spec⟩

/-- The bytes of a `bytes` value: a bytes object, or text with code points below 256. -/
inductive HasBytes : Val → List Nat → Prop
  | bytes {b : List Nat} : Bytes b → HasBytes (.bytes b) b
  | text {s : String} : Bytes (s.toList.map Char.toNat) → HasBytes (.str s) (s.toList.map Char.toNat)

/-- `v` is a value that format `d` can hold, and `u` the same value as it is read back: bytes become a
bytes object, an integral double in an unsigned long becomes an int. -/
inductive Fits : Decl → Val → Val → Prop
  | pad : Fits .pad .null .null
  | bool (b : Bool) : Fits .boolean (.bool b) (.bool b)
  | int {d : Decl} {w : Nat} {l u : Bool} {v : Int} : intFormat d = some (w, l, u) → InRange w u v → Fits d (.int v) (.int v)
  | dlong {l u : Bool} {v : Int} : InRange 8 u v → Fits (.long l u) (.flt (.fin v)) (.int v)
  | float {l : Bool} {v : Val} {bs : List Nat} : Bytes bs → bs.length = 4 → asFlt v = .ok (dec32 true bs) →
      Fits (.float l) v (.flt (dec32 true bs))
  | double {l : Bool} {v : Val} {bs : List Nat} : Bytes bs → bs.length = 8 → asFlt v = .ok (dec64 true bs) →
      Fits (.double l) v (.flt (dec64 true bs))
  | raw {v : Val} {b : List Nat} : HasBytes v b → Fits (.rawSize b.length) v (.bytes b)
  | toNull {v : Val} {b : List Nat} : HasBytes v b → 0 ∉ b → Fits .toNull v (.bytes b)
  | prefixed {v : Val} {b : List Nat} : HasBytes v b → b.length ≤ 255 → Fits .prefixed v (.bytes b)

theorem rawOf_hasBytes {v : Val} {b : List Nat} (h : HasBytes v b) : rawOf v = .ok b ∧ lenOf v = .ok b.length ∧ Bytes b := by
  cases h with
  | bytes h => exact ⟨rfl, rfl, h⟩
  | text h =>
    refine ⟨?_, by simp [lenOf], h⟩
    simp only [rawOf]
    rw [if_pos]
    rw [List.all_eq_true]
    intro c hc
    simpa using h c.toNat (List.mem_map_of_mem hc)

theorem trunc_int (v : Int) : Arith.trunc (v : Rat) = v := by
  unfold Arith.trunc; split <;> simp

/-- Packing a value that fits writes a piece of the format. -/
theorem packOne_piece {F : FloatBits} (hF : F.Sound) {d : Decl} {v u : Val} (h : Fits d v u) :
    ∃ bs, packOne F d v = .ok bs ∧ Bytes bs ∧ Piece d u bs := by
  cases h with
  | pad => exact ⟨[0], rfl, by intro b hb; simp at hb; omega, .pad 0⟩
  | bool b =>
    cases b
    · exact ⟨[0], rfl, by intro b hb; simp at hb; omega, .false⟩
    · exact ⟨[1], rfl, by intro b hb; simp at hb; omega, .true (by decide)⟩
  | int hd hr =>
    cases d <;> cases hd
    all_goals
      obtain ⟨bs, h1, h2, h3, h4⟩ := (packInt_spec (by omega) _ _ _).1 hr
      exact ⟨bs, h1, h3, .int rfl h2 hr h4⟩
  | dlong hr =>
    obtain ⟨bs, h1, h2, h3, h4⟩ := (packInt_spec (by omega) _ _ _).1 hr
    refine ⟨bs, ?_, h3, .int rfl h2 hr h4⟩
    simp only [packOne, toInt, trunc_int]
    exact h1
  | @float l v bs h1 h2 h3 =>
    obtain ⟨cs, g1, g2, g3, g4⟩ := hF.f32 bs h1 h2
    refine ⟨order l cs, ?_, order_bytes g2, ?_⟩
    · simp only [packOne, h3, bind, Except.bind, g1]
    · rw [← g4]
      have : dec32 true cs = dec32 l (order l cs) := by simp only [dec32, order_order]; rfl
      rw [this]
      exact .float (by rw [order_length, g3])
  | @double l v bs h1 h2 h3 =>
    obtain ⟨cs, g1, g2, g3, g4⟩ := hF.f64 bs h1 h2
    refine ⟨order l cs, ?_, order_bytes g2, ?_⟩
    · simp only [packOne, h3, bind, Except.bind, g1]
    · rw [← g4]
      have : dec64 true cs = dec64 l (order l cs) := by simp only [dec64, order_order]; rfl
      rw [this]
      exact .double (by rw [order_length, g3])
  | raw hb =>
    obtain ⟨h1, h2, h3⟩ := rawOf_hasBytes hb
    refine ⟨_, ?_, h3, .raw⟩
    simp only [packOne, h2, bind, Except.bind, h1]
    simp
  | toNull hb h0 =>
    obtain ⟨h1, h2, h3⟩ := rawOf_hasBytes hb
    refine ⟨_, ?_, ?_, .toNull h0⟩
    · simp only [packOne, bind, Except.bind, h1]
    · intro b hm
      rcases List.mem_append.1 hm with hm | hm
      · exact h3 b hm
      · simp at hm; omega
  | @prefixed v b hb hl =>
    obtain ⟨h1, h2, h3⟩ := rawOf_hasBytes hb
    refine ⟨_, ?_, ?_, .prefixed⟩
    · simp only [packOne, h2, bind, Except.bind, h1]
      rw [if_neg (by omega)]
    · intro c hm
      rcases List.mem_cons.1 hm with rfl | hm
      · omega
      · exact h3 c hm

/-- C22: unpacking with the same formats what was packed takes the then branch and gives the values
back, provided null-terminated values contain no NUL byte.  The full claim has no such condition: see
`unpack_nul_violation`. -/
theorem unpack_pack_partial {F : FloatBits} (hF : F.Sound) {xs : List (String × Decl × Val × Val)}
    (h : ∀ x ∈ xs, Fits x.2.1 x.2.2.1 x.2.2.2) :
    ∃ bs, pack F (xs.map (fun x => (x.2.1, x.2.2.1))) = .ok bs ∧ Bytes bs ∧
      unpack (xs.map (fun x => (x.1, x.2.1))) bs = some (xs.map (fun x => (x.1, x.2.2.2))) := by
  suffices hs : ∃ bs, pack F (xs.map (fun x => (x.2.1, x.2.2.1))) = .ok bs ∧ Bytes bs ∧
      Pieces (xs.map (fun x => (x.1, x.2.1))) (xs.map (fun x => (x.1, x.2.2.2))) bs by
    obtain ⟨bs, h1, h2, h3⟩ := hs
    exact ⟨bs, h1, h2, (unpack_iff h2).2 h3⟩
  induction xs with
  | nil => exact ⟨[], rfl, (by intro b hb; cases hb), .nil⟩
  | cons x xs ih =>
    obtain ⟨bs, h1, h2, h3⟩ := ih (fun y hy => h y (by simp [hy]))
    obtain ⟨cs, g1, g2, g3⟩ := packOne_piece hF (h x (by simp))
    refine ⟨cs ++ bs, ?_, ?_, .cons g3 h3⟩
    · simp only [List.map_cons, pack, g1, h1, bind, Except.bind]
    · intro b hb
      rcases List.mem_append.1 hb with hb | hb
      · exact g2 b hb
      · exact h2 b hb

/-- C22: what `pack` refuses: integers out of range, raw data of the wrong size, prefixed data longer
than 255 bytes, text with characters above 255. -/
theorem pack_refuses (F : FloatBits) :
    (∀ d w l u v, intFormat d = some (w, l, u) → ¬ InRange w u v → packOne F d (.int v) = .error structErr) ∧
    (∀ n v b, HasBytes v b → b.length ≠ n → packOne F (.rawSize n) v = .error (.rt 3000)) ∧
    (∀ v b, HasBytes v b → b.length > 255 → packOne F .prefixed v = .error (.rt 3001)) ∧
    (∀ s : String, ¬ Bytes (s.toList.map Char.toNat) → packOne F .toNull (.str s) = .error (.py "ValueError") ∧
      packOne F .raw (.str s) = .error (.py "ValueError")) ∧
    (∀ d v rest e, packOne F d v = .error e → pack F ((d, v) :: rest) = .error e) := by
  refine ⟨?_, ?_, ?_, ?_, ?_⟩
  · intro d w l u v hd hr
    cases d <;> cases hd
    all_goals exact (packInt_spec (by omega) _ _ _).2 hr
  · intro n v b hb hn
    obtain ⟨h1, h2, h3⟩ := rawOf_hasBytes hb
    simp [packOne, h2, bind, Except.bind, hn]
  · intro v b hb hn
    obtain ⟨h1, h2, h3⟩ := rawOf_hasBytes hb
    simp only [packOne, h2, bind, Except.bind]
    rw [if_pos hn]
  · intro s hs
    have : rawOf (.str s) = .error (.py "ValueError") := by
      simp only [rawOf]
      rw [if_neg]
      intro h
      rw [List.all_eq_true] at h
      apply hs
      intro b hb
      obtain ⟨c, hc, rfl⟩ := List.mem_map.1 hb
      simpa using h c hc
    exact ⟨by simp [packOne, this, bind, Except.bind], this⟩
  · intro d v rest e h
    simp [pack, h, bind, Except.bind]

/-! ## Where it fails -/

/-- Null-terminated data with a NUL byte inside is packed without complaint and read back as other
data, or not at all. -/
theorem unpack_nul_violation (F : FloatBits) :
    pack F [(.toNull, .bytes [1, 0, 2]), (.rawSize 1, .bytes [3])] = .ok [1, 0, 2, 0, 3] ∧
    unpack [("a", .toNull), ("b", .rawSize 1)] [1, 0, 2, 0, 3] = none ∧
    pack F [(.toNull, .bytes [1, 0]), (.toNull, .bytes [])] = .ok [1, 0, 0, 0] ∧
    pack F [(.toNull, .bytes [1]), (.toNull, .bytes []), (.rawSize 1, .bytes [0])] = .ok [1, 0, 0, 0] :=
  ⟨rfl, by decide +kernel, rfl, rfl⟩

/-- A bytes literal is text at run time; unpacking it raises TypeError whenever it is long enough. -/
theorem unpack_text_violation {d : Decl} {n : Nat} (hd : d.size? = some n) (hr : ∀ k, d ≠ .rawSize k) {s : List Char}
    (hs : n ≤ s.length) : unpackOneText d s = .error (.py "TypeError") := by
  have hl : ¬ (s.take n).length ≠ n := by rw [List.length_take]; omega
  cases d <;> cases hd
  case rawSize => exact absurd rfl (hr n)
  all_goals simp only [unpackOneText, Decl.size?, if_neg hl]

/-! ## A concrete case -/

example : Fits (.short true false) (.int (-2)) (.int (-2)) := .int rfl (by simp [InRange])
example : Fits .prefixed (.str "hé") (.bytes [104, 233]) :=
  .prefixed (.text (s := "hé") (by intro b hb; simp at hb; omega)) (by decide)
example (F : FloatBits) : pack F [(.short true false, .int (-2)), (.prefixed, .str "hé"), (.long false true, .flt (.fin 258)),
    (.boolean, .bool true)] = .ok [254, 255, 2, 104, 233, 0, 0, 0, 0, 0, 0, 1, 2, 1] := by rfl
example : unpack [("a", .short true false), ("b", .prefixed), ("c", .long false true), ("d", .boolean)]
    [254, 255, 2, 104, 233, 0, 0, 0, 0, 0, 0, 1, 2, 1] =
    some [("a", .int (-2)), ("b", .bytes [104, 233]), ("c", .int 258), ("d", .bool true)] := by decide +kernel
/-- 1.5 in single and double precision. -/
example : dec32 false [0x3f, 0xc0, 0, 0] = .fin (3 / 2) ∧ dec64 true [0, 0, 0, 0, 0, 0, 0xf8, 0x3f] = .fin (3 / 2) := by
  decide +kernel

/-- What `long` packs: integers, booleans as 0 and 1, floating point numbers cut towards zero, and nothing else. -/
theorem toInt_spec (v : Val) (i : Int) :
    toInt v = .ok i ↔ v = .int i ∨ (v = .bool true ∧ i = 1) ∨ (v = .bool false ∧ i = 0) ∨ ∃ q, v = .flt (.fin q) ∧ i = Arith.trunc q := by
  cases v with
  | int j => simp [toInt]
  | bool b => cases b <;> simp [toInt, eq_comm]
  | flt x => cases x <;> simp [toInt, eq_comm]
  | _ => simp [toInt]

end Verif.Pack
