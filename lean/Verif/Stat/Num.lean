import Verif.Arith.Double
/-! # Numbers of the statistics library

Python floats as rationals with the three special values.  Every operation is parametric in what
happens to a finite result: `Num.fin` computes exactly, `dbl` rounds to binary64 and overflows to an
infinity.  The sign of zero is left out: `div` of titus/util.py (84-105) catches the division by any
zero and looks only at the numerator, and no other operation used here tells the zeros apart. -/

namespace Verif.Stat

/-- A Python float (or int) value. -/
inductive Num where
  | fin (q : ℚ)
  | pinf
  | ninf
  | nan
  deriving DecidableEq, Repr

namespace Num

/-- The infinity with the sign of `q`, nan for zero. -/
def infOf (q : ℚ) : Num := if 0 < q then pinf else if q < 0 then ninf else nan

/-- `-a`. -/
def neg : Num → Num
  | fin q => fin (-q)
  | pinf => ninf
  | ninf => pinf
  | nan => nan

/-- `a + b`, where `r` finishes a finite result. -/
def add (r : ℚ → Num) : Num → Num → Num
  | fin a, fin b => r (a + b)
  | nan, _ => nan
  | _, nan => nan
  | pinf, ninf => nan
  | ninf, pinf => nan
  | pinf, _ => pinf
  | _, pinf => pinf
  | ninf, _ => ninf
  | _, ninf => ninf

/-- `a - b`. -/
def sub (r : ℚ → Num) (a b : Num) : Num := add r a (neg b)

/-- `a * b`. -/
def mul (r : ℚ → Num) : Num → Num → Num
  | fin a, fin b => r (a * b)
  | nan, _ => nan
  | _, nan => nan
  | fin a, pinf => infOf a
  | fin a, ninf => infOf (-a)
  | pinf, fin b => infOf b
  | ninf, fin b => infOf (-b)
  | pinf, pinf => pinf
  | pinf, ninf => ninf
  | ninf, pinf => ninf
  | ninf, ninf => pinf

/-- `a > 0.0`. -/
def isPos : Num → Bool
  | fin q => decide (0 < q)
  | pinf => true
  | _ => false

/-- `a < 0.0`. -/
def isNeg : Num → Bool
  | fin q => decide (q < 0)
  | ninf => true
  | _ => false

/-- `a < b`, false when either is nan. -/
def lt : Num → Num → Bool
  | fin a, fin b => decide (a < b)
  | nan, _ => false
  | _, nan => false
  | ninf, ninf => false
  | ninf, _ => true
  | pinf, _ => false
  | fin _, pinf => true
  | fin _, ninf => false

/-- `a >= b`, false when either is nan. -/
def ge : Num → Num → Bool
  | nan, _ => false
  | _, nan => false
  | a, b => !lt a b

/-- `math.isinf`. -/
def isInf : Num → Bool
  | pinf => true
  | ninf => true
  | _ => false

/-- `math.isnan`. -/
def isNan : Num → Bool
  | nan => true
  | _ => false

/-- titus/util.py:84-105 `div`: the quotient, or by the sign of the numerator when the denominator
is zero. -/
def div (r : ℚ → Num) : Num → Num → Num
  | a, fin b =>
    if b = 0 then (if isPos a then pinf else if isNeg a then ninf else nan)
    else match a with
      | fin a => r (a / b)
      | pinf => infOf b
      | ninf => infOf (-b)
      | nan => nan
  | _, nan => nan
  | fin _, _ => fin 0
  | _, _ => nan

@[simp] theorem neg_fin (a : ℚ) : neg (fin a) = fin (-a) := rfl
@[simp] theorem add_fin (r) (a b : ℚ) : add r (fin a) (fin b) = r (a + b) := rfl
@[simp] theorem sub_fin (r) (a b : ℚ) : sub r (fin a) (fin b) = r (a - b) := by
  simp [sub, sub_eq_add_neg]
@[simp] theorem mul_fin (r) (a b : ℚ) : mul r (fin a) (fin b) = r (a * b) := rfl
theorem div_fin (r) (a : ℚ) {b : ℚ} (h : b ≠ 0) : div r (fin a) (fin b) = r (a / b) := by
  simp [div, h]

/-- A number that is not finite. -/
def bad : Num → Prop
  | fin _ => False
  | _ => True

theorem div_zero_bad (r) (a : Num) : (div r a (fin 0)).bad := by
  unfold div; simp only [if_true]
  split_ifs <;> simp [bad]

theorem add_bad_right (r) {a b : Num} (h : b.bad) : (add r a b).bad := by
  cases a <;> cases b <;> simp_all [add, bad]

theorem add_bad_left (r) {a b : Num} (h : a.bad) : (add r a b).bad := by
  cases a <;> cases b <;> simp_all [add, bad]

end Num

/-- Rounding to binary64 with overflow to an infinity (the rounding is `Arith.rnd`). -/
def dbl (q : ℚ) : Num :=
  let d := Arith.rnd q
  if (2 : ℚ) ^ 1024 ≤ d then .pinf else if d ≤ -(2 : ℚ) ^ 1024 then .ninf else .fin d

end Verif.Stat
