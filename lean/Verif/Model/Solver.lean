import Verif.Model.Emulate
import Mathlib.Data.Rat.Floor

/-! Model of the rule `solver` of the stack file: `bison/stack_description_parser.y`:1722-1812.

The computation of the slot length is about `double`, so it is modelled twice: with exact arithmetic, and with the rounding of
multiplications in binary64 (`rnd`). -/

namespace Verif.Solver
open Verif.Dim

variable {K : Type} [Field K] [LinearOrder K] [FloorSemiring K]

/-- `modf (x, &i)` returns 0 for a non-negative `x`. -/
def Integral (x : K) : Prop := x = (⌊x⌋₊ : K)

/-- The loop `while (sl_dec != 0.0 || st_dec != 0.0) { sl *= 10.0 ; st *= 10.0 ; … }`: bison/stack_description_parser.y:1789-1800.
`mul10` is the multiplication by 10.0. `Scaled mul10 sl st sl' st'`: from `sl` and `st` the loop ends with `sl'` and `st'`. -/
inductive Scaled (mul10 : K → K) : K → K → K → K → Prop
  | stop {sl st} : Integral sl → Integral st → Scaled mul10 sl st sl st
  | again {sl st sl' st'} : ¬ (Integral sl ∧ Integral st) → Scaled mul10 (mul10 sl) (mul10 st) sl' st' → Scaled mul10 sl st sl' st'

/-- `(Quantity_t) sl_int / (Quantity_t) st_int`: bison/stack_description_parser.y:1802. `none`: the conversion to `uint32_t` of a number out
of its range, or a division by zero (undefined behaviour). -/
def divide (sl st : K) : Option Nat :=
  if ⌊sl⌋₊ < W ∧ ⌊st⌋₊ < W ∧ ⌊st⌋₊ ≠ 0 then some (⌊sl⌋₊ / ⌊st⌋₊) else none

/-- What the rule leaves in `analysis` for a transient simulation, or the refusal: bison/stack_description_parser.y:1757-1802.
`r` is `none` for undefined behaviour. -/
inductive Transient (mul10 : K → K) (step slot : K) : Outcome (K × Nat) → Prop
  | refused : slot < step ∨ step ≤ 0 ∨ slot ≤ 0 → Transient mul10 step slot .rejected
  | accepted {sl st n} : ¬ (slot < step ∨ step ≤ 0 ∨ slot ≤ 0) → Scaled mul10 slot step sl st → divide sl st = some n →
      Transient mul10 step slot (.ok (step, n))
  | undefined {sl st} : ¬ (slot < step ∨ step ≤ 0 ∨ slot ≤ 0) → Scaled mul10 slot step sl st → divide sl st = none →
      Transient mul10 step slot .ub

/-- Step time and slot length of a steady simulation: bison/stack_description_parser.y:1740-1747. -/
def steadySolver : K × Nat := (1, 1)

/-! ### binary64 -/

/-- Power of two. -/
def pow2 : Int → ℚ
  | .ofNat n => ((2 ^ n : Nat) : ℚ)
  | .negSucc n => 1 / ((2 ^ (n + 1) : Nat) : ℚ)

/-- Exponent of the last bit of the significand of a positive number: `2^52 ≤ q / 2^x < 2^53`. -/
def ulpExp (q : ℚ) : Int :=
  let e : Int := (Nat.log2 q.num.toNat : Int) - (Nat.log2 q.den : Int)
  if q < pow2 e then e - 53 else e - 52

/-- Nearest integer, ties to even. -/
def nearest (y : ℚ) : Int :=
  let f := ⌊y⌋
  if y - f < 1 / 2 then f else if 1 / 2 < y - f then f + 1 else if f % 2 = 0 then f else f + 1

/-- Rounding of a positive number to binary64 (IEEE 754, to nearest, ties to even; without subnormal numbers and overflow). -/
def rnd (q : ℚ) : ℚ := (nearest (q / pow2 (ulpExp q)) : ℚ) * pow2 (ulpExp q)

/-- `x * 10.0` in binary64. -/
def mul10d (x : ℚ) : ℚ := rnd (x * 10)

end Verif.Solver
