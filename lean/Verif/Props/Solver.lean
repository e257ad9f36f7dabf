import Verif.Model.Solver
import Verif.Props.Simulate
import Mathlib.Algebra.Order.Floor.Semifield
import Mathlib.Data.Rat.Floor
import Mathlib.Tactic.NormNum

set_option linter.unusedSectionVars false
set_option linter.unusedSimpArgs false
set_option linter.unusedVariables false

/-! # C37: number of steps per slot

Specification: the slot length of a step time `st` and a slot time `sl` is the integer part of `sl / st`. A decimal number is an
integer divided by a power of ten. -/

namespace Verif.Solver
open Verif.Dim

variable {K : Type} [Field K] [LinearOrder K] [IsStrictOrderedRing K] [FloorSemiring K]

/-- `x` has at most `k` decimals. -/
def HasDecimals (k : Nat) (x : K) : Prop := ∃ a : Nat, x = (a : K) / 10 ^ k

theorem integral_nat (a : Nat) : Integral (a : K) := by unfold Integral; rw [Nat.floor_natCast]

theorem HasDecimals.mul {k : Nat} {x : K} (h : HasDecimals (k + 1) x) : HasDecimals k (x * 10) := by
  obtain ⟨a, rfl⟩ := h
  exact ⟨a, by rw [pow_succ]; field_simp⟩

theorem HasDecimals.zero {x : K} (h : HasDecimals 0 x) : Integral x := by
  obtain ⟨a, rfl⟩ := h
  rw [pow_zero, div_one]; exact integral_nat a

theorem HasDecimals.succ {k : Nat} {x : K} (h : HasDecimals k x) : HasDecimals (k + 1) x := by
  obtain ⟨a, rfl⟩ := h
  exact ⟨a * 10, by push_cast; rw [pow_succ]; field_simp⟩

/-- The loop ends, after `j` rounds: the least number of decimals of the two times. -/
theorem scaled_exists (k : Nat) : ∀ (sl st : K), HasDecimals k sl → HasDecimals k st →
    ∃ j ≤ k, Scaled (· * 10) sl st (sl * 10 ^ j) (st * 10 ^ j) ∧ Integral (sl * 10 ^ j) ∧ Integral (st * 10 ^ j) := by
  classical
  induction k with
  | zero =>
    intro sl st h1 h2
    exact ⟨0, le_rfl, by simpa using Scaled.stop h1.zero h2.zero, by simpa using h1.zero, by simpa using h2.zero⟩
  | succ k ih =>
    intro sl st h1 h2
    by_cases hi : Integral sl ∧ Integral st
    · exact ⟨0, by omega, by simpa using Scaled.stop hi.1 hi.2, by simpa using hi.1, by simpa using hi.2⟩
    · obtain ⟨j, hj, h3, h4, h5⟩ := ih _ _ h1.mul h2.mul
      have e : ∀ x : K, x * 10 * 10 ^ j = x * 10 ^ (j + 1) := fun x => by rw [pow_succ]; ring
      rw [e, e] at h3
      rw [e] at h4 h5
      exact ⟨j + 1, by omega, .again hi h3, h4, h5⟩

/-- The loop has one outcome. -/
theorem scaled_unique {mul10 : K → K} {sl st a b a' b' : K} (h : Scaled mul10 sl st a b) (h' : Scaled mul10 sl st a' b') : a = a' ∧ b = b' := by
  induction h with
  | stop h1 h2 =>
    cases h' with
    | stop => exact ⟨rfl, rfl⟩
    | again hn => exact absurd ⟨h1, h2⟩ hn
  | again hn _ ih =>
    cases h' with
    | stop h1 h2 => exact absurd ⟨h1, h2⟩ hn
    | again _ h3 => exact ih h3

/-- The rule has one outcome. -/
theorem transient_unique {mul10 : K → K} {step slot : K} {o o' : Outcome (K × Nat)} (h : Transient mul10 step slot o)
    (h' : Transient mul10 step slot o') : o = o' := by
  cases h <;> cases h'
  · rfl
  · contradiction
  · contradiction
  · contradiction
  · rename_i _ h1 e1 _ _ _ _ h2 e2
    obtain ⟨rfl, rfl⟩ := scaled_unique h1 h2
    rw [e1] at e2; cases e2; rfl
  · rename_i _ h1 e1 _ _ _ h2 e2
    obtain ⟨rfl, rfl⟩ := scaled_unique h1 h2
    rw [e1] at e2; cases e2
  · contradiction
  · rename_i h1 e1 _ _ _ _ h2 e2
    obtain ⟨rfl, rfl⟩ := scaled_unique h1 h2
    rw [e1] at e2; cases e2
  · rfl

theorem floor_div_eq {sl st : K} (c : K) (hc : 0 < c) (hst : 0 < st) (h1 : Integral (sl * c)) (h2 : Integral (st * c)) :
    ⌊sl * c⌋₊ / ⌊st * c⌋₊ = ⌊sl / st⌋₊ := by
  have e : sl / st = (⌊sl * c⌋₊ : K) / (⌊st * c⌋₊ : K) := by
    rw [← h1, ← h2, mul_div_mul_right _ _ hc.ne']
  rw [e, Nat.floor_div_eq_div]

/-- **C37 (partial)** With exact arithmetic, for two times with at most `k` decimals such that the times without their decimal point
fit 32 bits, the rule accepts exactly when 0 < step ≤ slot, the slot length is the integer part of slot / step and is at least 1.
Missing: the rounding of `double` (`C37_rounding_violated`) and larger numbers (`C37_many_decimals_violated`). -/
theorem C37_slot_length_partial {k : Nat} {step slot : K} (h1 : HasDecimals k step) (h2 : HasDecimals k slot)
    (hW : slot * 10 ^ k < (4294967296 : Nat)) :
    (0 < step ∧ step ≤ slot → Transient (· * 10) step slot (.ok (step, ⌊slot / step⌋₊)) ∧ 1 ≤ ⌊slot / step⌋₊) ∧
    (¬ (0 < step ∧ step ≤ slot) → Transient (· * 10) step slot .rejected) := by
  constructor
  · rintro ⟨hp, hle⟩
    obtain ⟨j, hj, h3, h4, h5⟩ := scaled_exists k slot step h2 h1
    have hc : (0 : K) < 10 ^ j := by positivity
    have hone : 1 ≤ ⌊slot / step⌋₊ := by
      rw [Nat.one_le_floor_iff, le_div_iff₀ hp]; linarith
    have hbig : slot * 10 ^ j ≤ slot * 10 ^ k :=
      mul_le_mul_of_nonneg_left (pow_le_pow_right₀ (by norm_num) hj) (by linarith)
    have hf1 : ⌊slot * 10 ^ j⌋₊ < W := by
      rw [Nat.floor_lt (mul_nonneg (by linarith) hc.le)]
      unfold W
      exact lt_of_le_of_lt hbig hW
    have hf2 : ⌊step * 10 ^ j⌋₊ ≤ ⌊slot * 10 ^ j⌋₊ := Nat.floor_mono (mul_le_mul_of_nonneg_right hle hc.le)
    have hf3 : ⌊step * 10 ^ j⌋₊ ≠ 0 := by
      intro h0
      unfold Integral at h5
      rw [h0, Nat.cast_zero] at h5
      exact (mul_pos hp hc).ne' h5
    refine ⟨.accepted (by push Not; exact ⟨hle, hp, lt_of_lt_of_le hp hle⟩) h3 ?_, hone⟩
    unfold divide
    rw [if_pos ⟨hf1, by omega, hf3⟩, floor_div_eq _ hc hp h4 h5]
  · intro h
    refine .refused ?_
    by_contra hn
    push Not at hn
    exact h ⟨hn.2.1, hn.1⟩

/-- **C37** Whatever the arithmetic, an accepted slot length with a defined result comes from a division by a positive number; in exact
arithmetic it is never 0, so that the test of the end of a slot never divides by zero. -/
theorem C37_never_zero {step slot : K} {n : Nat} {st : K} (h : Transient (· * 10) step slot (.ok (st, n))) : st = step ∧ 0 < step ∧ 1 ≤ n := by
  cases h with
  | accepted hn hs hd =>
    push Not at hn
    refine ⟨rfl, hn.2.1, ?_⟩
    have mono : ∀ {a b c d : K}, Scaled (· * 10) a b c d → b ≤ a → d ≤ c := by
      intro a b c d h
      induction h with
      | stop => exact id
      | again _ _ ih => exact fun hle => ih (mul_le_mul_of_nonneg_right hle (by norm_num))
    have hle := mono hs hn.1
    unfold divide at hd
    split at hd
    · rename_i hc
      cases hd
      exact (Nat.one_le_div_iff (Nat.pos_of_ne_zero hc.2.2)).mpr (Nat.floor_mono hle)
    · cases hd

/-- Non-vacuity: step 0.002, slot 0.01: five steps per slot; step 0.3, slot 1: three. -/
example : Transient (· * 10) (2 / 10 ^ 3 : ℚ) (10 / 10 ^ 3) (.ok (2 / 10 ^ 3, 5)) ∧ Transient (· * 10) (3 / 10 ^ 1 : ℚ) (10 / 10 ^ 1) (.ok (3 / 10 ^ 1, 3)) := by
  have a := ((C37_slot_length_partial (K := ℚ) (k := 3) (step := 2 / 10 ^ 3) (slot := 10 / 10 ^ 3) ⟨2, by norm_num⟩ ⟨10, by norm_num⟩ (by norm_num)).1
    (by norm_num)).1
  have b := ((C37_slot_length_partial (K := ℚ) (k := 1) (step := 3 / 10 ^ 1) (slot := 10 / 10 ^ 1) ⟨3, by norm_num⟩ ⟨10, by norm_num⟩ (by norm_num)).1
    (by norm_num)).1
  rw [show ⌊(10 / 10 ^ 3 / (2 / 10 ^ 3) : ℚ)⌋₊ = 5 by norm_num] at a
  rw [show ⌊(10 / 10 ^ 1 / (3 / 10 ^ 1) : ℚ)⌋₊ = 3 by rw [Nat.floor_eq_iff] <;> norm_num] at b
  exact ⟨a, b⟩

/-- **C37 (violated)** With a step of 10^-10 seconds and a slot of one second, both accepted, the scaled slot time is 10^10, which does
not fit `uint32_t`: the conversion is undefined, even with exact arithmetic. -/
theorem C37_many_decimals_violated : Transient (· * 10) (1 / 10 ^ 10 : ℚ) 1 .ub ∧ ⌊(1 / (1 / 10 ^ 10) : ℚ)⌋₊ = 10000000000 := by
  constructor
  · obtain ⟨j, hj, h3, h4, h5⟩ := scaled_exists 10 (1 : ℚ) (1 / 10 ^ 10) ⟨10 ^ 10, by norm_num⟩ ⟨1, by norm_num⟩
    have hj' : j = 10 := by
      by_contra hne
      have hlt : j ≤ 9 := by omega
      have hf : ⌊(1 / 10 ^ 10 : ℚ) * 10 ^ j⌋₊ = 0 := by
        rw [Nat.floor_eq_zero]
        calc (1 / 10 ^ 10 : ℚ) * 10 ^ j ≤ 1 / 10 ^ 10 * 10 ^ 9 := mul_le_mul_of_nonneg_left (pow_le_pow_right₀ (by norm_num) hlt) (by norm_num)
          _ < 1 := by norm_num
      unfold Integral at h5
      rw [hf, Nat.cast_zero] at h5
      have : (0 : ℚ) < 1 / 10 ^ 10 * 10 ^ j := by positivity
      exact this.ne' h5
    subst hj'
    refine .undefined (by norm_num) h3 ?_
    unfold divide
    rw [if_neg]
    intro h
    have := h.1
    rw [show ((1 : ℚ) * 10 ^ 10) = ((10000000000 : Nat) : ℚ) by norm_num, Nat.floor_natCast] at this
    unfold W at this
    omega
  · rw [show (1 / (1 / 10 ^ 10) : ℚ) = ((10000000000 : Nat) : ℚ) by norm_num, Nat.floor_natCast]


/-! ### binary64 -/

theorem pow2_eq (x : Int) : pow2 x = (2 : ℚ) ^ x := by
  cases x with
  | ofNat n => simp [pow2]
  | negSucc n => rw [zpow_negSucc]; simp [pow2]

theorem pow2_pos (x : Int) : 0 < pow2 x := by rw [pow2_eq]; exact zpow_pos (by norm_num) _

theorem nearest_spec (y : ℚ) : |(nearest y : ℚ) - y| ≤ 1 / 2 ∧ (|(nearest y : ℚ) - y| = 1 / 2 → nearest y % 2 = 0) := by
  have h1 := Int.floor_le y
  have h2 := Int.lt_floor_add_one y
  unfold nearest
  simp only
  generalize ⌊y⌋ = f at h1 h2
  split
  · rename_i h
    rw [abs_of_nonpos (by linarith)]
    exact ⟨by linarith, fun he => by linarith⟩
  · rename_i h
    split
    · rename_i h'
      push_cast
      rw [abs_of_nonneg (by linarith)]
      exact ⟨by linarith, fun he => by linarith⟩
    · rename_i h'
      have : y - f = 1 / 2 := le_antisymm (not_lt.mp h') (not_lt.mp h)
      split
      · rw [abs_of_nonpos (by linarith)]; exact ⟨by linarith, fun _ => by assumption⟩
      · push_cast
        rw [abs_of_nonneg (by linarith)]; exact ⟨by linarith, fun _ => by omega⟩

theorem ulpExp_spec {q : ℚ} (hq : 0 < q) : 2 ^ 52 * pow2 (ulpExp q) ≤ q ∧ q < 2 ^ 53 * pow2 (ulpExp q) := by
  have hn : 0 < q.num := Rat.num_pos.mpr hq
  obtain ⟨n, hn'⟩ : ∃ n : Nat, q.num = n := ⟨q.num.toNat, (Int.toNat_of_nonneg hn.le).symm⟩
  have hn0 : n ≠ 0 := by rintro rfl; rw [hn'] at hn; simp at hn
  have hd0 : q.den ≠ 0 := q.den_nz
  have e : q = (n : ℚ) / (q.den : ℚ) := by
    conv_lhs => rw [← Rat.num_div_den q, hn']
    simp
  have a1 := Nat.log2_self_le hn0
  have a2 := Nat.lt_log2_self (n := n)
  have b1 := Nat.log2_self_le hd0
  have b2 := Nat.lt_log2_self (n := q.den)
  unfold ulpExp
  simp only [hn', Int.toNat_natCast]
  generalize Nat.log2 n = a at *
  generalize Nat.log2 q.den = b at *
  have a1' : (2 : ℚ) ^ (a : Int) ≤ n := by rw [zpow_natCast]; exact_mod_cast a1
  have a2' : (n : ℚ) < 2 ^ ((a : Int) + 1) := by
    rw [show ((a : Int) + 1) = ((a + 1 : Nat) : Int) by push_cast; ring, zpow_natCast]; exact_mod_cast a2
  have b1' : (2 : ℚ) ^ (b : Int) ≤ q.den := by rw [zpow_natCast]; exact_mod_cast b1
  have b2' : (q.den : ℚ) < 2 ^ ((b : Int) + 1) := by
    rw [show ((b : Int) + 1) = ((b + 1 : Nat) : Int) by push_cast; ring, zpow_natCast]; exact_mod_cast b2
  have hdp : (0 : ℚ) < q.den := by exact_mod_cast Nat.pos_of_ne_zero hd0
  have two : (2 : ℚ) ≠ 0 := by norm_num
  have lo : (2 : ℚ) ^ ((a : Int) - b - 1) ≤ q := by
    rw [e, le_div_iff₀ hdp]
    calc (2 : ℚ) ^ ((a : Int) - b - 1) * q.den ≤ 2 ^ ((a : Int) - b - 1) * 2 ^ ((b : Int) + 1) :=
          mul_le_mul_of_nonneg_left b2'.le (zpow_pos (by norm_num) _).le
      _ = 2 ^ (a : Int) := by rw [← zpow_add₀ two]; congr 1; ring
      _ ≤ n := a1'
  have hi : q < (2 : ℚ) ^ ((a : Int) - b + 1) := by
    rw [e, div_lt_iff₀ hdp]
    calc (n : ℚ) < 2 ^ ((a : Int) + 1) := a2'
      _ = 2 ^ ((a : Int) - b + 1) * 2 ^ (b : Int) := by rw [← zpow_add₀ two]; congr 1; ring
      _ ≤ 2 ^ ((a : Int) - b + 1) * q.den := mul_le_mul_of_nonneg_left b1' (zpow_pos (by norm_num) _).le
  have p52 : ∀ x : Int, (2 : ℚ) ^ 52 * (2 : ℚ) ^ x = 2 ^ (x + 52) := fun x => by
    rw [zpow_add₀ two, mul_comm]; norm_num
  have p53 : ∀ x : Int, (2 : ℚ) ^ 53 * (2 : ℚ) ^ x = 2 ^ (x + 53) := fun x => by
    rw [zpow_add₀ two, mul_comm]; norm_num
  split
  · rename_i h
    rw [pow2_eq] at h ⊢
    rw [p52, p53, show (a : Int) - b - 53 + 52 = a - b - 1 by ring, show (a : Int) - b - 53 + 53 = a - b by ring]
    exact ⟨lo, h⟩
  · rename_i h
    rw [pow2_eq] at h ⊢
    rw [p52, p53, show (a : Int) - b - 52 + 52 = a - b by ring, show (a : Int) - b - 52 + 53 = a - b + 1 by ring]
    exact ⟨not_lt.mp h, hi⟩

/-- `rnd` rounds to the nearest number with a significand of 53 bits, ties to even. -/
theorem rnd_spec {q : ℚ} (hq : 0 < q) : ∃ (m : Int) (x : Int), rnd q = m * (2 : ℚ) ^ x ∧ 2 ^ 52 ≤ m ∧ m ≤ 2 ^ 53 ∧
    2 ^ 52 * (2 : ℚ) ^ x ≤ q ∧ q < 2 ^ 53 * (2 : ℚ) ^ x ∧ |rnd q - q| ≤ (2 : ℚ) ^ x / 2 ∧ (|rnd q - q| = (2 : ℚ) ^ x / 2 → m % 2 = 0) := by
  obtain ⟨h1, h2⟩ := ulpExp_spec hq
  have hp := pow2_pos (ulpExp q)
  obtain ⟨h3, h4⟩ := nearest_spec (q / pow2 (ulpExp q))
  have hlo : (2 : ℚ) ^ 52 ≤ q / pow2 (ulpExp q) := by rw [le_div_iff₀ hp]; exact h1
  have hhi : q / pow2 (ulpExp q) < 2 ^ 53 := by rw [div_lt_iff₀ hp]; exact h2
  have key : |rnd q - q| = |(nearest (q / pow2 (ulpExp q)) : ℚ) - q / pow2 (ulpExp q)| * pow2 (ulpExp q) := by
    unfold rnd
    conv_rhs => rw [← abs_of_pos hp, ← abs_mul, abs_of_pos hp]
    congr 1
    rw [sub_mul, div_mul_cancel₀ _ hp.ne']
  refine ⟨nearest (q / pow2 (ulpExp q)), ulpExp q, by rw [← pow2_eq]; rfl, ?_, ?_, by rw [← pow2_eq]; exact h1, by rw [← pow2_eq]; exact h2, ?_, ?_⟩
  · have := (abs_le.mp h3).1
    have hh : ((2 ^ 52 - 1 : Int) : ℚ) < (nearest (q / pow2 (ulpExp q)) : ℚ) := by push_cast; linarith
    have := Int.cast_lt.mp hh
    omega
  · have := (abs_le.mp h3).2
    have hh : (nearest (q / pow2 (ulpExp q)) : ℚ) < ((2 ^ 53 + 1 : Int) : ℚ) := by push_cast; linarith
    have := Int.cast_lt.mp hh
    omega
  · rw [key, ← pow2_eq]
    calc _ ≤ 1 / 2 * pow2 (ulpExp q) := mul_le_mul_of_nonneg_right h3 hp.le
      _ = _ := by ring
  · rw [key, ← pow2_eq]
    intro he
    refine h4 ?_
    have : |(nearest (q / pow2 (ulpExp q)) : ℚ) - q / pow2 (ulpExp q)| * pow2 (ulpExp q) = 1 / 2 * pow2 (ulpExp q) := by rw [he]; ring
    exact mul_right_cancel₀ hp.ne' this

theorem scaled_iter {mul10 : K → K} (n : Nat) : ∀ (sl st : K), (∀ i < n, ¬ (Integral (mul10^[i] sl) ∧ Integral (mul10^[i] st))) →
    Integral (mul10^[n] sl) → Integral (mul10^[n] st) → Scaled mul10 sl st (mul10^[n] sl) (mul10^[n] st) := by
  induction n with
  | zero => intro sl st _ h1 h2; exact .stop h1 h2
  | succ n ih =>
    intro sl st h h1 h2
    refine .again (h 0 (by omega)) ?_
    exact ih (mul10 sl) (mul10 st) (fun i hi => h (i + 1) (by omega)) h1 h2

instance (x : ℚ) : Decidable (Integral x) := inferInstanceAs (Decidable (x = _))

/-- **C37 (violated)** In binary64, a step of 0.07 s and a slot of 0.35 s, whose quotient is 5: the step, multiplied by ten twice, is
7.000000000000001, so the loop goes on for 17 rounds until the slot is 3.5e16 and the step 7000000000000001; their conversion to
`uint32_t` is undefined. -/
theorem C37_rounding_violated : Transient mul10d (rnd (7 / 100)) (rnd (35 / 100)) .ub ∧ ⌊(35 / 100 / (7 / 100) : ℚ)⌋₊ = 5 := by
  constructor
  · refine .undefined (sl := mul10d^[17] (rnd (35 / 100))) (st := mul10d^[17] (rnd (7 / 100))) (by decide +kernel)
      (scaled_iter 17 _ _ (by decide +kernel) (by decide +kernel) (by decide +kernel)) (by decide +kernel)
  · norm_num

/-- **C37 (partial)** Whatever the rounding of the multiplication, times that are whole numbers below 2^32 are divided exactly. -/
theorem C37_whole_numbers_partial (mul10 : K → K) {step slot : Nat} (h0 : 0 < step) (h1 : step ≤ slot) (h2 : slot < 4294967296) :
    Transient mul10 (step : K) (slot : K) (.ok ((step : K), slot / step)) := by
  have a : (0 : K) < step := by exact_mod_cast h0
  have b : (step : K) ≤ slot := by exact_mod_cast h1
  refine .accepted (by push Not; exact ⟨b, a, lt_of_lt_of_le a b⟩) (.stop (integral_nat slot) (integral_nat step)) ?_
  unfold divide
  simp only [Nat.floor_natCast]
  rw [if_pos]
  unfold W
  omega

/-- Non-vacuity: 7 steps of one second. -/
example : Transient mul10d ((1 : Nat) : ℚ) ((7 : Nat) : ℚ) (.ok (((1 : Nat) : ℚ), 7)) := C37_whole_numbers_partial mul10d (by omega) (by omega) (by omega)

/-- In binary64 a step of 0.002 s and a slot of 0.01 s are handled well: five steps per slot. -/
example : Transient mul10d (rnd (2 / 1000)) (rnd (10 / 1000)) (.ok (rnd (2 / 1000), 5)) :=
  .accepted (sl := mul10d^[3] (rnd (10 / 1000))) (st := mul10d^[3] (rnd (2 / 1000))) (by decide +kernel)
    (scaled_iter 3 _ _ (by decide +kernel) (by decide +kernel) (by decide +kernel)) (by decide +kernel)

end Verif.Solver
