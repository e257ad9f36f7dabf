import Mathlib.LinearAlgebra.Matrix.NonsingularInverse
import Mathlib.LinearAlgebra.Matrix.ToLin
import Mathlib.Algebra.Order.Field.Basic
import Mathlib.Algebra.Order.BigOperators.Ring.Finset
import Mathlib.Tactic.Linarith
import Mathlib.Tactic.Ring

/-! Linear algebra used for the system matrix: matrices with non-positive off-diagonal coefficients, and matrices that are
the sum of such a symmetric matrix and an antisymmetric one. -/

namespace Verif.Net2

variable {K : Type} [Field K] [LinearOrder K] [IsStrictOrderedRing K]
variable {ι : Type} [Fintype ι] [DecidableEq ι]

open Finset Matrix

theorem mulVec_split (A : Matrix ι ι K) (x : ι → K) (i : ι) :
    (A *ᵥ x) i = (∑ j, A i j * (x j - x i)) + x i * ∑ j, A i j := by
  simp only [Matrix.mulVec, dotProduct]
  rw [Finset.mul_sum, ← Finset.sum_add_distrib]
  refine Finset.sum_congr rfl fun j _ => ?_
  ring

/-- Minimum principle: non-positive off-diagonal, positive row sums, non-negative right-hand side. -/
theorem nonneg_of_mulVec_nonneg {A : Matrix ι ι K} (hoff : ∀ i j, i ≠ j → A i j ≤ 0) (hrow : ∀ i, 0 < ∑ j, A i j)
    {x : ι → K} (h : ∀ i, 0 ≤ (A *ᵥ x) i) (i : ι) : 0 ≤ x i := by
  obtain ⟨m, -, hm⟩ := Finset.exists_min_image Finset.univ x ⟨i, Finset.mem_univ i⟩
  by_contra hi
  have hxm : x m < 0 := lt_of_le_of_lt (hm i (Finset.mem_univ i)) (not_le.mp hi)
  have h1 := h m
  rw [mulVec_split] at h1
  have h2 : (∑ j, A m j * (x j - x m)) ≤ 0 := by
    refine Finset.sum_nonpos fun j _ => ?_
    by_cases hj : m = j
    · subst hj; simp
    · exact mul_nonpos_of_nonpos_of_nonneg (hoff m j hj) (sub_nonneg.mpr (hm j (Finset.mem_univ j)))
  have h3 : x m * ∑ j, A m j < 0 := mul_neg_of_neg_of_pos hxm (hrow m)
  linarith

theorem mono_of_mulVec_le {A : Matrix ι ι K} (hoff : ∀ i j, i ≠ j → A i j ≤ 0) (hrow : ∀ i, 0 < ∑ j, A i j)
    {x y : ι → K} (h : ∀ i, (A *ᵥ x) i ≤ (A *ᵥ y) i) (i : ι) : x i ≤ y i := by
  have := nonneg_of_mulVec_nonneg hoff hrow (x := y - x) (fun i => by
    rw [Matrix.mulVec_sub]; simp only [Pi.sub_apply]; linarith [h i]) i
  simp only [Pi.sub_apply] at this; linarith

theorem unique_of_injective {A : Matrix ι ι K} (h : ∀ x : ι → K, A *ᵥ x = 0 → x = 0) (b : ι → K) :
    ∃! x : ι → K, A *ᵥ x = b := by
  have hinj : Function.Injective A.mulVec := by
    intro x y hxy
    have : A *ᵥ (x - y) = 0 := by rw [Matrix.mulVec_sub]; exact sub_eq_zero.mpr hxy
    exact sub_eq_zero.mp (h _ this)
  have hsurj : Function.Surjective A.mulVec :=
    Matrix.mulVec_surjective_iff_isUnit.mpr (Matrix.mulVec_injective_iff_isUnit.mp hinj)
  obtain ⟨x, hx⟩ := hsurj b
  exact ⟨x, hx, fun y hy => hinj (hy.trans hx.symm)⟩

theorem unique_of_dominant {A : Matrix ι ι K} (hoff : ∀ i j, i ≠ j → A i j ≤ 0) (hrow : ∀ i, 0 < ∑ j, A i j) (b : ι → K) :
    ∃! x : ι → K, A *ᵥ x = b := by
  refine unique_of_injective (fun x hx => ?_) b
  funext i
  apply le_antisymm
  · have := mono_of_mulVec_le hoff hrow (x := x) (y := 0) (fun i => by rw [hx, Matrix.mulVec_zero]) i
    simpa using this
  · have := mono_of_mulVec_le hoff hrow (x := 0) (y := x) (fun i => by rw [hx, Matrix.mulVec_zero]) i
    simpa using this

/-- Sum of the equations: each unknown is weighted by its column sum. -/
theorem sum_mulVec (A : Matrix ι ι K) (x : ι → K) : ∑ i, (A *ᵥ x) i = ∑ j, (∑ i, A i j) * x j := by
  simp only [Matrix.mulVec, dotProduct]
  rw [Finset.sum_comm]
  exact Finset.sum_congr rfl fun j _ => by rw [Finset.sum_mul]

/-- Quadratic form of a symmetric matrix. -/
theorem quad_symm {S : Matrix ι ι K} (hs : ∀ i j, S i j = S j i) (x : ι → K) :
    2 * ∑ i, x i * (S *ᵥ x) i = 2 * (∑ i, (∑ j, S i j) * x i ^ 2) - ∑ i, ∑ j, S i j * (x i - x j) ^ 2 := by
  have e : ∑ i, ∑ j, S i j * (x i - x j) ^ 2 =
      (∑ i, ∑ j, S i j * x i ^ 2) + (∑ i, ∑ j, S i j * x j ^ 2) - 2 * ∑ i, ∑ j, S i j * (x i * x j) := by
    rw [Finset.mul_sum, ← Finset.sum_add_distrib, ← Finset.sum_sub_distrib]
    refine Finset.sum_congr rfl fun i _ => ?_
    rw [Finset.mul_sum, ← Finset.sum_add_distrib, ← Finset.sum_sub_distrib]
    exact Finset.sum_congr rfl fun j _ => by ring
  have e2 : ∑ i, ∑ j, S i j * x j ^ 2 = ∑ i, ∑ j, S i j * x i ^ 2 := by
    rw [Finset.sum_comm]
    refine Finset.sum_congr rfl fun i _ => Finset.sum_congr rfl fun j _ => ?_
    rw [hs]
  have e3 : ∑ i, x i * (S *ᵥ x) i = ∑ i, ∑ j, S i j * (x i * x j) := by
    simp only [Matrix.mulVec, dotProduct, Finset.mul_sum]
    exact Finset.sum_congr rfl fun i _ => Finset.sum_congr rfl fun j _ => by ring
  have e4 : ∑ i, (∑ j, S i j) * x i ^ 2 = ∑ i, ∑ j, S i j * x i ^ 2 :=
    Finset.sum_congr rfl fun i _ => by rw [Finset.sum_mul]
  rw [e, e2, e3, e4]; ring

theorem quad_anti {F : Matrix ι ι K} (hf : ∀ i j, F i j = - F j i) (x : ι → K) : ∑ i, x i * (F *ᵥ x) i = 0 := by
  have e3 : ∑ i, x i * (F *ᵥ x) i = ∑ i, ∑ j, F i j * (x i * x j) := by
    simp only [Matrix.mulVec, dotProduct, Finset.mul_sum]
    exact Finset.sum_congr rfl fun i _ => Finset.sum_congr rfl fun j _ => by ring
  have h : ∑ i, ∑ j, F i j * (x i * x j) = - ∑ i, ∑ j, F i j * (x i * x j) := by
    conv_lhs => rw [Finset.sum_comm]
    rw [← Finset.sum_neg_distrib]
    refine Finset.sum_congr rfl fun i _ => ?_
    rw [← Finset.sum_neg_distrib]
    refine Finset.sum_congr rfl fun j _ => ?_
    rw [hf]; ring
  rw [e3]; linarith

/-- Unique solvability of a network in which every node is linked, through non-zero conductances and nodes of lower and lower level, to a node
that stores heat or exchanges it with the outside; the antisymmetric part (flow of coolant) does not matter. -/
theorem unique_of_grounded {A S F : Matrix ι ι K} (hA : A = S + F) (hs : ∀ i j, S i j = S j i) (hf : ∀ i j, F i j = - F j i)
    (hoff : ∀ i j, i ≠ j → S i j ≤ 0) (hrow : ∀ i, 0 ≤ ∑ j, S i j) (lev : ι → Nat)
    (hconn : ∀ i, (0 < ∑ j, S i j) ∨ ∃ k, lev k < lev i ∧ S i k ≠ 0) (b : ι → K) :
    ∃! x : ι → K, A *ᵥ x = b := by
  refine unique_of_injective (fun x hx => ?_) b
  have q : ∑ i, x i * (S *ᵥ x) i = 0 := by
    have h0 : ∑ i, x i * (A *ᵥ x) i = 0 := by rw [hx]; simp
    rw [hA, Matrix.add_mulVec] at h0
    simp only [Pi.add_apply, mul_add, Finset.sum_add_distrib] at h0
    rw [quad_anti hf, add_zero] at h0
    exact h0
  have q2 := quad_symm hs x
  rw [q, mul_zero] at q2
  have n1 : ∀ i, 0 ≤ (∑ j, S i j) * x i ^ 2 := fun i => mul_nonneg (hrow i) (sq_nonneg _)
  have n2 : ∀ i j, 0 ≤ - (S i j * (x i - x j) ^ 2) := by
    intro i j
    by_cases h : i = j
    · subst h; simp
    · have := mul_nonneg (neg_nonneg.mpr (hoff i j h)) (sq_nonneg (x i - x j)); linarith
  have s1 : 0 ≤ ∑ i, (∑ j, S i j) * x i ^ 2 := Finset.sum_nonneg fun i _ => n1 i
  have s2 : 0 ≤ ∑ i, ∑ j, - (S i j * (x i - x j) ^ 2) :=
    Finset.sum_nonneg fun i _ => Finset.sum_nonneg fun j _ => n2 i j
  have s2' : ∑ i, ∑ j, - (S i j * (x i - x j) ^ 2) = - ∑ i, ∑ j, S i j * (x i - x j) ^ 2 := by
    simp only [Finset.sum_neg_distrib]
  have z1 : ∑ i, (∑ j, S i j) * x i ^ 2 = 0 := by linarith
  have z2 : ∑ i, ∑ j, - (S i j * (x i - x j) ^ 2) = 0 := by linarith
  have k1 : ∀ i, 0 < ∑ j, S i j → x i = 0 := by
    intro i hi
    have := (Finset.sum_eq_zero_iff_of_nonneg (fun i _ => n1 i)).mp z1 i (Finset.mem_univ i)
    rcases mul_eq_zero.mp this with h | h
    · exact absurd h hi.ne'
    · exact pow_eq_zero_iff (two_ne_zero) |>.mp h
  have k2 : ∀ i j, S i j ≠ 0 → x i = x j := by
    intro i j hij
    have a1 := (Finset.sum_eq_zero_iff_of_nonneg
      (fun i _ => Finset.sum_nonneg fun j _ => n2 i j)).mp z2 i (Finset.mem_univ i)
    have a2 := (Finset.sum_eq_zero_iff_of_nonneg (fun j _ => n2 i j)).mp a1 j (Finset.mem_univ j)
    rw [neg_eq_zero] at a2
    rcases mul_eq_zero.mp a2 with h | h
    · exact absurd h hij
    · exact sub_eq_zero.mp (pow_eq_zero_iff (two_ne_zero) |>.mp h)
  have main : ∀ n i, lev i = n → x i = 0 := by
    intro n
    induction n using Nat.strong_induction_on with
    | _ n ih =>
      intro i hi
      rcases hconn i with h | ⟨k, hk, hik⟩
      · exact k1 i h
      · rw [k2 i k hik]
        exact ih _ (by omega) k rfl
  funext i
  exact main _ i rfl

/-- Unique solvability of a network with storage in some nodes: every node with no storage is connected to one with
storage by a non-zero conductance; the antisymmetric part (flow of coolant) does not matter. -/
theorem unique_of_network {A S F : Matrix ι ι K} (hA : A = S + F) (hs : ∀ i j, S i j = S j i) (hf : ∀ i j, F i j = - F j i)
    (hoff : ∀ i j, i ≠ j → S i j ≤ 0) (hrow : ∀ i, 0 ≤ ∑ j, S i j)
    (hconn : ∀ i, (0 < ∑ j, S i j) ∨ ∃ k, k ≠ i ∧ (0 < ∑ j, S k j) ∧ S i k ≠ 0) (b : ι → K) :
    ∃! x : ι → K, A *ᵥ x = b := by
  classical
  exact unique_of_grounded hA hs hf hoff hrow (fun i => if 0 < ∑ j, S i j then 0 else 1) (fun i => by
    rcases hconn i with h | ⟨k, -, hk, hik⟩
    · exact Or.inl h
    · by_cases h : 0 < ∑ j, S i j
      · exact Or.inl h
      · exact Or.inr ⟨k, by simp only [if_pos hk, if_neg h]; omega, hik⟩) b

end Verif.Net2
