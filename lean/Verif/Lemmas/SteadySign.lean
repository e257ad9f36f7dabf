import Verif.Lemmas.Steady
import Verif.Lemmas.Solid

/-! Stacks without coolant: sign of the solutions of the steady equations. -/

set_option linter.unusedSectionVars false
set_option linter.unusedSimpArgs false
set_option linter.unusedVariables false

namespace Verif.Net2

variable {K : Type} [Field K] [LinearOrder K] [IsStrictOrderedRing K]
variable {ι : Type} [Fintype ι] [DecidableEq ι]

open Finset Matrix

/-- A symmetric network with a trivial kernel: non-negative inputs give non-negative values. -/
theorem nonneg_of_injective {S : Matrix ι ι K} (hs : ∀ i j, S i j = S j i) (hoff : ∀ i j, i ≠ j → S i j ≤ 0) (hrow : ∀ i, 0 ≤ ∑ j, S i j)
    (hinj : ∀ x : ι → K, S *ᵥ x = 0 → x = 0) {x : ι → K} (h : ∀ i, 0 ≤ (S *ᵥ x) i) (i : ι) : 0 ≤ x i := by
  obtain ⟨m, -, hm⟩ := Finset.exists_min_image Finset.univ x ⟨i, Finset.mem_univ i⟩
  by_contra hi
  have hxm : x m < 0 := lt_of_le_of_lt (hm i (Finset.mem_univ i)) (not_le.mp hi)
  have key : ∀ k, x k = x m → (∑ j, S k j) = 0 ∧ ∀ j, x j ≠ x m → S k j = 0 := by
    intro k hk
    have h1 := h k
    rw [mulVec_split, hk] at h1
    have n2 : ∀ j ∈ Finset.univ, S k j * (x j - x m) ≤ 0 := by
      intro j _
      by_cases hj : k = j
      · subst hj; rw [hk]; simp
      · exact mul_nonpos_of_nonpos_of_nonneg (hoff k j hj) (sub_nonneg.mpr (hm j (Finset.mem_univ j)))
    have h2 := Finset.sum_nonpos n2
    have h3 : x m * ∑ j, S k j ≤ 0 := mul_nonpos_of_nonpos_of_nonneg hxm.le (hrow k)
    have z1 : x m * ∑ j, S k j = 0 := by linarith
    have z2 : ∑ j, S k j * (x j - x m) = 0 := by linarith
    refine ⟨(mul_eq_zero.mp z1).resolve_left hxm.ne, fun j hj => ?_⟩
    have := (Finset.sum_eq_zero_iff_of_nonpos n2).mp z2 j (Finset.mem_univ j)
    exact (mul_eq_zero.mp this).resolve_right (sub_ne_zero.mpr hj)
  have hz := hinj (fun k => if x k = x m then 1 else 0) (by
    funext k
    simp only [Matrix.mulVec, dotProduct, Pi.zero_apply]
    by_cases hk : x k = x m
    · refine Eq.trans (Finset.sum_congr rfl fun j _ => ?_) (key k hk).1
      by_cases hj : x j = x m
      · rw [if_pos hj, mul_one]
      · rw [if_neg hj, mul_zero, (key k hk).2 j hj]
    · refine Finset.sum_eq_zero fun j _ => ?_
      by_cases hj : x j = x m
      · rw [hs k j, (key j hj).2 k hk, zero_mul]
      · rw [if_neg hj, mul_zero])
  have := congrFun hz m
  simp at this

end Verif.Net2

namespace Verif.Emu
open Verif.Dim Verif.TG Verif.SM Verif.Flp Verif.Stk

variable {K : Type} [Field K] [LinearOrder K] [IsStrictOrderedRing K]

/-- Without coolant and with a way out for the heat, if every steady equation has a non-negative right-hand side then no unknown is negative. -/
theorem solid_steady {g : TGrid K} {d : Dims K} (wf : WF g d) (hp : Physical g d) (hc : g.channel = none) (hns : NotStacked g d) (hh : HeatLeaves g d)
    (hsp : spreaderOf g = none) {a : Ana K} (hat : a.transient = false) {x : Nat → K}
    (h : ∀ i, i < d.nCells → 0 ≤ ∑ j ∈ Finset.range d.nCells, (fillMatrix g a d).entry i j * x j) :
    ∀ i, i < d.nCells → 0 ≤ x i := by
  have hone := steady_unique_wf wf hp hns hh hsp a hat (fun _ => 0)
  rw [nCells_eq wf] at *
  have hm := matrix_eq wf a
  rw [Net2.mat_eq, flow_zero wf hp hc a, add_zero] at hm
  have hok := netw_ok wf hp a
  have hent : ∀ (i j : Nat) (hi : i < size g d) (hj : j < size g d), (fillMatrix g a d).entry i j = (netw g a d).symm ⟨i, hi⟩ ⟨j, hj⟩ :=
    fun i j hi hj => congrFun (congrFun hm ⟨i, hi⟩) ⟨j, hj⟩
  intro i hi
  refine Net2.nonneg_of_injective (S := (netw g a d).symm) (fun i j => Net2.symm_symm hok i j) (fun i j hij => Net2.symm_off (contrib_all wf hp) hij) (fun i => by
      rw [Net2.symm_rowSum hok]
      exact base_nonneg wf hp (fun h => by rw [hat] at h; cases h) (cellAt_valid wf i.2).1) ?_ (x := fun j => x j) (fun k => ?_) ⟨i, hi⟩
  · intro y hy
    obtain ⟨z, -, hu⟩ := hone
    have e1 : Solves (size g d) (fillMatrix g a d).entry (fun k => if h : k < size g d then y ⟨k, h⟩ else 0) (fun _ => 0) := by
      rw [solves_iff]
      have e : (fun j : Fin (size g d) => (fun k : Nat => if h : k < size g d then y ⟨k, h⟩ else 0) j) = y := by funext j; simp
      rw [e]
      have : (fun (i j : Fin (size g d)) => (fillMatrix g a d).entry i j) = (netw g a d).symm := hm
      rw [this, hy]; rfl
    have e2 : Solves (size g d) (fillMatrix g a d).entry (fun _ => 0) (fun _ => 0) := by intro i _; simp
    funext k
    have := (hu _ e1 k k.2).trans (hu _ e2 k k.2).symm
    simpa using this
  · have := h k k.2
    rw [← sum_fin] at this
    refine le_of_le_of_eq this ?_
    simp only [Matrix.mulVec, dotProduct]
    exact Finset.sum_congr rfl fun j _ => by rw [hent k j k.2 j.2]

end Verif.Emu
