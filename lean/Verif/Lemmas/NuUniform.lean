import Verif.Props.NonUniformContact

set_option linter.unusedSectionVars false
set_option linter.unusedSimpArgs false
set_option linter.unusedVariables false

/-! Coefficients of the uniform grid of a stack without channel, spreader and bottom sink, cell by cell. -/

namespace Verif.SM
open Verif.Dim Verif.TG Verif.Stk

variable {K : Type} [Field K] [LinearOrder K] [IsStrictOrderedRing K]
variable {g : TGrid K} {d : Dims K}

/-- A coefficient outside the diagonal, from the list of the neighbours. -/
theorem entry_neighbours (wf : WF g d) (a : Ana K) {p q : Cell} (hp : Valid g d p) (hq : Valid g d q) (hne : p ≠ q) :
    (fillMatrix g a d).entry (offset d (spreaderOf g) p) (offset d (spreaderOf g) q) =
      (((loOf g d q ++ hiOf g d q).filter fun e => decide (e.cell = p)).map (·.val)).sum := by
  have hi := offset_lt_size wf hp
  have hj := offset_lt_size wf hq
  have h := congrFun (congrFun (matrix_eq wf a) ⟨_, hi⟩) ⟨_, hj⟩
  simp only [matrix] at h
  rw [h]
  unfold Net2.Netw.mat
  rw [if_neg (fun e => hne (offset_inj wf hp hq (congrArg Fin.val e))), zero_add]
  unfold Net2.pick netw
  simp only
  rw [cellAt_offset wf hq, List.filter_map, List.map_map]
  congr 1
  have : ∀ (xs : List (Ent K)), (∀ e ∈ xs, Valid g d e.cell) →
      (xs.filter ((fun e : Fin (size g d) × K × K => decide (e.1 = ⟨_, hi⟩)) ∘ fun e : Ent K => (rowOf g d ⟨_, hj⟩ e.cell, e.val, e.contrib))) =
      xs.filter fun e => decide (e.cell = p) := by
    intro xs hx
    refine List.filter_congr fun e he => ?_
    simp only [Function.comp]
    congr 1
    apply propext
    constructor
    · intro h
      have := congrArg Fin.val h
      rw [rowOf_val wf _ (hx e he)] at this
      exact offset_inj wf (hx e he) hp this
    · intro h
      apply Fin.ext
      rw [rowOf_val wf _ (hx e he), h]
  rw [this]
  · rfl
  · intro e he
    exact ent_valid wf hq he

theorem filter_opt (b : Prop) [Decidable b] (e : Ent K) (p : Cell) :
    (((opt b e).filter fun x => decide (x.cell = p)).map (·.val)).sum = if b ∧ e.cell = p then e.val else 0 := by
  unfold opt
  by_cases hb : b
  · by_cases he : e.cell = p <;> simp [hb, he]
  · simp [hb]

/-- The six neighbours of a solid cell. -/
theorem entry_solid (wf : WF g d) (a : Ana K) {l r c l' r' c' : Nat} (hl : l < d.nLayers) (hr : r < d.nRows) (hc : c < d.nCols)
    (hl' : l' < d.nLayers) (hr' : r' < d.nRows) (hc' : c' < d.nCols) (hs : solidish (typeAt g l) = true) (hsp : isSpr (typeAt g l) = false)
    (hne : ¬ (l' = l ∧ r' = r ∧ c' = c)) :
    (fillMatrix g a d).entry (offInStack d l' r' c') (offInStack d l r c) =
      - (if l' + 1 = l ∧ r' = r ∧ c' = c then solidBottom g d l r c
         else if l' = l + 1 ∧ r' = r ∧ c' = c then solidTop g d l r c
         else if l' = l ∧ r' + 1 = r ∧ c' = c then par (gSouth g d l r c) (gNorth g d l (r - 1) c)
         else if l' = l ∧ r' = r + 1 ∧ c' = c then par (gNorth g d l r c) (gSouth g d l (r + 1) c)
         else if l' = l ∧ r' = r ∧ c' + 1 = c then par (gWest g d l r c) (gEast g d l r (c - 1))
         else if l' = l ∧ r' = r ∧ c' = c + 1 then par (gEast g d l r c) (gWest g d l r (c + 1))
         else 0) := by
  have hv : Valid g d (.box l r c) := ⟨hl, hr, hc⟩
  have hv' : Valid g d (.box l' r' c') := ⟨hl', hr', hc'⟩
  have hk : kindOf (typeAt g l) c = .solid := by
    revert hs; cases typeAt g l <;> simp [solidish, kindOf]
  have h := entry_neighbours wf a hv' hv (by simpa using hne)
  simp only [offset] at h
  rw [h]
  simp only [loOf, hiOf, hk, solidLo, solidHi, List.filter_append, List.map_append, List.sum_append, filter_opt, hsp, Bool.false_eq_true,
    false_and, if_false, link, Cell.box.injEq, wf.lastLayer, wf.lastRow, wf.lastColumn, add_zero]
  have e1 : (l ≠ 0 ∧ l - 1 = l' ∧ r = r' ∧ c = c') ↔ (l' + 1 = l ∧ r' = r ∧ c' = c) := by omega
  have e2 : (r ≠ 0 ∧ l = l' ∧ r - 1 = r' ∧ c = c') ↔ (l' = l ∧ r' + 1 = r ∧ c' = c) := by omega
  have e3 : (c ≠ 0 ∧ l = l' ∧ r = r' ∧ c - 1 = c') ↔ (l' = l ∧ r' = r ∧ c' + 1 = c) := by omega
  have e4 : (c ≠ d.nCols - 1 ∧ l = l' ∧ r = r' ∧ c + 1 = c') ↔ (l' = l ∧ r' = r ∧ c' = c + 1) := by omega
  have e5 : (r ≠ d.nRows - 1 ∧ l = l' ∧ r + 1 = r' ∧ c = c') ↔ (l' = l ∧ r' = r + 1 ∧ c' = c) := by omega
  have e6 : (l ≠ d.nLayers - 1 ∧ l + 1 = l' ∧ r = r' ∧ c = c') ↔ (l' = l + 1 ∧ r' = r ∧ c' = c) := by omega
  simp only [e1, e2, e3, e4, e5, e6]
  split_ifs <;> first | (exfalso; omega) | simp

end Verif.SM
