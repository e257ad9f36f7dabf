import Verif.Lemmas.State
import Verif.Props.SystemMatrix

/-! Row sums and column sums of the system matrix. -/

set_option linter.unusedSectionVars false
set_option linter.unusedSimpArgs false
set_option linter.unusedVariables false

namespace Verif.SM
open Verif.Dim Verif.TG Verif.Stk Verif.Emu

variable {K : Type} [Field K] [LinearOrder K] [IsStrictOrderedRing K]

open Classical in
/-- Net transport out of a coolant cell, in the column of the cell. -/
noncomputable def transport (g : TGrid K) (d : Dims K) : Cell → K
  | .box l r c => if IsCoolant g l c then (if r = 0 then 0 else convective g d l c) - (if r = d.nRows - 1 then 0 else convective g d l c) else 0
  | .spr _ _ => 0

section
variable {g : TGrid K} {d : Dims K} (wf : WF g d)
include wf

theorem sum_opt {b : Prop} [Decidable b] (e : Ent K) : ((opt b e).map fun e => e.val + e.contrib).sum = if b then e.val + e.contrib else 0 := by
  unfold opt; split <;> simp

theorem coolant_kind {l c : Nat} (hl : l < d.nLayers) :
    IsCoolant g l c ↔ kindOf (typeAt g l) c = .liquid4 ∨ kindOf (typeAt g l) c = .liquid2 := by
  unfold IsCoolant
  cases typeAt g l <;> simp [kindOf, isChannelCol]
  by_cases h : c % 2 = 1 <;> simp [h]

theorem gNorth_coolant {l r c : Nat} (h : IsCoolant g l c) : gNorth g d l r c = convective g d l c ∧ gSouth g d l r c = - convective g d l c := by
  rcases h with h | h | h | ⟨h, h2⟩ <;> simp [gNorth, gSouth, h, isChannelCol]
  · simp [h2]

theorem transport_sum {p : Cell} (hp : Valid g d p) :
    ((loOf g d p ++ hiOf g d p).map fun e => e.val + e.contrib).sum = transport g d p := by
  have hlink : ∀ (p : Cell) (x : K), (link p x).val + (link p x).contrib = 0 := by intro p x; simp [link]
  have hflow : ∀ (p : Cell) (x : K), (flow p x).val + (flow p x).contrib = x := by intro p x; simp [flow]
  cases p with
  | spr r c =>
    obtain ⟨s, m, ht, -, -⟩ := hp
    simp only [loOf, hiOf, ht, sprLo, sprHi, transport, List.map_append, List.sum_append, sum_opt wf, hlink, ite_self, add_zero]
  | box l r c =>
    obtain ⟨hl, hr, hc⟩ := hp
    have hco := coolant_kind wf (c := c) hl
    unfold transport
    cases hk : kindOf (typeAt g l) c <;> rw [hk] at hco <;> simp only [reduceCtorEq, or_self, iff_false, false_or, or_false, or_true, true_or, iff_true] at hco <;>
      simp only [loOf, hiOf, hk, solidLo, solidHi, liquid4Lo, liquid4Hi, liquid2Lo, liquid2Hi, vwallLo, vwallHi, topWallLo, topWallHi,
        bottomWallLo, bottomWallHi, List.map_append, List.sum_append, sum_opt wf, hlink, hflow, ite_self, add_zero, zero_add, hco,
        if_false, if_true, List.map_nil, List.sum_nil]
    · obtain ⟨h1, h2⟩ := gNorth_coolant wf (r := r) hco
      rw [h1, h2, wf.lastRow]
      simp only [ne_eq, ite_not]; split_ifs <;> ring
    · obtain ⟨h1, h2⟩ := gNorth_coolant wf (r := r) hco
      rw [h1, h2, wf.lastRow]
      simp only [ne_eq, ite_not]; split_ifs <;> ring

theorem netw_transport (a : Ana K) (j : Fin (size g d)) :
    (((netw g a d).ents j).map fun e => e.2.1 + e.2.2).sum = transport g d (cellAt g d j) := by
  rw [← transport_sum wf (cellAt_valid wf j.2).1]
  simp only [netw, List.map_map]
  rfl

open Classical in
/-- Storage, conductance to the ambient and port term of a cell. -/
theorem base_eq (a : Ana K) {p : Cell} (hp : Valid g d p) : baseOf g a d p = storage a (capOf g d p) + (match p with
    | .box l r c => ambientTerm g d l r c + (if IsCoolant g l c ∧ (r = 0 ∨ r = d.nRows - 1) then convective g d l c else 0)
    | .spr _ _ => 0) := by
  cases p with
  | spr r c =>
    obtain ⟨s, m, ht, -, -⟩ := hp
    simp only [baseOf, ht, capOf, add_zero]
  | box l r c =>
    obtain ⟨hl, hr, hc⟩ := hp
    have hco := coolant_kind wf (c := c) hl
    have ham : (kindOf (typeAt g l) c ≠ .solid) → ambientTerm g d l r c = 0 := by
      unfold ambientTerm; cases typeAt g l <;> simp [kindOf]
    cases hk : kindOf (typeAt g l) c <;> rw [hk] at hco ham <;> simp only [reduceCtorEq, or_self, iff_false, false_or, or_false, or_true, true_or, iff_true] at hco <;>
      simp only [baseOf, hk, capOf, hco, false_and, true_and, if_false, add_zero]
    · rw [ham (by simp)]; unfold portTerm; rw [(gNorth_coolant wf (r := r) hco).1, wf.lastRow, zero_add]
    · rw [ham (by simp)]; unfold portTerm; rw [(gNorth_coolant wf (r := r) hco).1, wf.lastRow, zero_add]
    all_goals rw [ham (by simp), add_zero]

end

open Classical in
/-- What the rows of the first cells of a channel have besides storage; the factor 2 is there only if the channel has more than one row. -/
noncomputable def inletG (g : TGrid K) (d : Dims K) (l r c : Nat) : K :=
  if IsCoolant g l c ∧ r = 0 then (if d.nRows = 1 then convective g d l c else 2 * convective g d l c) else 0

open Classical in
/-- The same for the columns of the last cells of a channel. -/
noncomputable def outletG (g : TGrid K) (d : Dims K) (l r c : Nat) : K :=
  if IsCoolant g l c ∧ r = d.nRows - 1 then (if d.nRows = 1 then convective g d l c else 2 * convective g d l c) else 0

section
variable {g : TGrid K} {d : Dims K} (wf : WF g d)
include wf

/-- Column sums: no assumption on the values. -/
theorem col_sum (a : Ana K) {p : Cell} (hp : Valid g d p) :
    ∑ i ∈ Finset.range d.nCells, (fillMatrix g a d).entry i (offset d (spreaderOf g) p) = storage a (capOf g d p) + (match p with
      | .box l r c => ambientTerm g d l r c + outletG g d l r c
      | .spr _ _ => 0) := by
  have hj := offset_lt_size wf hp
  rw [nCells_eq wf, ← sum_fin]
  have h1 := Net2.mat_colSum (n := netw g a d) ⟨_, hj⟩
  rw [netw_transport wf a, ← matrix_eq wf a] at h1
  simp only [matrix, netw] at h1
  rw [cellAt_offset wf hp] at h1
  rw [h1, base_eq wf a hp]
  cases p with
  | spr r c => simp [transport]
  | box l r c =>
    simp only [transport, outletG]
    by_cases hc : IsCoolant g l c
    · have hR : 1 ≤ d.nRows := wf.acc.rows
      have hr := hp.2.1
      simp only [hc, true_and, if_true]
      clear h1
      split_ifs <;> first | (exfalso; omega) | ring
    · simp [hc]

/-- Row sums. -/
theorem row_sum (ph : Physical g d) (a : Ana K) {p : Cell} (hp : Valid g d p) :
    ∑ j ∈ Finset.range d.nCells, (fillMatrix g a d).entry (offset d (spreaderOf g) p) j = storage a (capOf g d p) + (match p with
      | .box l r c => ambientTerm g d l r c + inletG g d l r c
      | .spr _ _ => 0) := by
  have hj := offset_lt_size wf hp
  rw [nCells_eq wf, ← sum_fin]
  have h1 := Net2.mat_rowSum (netw_ok wf ph a) ⟨_, hj⟩
  rw [netw_transport wf a, ← matrix_eq wf a] at h1
  simp only [matrix, netw] at h1
  rw [cellAt_offset wf hp] at h1
  rw [h1, base_eq wf a hp]
  cases p with
  | spr r c => simp [transport]
  | box l r c =>
    simp only [transport, inletG]
    by_cases hc : IsCoolant g l c
    · have hR : 1 ≤ d.nRows := wf.acc.rows
      have hr := hp.2.1
      simp only [hc, true_and, if_true]
      clear h1
      split_ifs <;> first | (exfalso; omega) | ring
    · simp [hc]

/-- Every cell number is the position of a cell. -/
theorem exists_cell {i : Nat} (hi : i < d.nCells) : ∃ p, Valid g d p ∧ offset d (spreaderOf g) p = i := by
  rw [nCells_eq wf] at hi
  exact ⟨_, (cellAt_valid wf hi).1, (cellAt_valid wf hi).2⟩

end

end Verif.SM
