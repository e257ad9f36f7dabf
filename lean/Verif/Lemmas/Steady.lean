import Verif.Lemmas.Heat

/-! The steady matrix: one connected network, anchored to an ambient or to flowing coolant, has exactly one solution. -/

set_option linter.unusedSectionVars false
set_option linter.unusedSimpArgs false
set_option linter.unusedVariables false

namespace Verif.Net2

variable {K : Type} [Field K] [LinearOrder K] [IsStrictOrderedRing K]
variable {ι : Type} [Fintype ι] [DecidableEq ι]

open Finset Matrix

/-- The kernel of a network: zero at the anchored nodes, equal at linked nodes. -/
theorem kernel_of_network {A S F : Matrix ι ι K} (hA : A = S + F) (hs : ∀ i j, S i j = S j i) (hf : ∀ i j, F i j = - F j i)
    (hoff : ∀ i j, i ≠ j → S i j ≤ 0) (hrow : ∀ i, 0 ≤ ∑ j, S i j) {x : ι → K} (hx : A *ᵥ x = 0) :
    (∀ i, 0 < ∑ j, S i j → x i = 0) ∧ (∀ i j, S i j ≠ 0 → x i = x j) := by
  have q : ∑ i, x i * (S *ᵥ x) i = 0 := by
    have h0 : ∑ i, x i * (A *ᵥ x) i = 0 := by rw [hx]; simp
    rw [hA, Matrix.add_mulVec] at h0
    simp only [Pi.add_apply, mul_add, Finset.sum_add_distrib] at h0
    rw [quad_anti hf, add_zero] at h0
    exact h0
  have q2 := quad_symm hs x
  rw [q, mul_zero] at q2
  have n1 : ∀ i, 0 ≤ (∑ j, S i j) * x i ^ 2 := fun i => mul_nonneg (hrow i) (sq_nonneg _)
  have n2 : ∀ i j, 0 ≤ - (S i j * (x i - x j) ^ 2) := by
    intro i j
    by_cases h : i = j
    · subst h; simp
    · have := mul_nonneg (neg_nonneg.mpr (hoff i j h)) (sq_nonneg (x i - x j)); linarith
  have s1 : 0 ≤ ∑ i, (∑ j, S i j) * x i ^ 2 := Finset.sum_nonneg fun i _ => n1 i
  have s2 : 0 ≤ ∑ i, ∑ j, - (S i j * (x i - x j) ^ 2) :=
    Finset.sum_nonneg fun i _ => Finset.sum_nonneg fun j _ => n2 i j
  have s2' : ∑ i, ∑ j, - (S i j * (x i - x j) ^ 2) = - ∑ i, ∑ j, S i j * (x i - x j) ^ 2 := by
    simp only [Finset.sum_neg_distrib]
  have z1 : ∑ i, (∑ j, S i j) * x i ^ 2 = 0 := by linarith
  have z2 : ∑ i, ∑ j, - (S i j * (x i - x j) ^ 2) = 0 := by linarith
  refine ⟨fun i hi => ?_, fun i j hij => ?_⟩
  · have := (Finset.sum_eq_zero_iff_of_nonneg (fun i _ => n1 i)).mp z1 i (Finset.mem_univ i)
    rcases mul_eq_zero.mp this with h | h
    · exact absurd h hi.ne'
    · exact pow_eq_zero_iff (two_ne_zero) |>.mp h
  · have a1 := (Finset.sum_eq_zero_iff_of_nonneg
      (fun i _ => Finset.sum_nonneg fun j _ => n2 i j)).mp z2 i (Finset.mem_univ i)
    have a2 := (Finset.sum_eq_zero_iff_of_nonneg (fun j _ => n2 i j)).mp a1 j (Finset.mem_univ j)
    rw [neg_eq_zero] at a2
    rcases mul_eq_zero.mp a2 with h | h
    · exact absurd h hij
    · exact sub_eq_zero.mp (pow_eq_zero_iff (two_ne_zero) |>.mp h)

end Verif.Net2

namespace Verif.SM
open Verif.Dim Verif.TG Verif.Stk

variable {K : Type} [Field K] [LinearOrder K] [IsStrictOrderedRing K]

/-- No 2RM or pin fin channel lies directly on another one. -/
def NotStacked (g : TGrid K) (d : Dims K) : Prop := ∀ l, l + 1 < d.nLayers → ¬ (typeAt g l = .topWall ∧ typeAt g (l + 1) = .bottomWall)

/-- A cell loses heat to an ambient. -/
def ToAmbient : LType → Prop
  | .solidAmb | .sourceAmb | .solidPcb | .sourcePcb => True
  | _ => False

/-- Heat can leave the stack: a layer exchanges heat with an ambient, or coolant flows. -/
def HeatLeaves (g : TGrid K) (d : Dims K) : Prop :=
  (∃ l, l < d.nLayers ∧ ToAmbient (typeAt g l)) ∨
  (∃ l c, l < d.nLayers ∧ c < d.nCols ∧ IsCoolant g l c ∧ 0 < convective g d l c)

section
variable {g : TGrid K} {d : Dims K} (wf : WF g d) (ph : Physical g d)
include wf ph

/-- Every cell of a layer other than the first is linked to a cell of a lower layer in the same position. -/
theorem link_down (hns : NotStacked g d) {l r c : Nat} (hl : l < d.nLayers) (hr : r < d.nRows) (hc : c < d.nCols) (h0 : l ≠ 0) :
    ∃ l' x, l' < l ∧ 0 < x ∧ link (.box l' r c) x ∈ loOf g d (.box l r c) := by
  obtain ⟨k, rfl⟩ : ∃ k, l = k + 1 := ⟨l - 1, by omega⟩
  have hb := below_kinds wf hl c
  cases hk : kindOf (typeAt g (k + 1)) c with
  | solid =>
    refine ⟨k, solidBottom g d (k + 1) r c, by omega, ?_, by simp [loOf, hk, solidLo, mem_opt]⟩
    have p2 := down_pos wf ph hl hr hc (Or.inl hk)
    rw [hk] at hb
    have hb' : (kindOf (typeAt g k) c = .solid ∨ kindOf (typeAt g k) c = .liquid4) ∨ kindOf (typeAt g k) c = .top := by
      revert hb; cases kindOf (typeAt g k) c <;> simp
    rcases hb' with h | h
    · rw [(vertical_eq wf ph hl hr hc h (Or.inl hk)).2]
      exact par_pos ph (up_pos wf ph hl hr hc h) p2
    · unfold solidBottom
      rw [Nat.add_sub_cancel, if_pos (wall_zero wf ph (Or.inl h)).1]
      exact p2
  | liquid4 =>
    refine ⟨k, par (gBottom g d (k + 1) r c) (gTop g d k r c), by omega, ?_, by simp [loOf, hk, liquid4Lo, mem_opt]⟩
    have p2 := down_pos wf ph hl hr hc (Or.inr hk)
    rw [hk] at hb
    have hb' : (kindOf (typeAt g k) c = .solid ∨ kindOf (typeAt g k) c = .liquid4) := by
      revert hb; cases kindOf (typeAt g k) c <;> simp
    exact par_pos ph p2 (up_pos wf ph hl hr hc hb')
  | bottom =>
    refine ⟨k, gTop g d k r c, by omega, ?_, by simp [loOf, hk, bottomWallLo, mem_opt]⟩
    rw [hk] at hb
    have hb' : kindOf (typeAt g k) c = .solid ∨ kindOf (typeAt g k) c = .top := by
      revert hb; cases kindOf (typeAt g k) c <;> simp
    rcases hb' with h | h
    · exact up_pos wf ph hl hr hc (Or.inl h)
    · exact absurd ⟨kind_top wf h, kind_bottom wf hk⟩ (hns k hl)
  | vwall =>
    exact ⟨k, gBottom g d (k + 1) r c, by omega, (vwall_pos wf ph hl hr hc (kind_vwall wf hk)).2.2.1, by simp [loOf, hk, vwallLo, mem_opt]⟩
  | liquid2 =>
    obtain ⟨j, hj, -⟩ := liquid2_block wf hl hk
    refine ⟨j, gBottom g d (k + 1) r c, by omega, (liquid2_pos wf ph hl hr hc (kind_liquid2 wf hk)).2.2.1, ?_⟩
    have e : k + 1 - 2 = j := by omega
    simp [loOf, hk, liquid2Lo, mem_opt, e]
  | top =>
    obtain ⟨j, hj, hbj⟩ := top_block wf hl hk
    obtain ⟨-, -, h1, h2, h3⟩ := bottom_block wf (by omega) hbj
    refine ⟨j + 1, gTop g d (j + 1) r c, by omega, (vwall_pos wf ph (by omega) hr hc (kind_vwall wf h1)).2.1, ?_⟩
    have e : k + 1 - 2 = j + 1 := by omega
    simp [loOf, hk, topWallLo, mem_opt, e]
  | none => rw [hk] at hb; revert hb; cases kindOf (typeAt g k) c <;> simp

/-- In the first layer every cell is linked to the previous ones. -/
theorem link_first {r c : Nat} (hr : r < d.nRows) (hc : c < d.nCols) :
    (r ≠ 0 → ∃ x, 0 < x ∧ link (.box 0 (r - 1) c) x ∈ loOf g d (.box 0 r c)) ∧
    (c ≠ 0 → ∃ x, 0 < x ∧ link (.box 0 r (c - 1)) x ∈ loOf g d (.box 0 r c)) := by
  have hk := first_kind wf c
  have hL := wf.L1
  refine ⟨fun h => ⟨par (gSouth g d 0 r c) (gNorth g d 0 (r - 1) c), ?_, ?_⟩,
    fun h => ⟨par (gWest g d 0 r c) (gEast g d 0 r (c - 1)), ?_, ?_⟩⟩
  · exact par_pos ph (solid_pos wf ph (by omega) hr hc wf.first).2.2.1 (solid_pos wf ph (by omega) (by omega) hc wf.first).2.1
  · simp [loOf, hk, solidLo, mem_opt, h]
  · exact par_pos ph (solid_pos wf ph (by omega) hr hc wf.first).2.2.2.2 (solid_pos wf ph (by omega) hr (by omega) wf.first).2.2.2.1
  · simp [loOf, hk, solidLo, mem_opt, h]

/-- Without a spreader, the steady matrix has exactly one solution for every right-hand side. -/
theorem steady_unique_wf (hns : NotStacked g d) (hh : HeatLeaves g d) (hsp : spreaderOf g = none) (a : Ana K) (hat : a.transient = false) (b : Nat → K) :
    OneSolution d.nCells (fillMatrix g a d).entry b := by
  rw [nCells_eq wf]
  have hm := matrix_eq wf a
  rw [Net2.mat_eq] at hm
  have hok := netw_ok wf ph a
  refine one_of_unique _ _ ?_
  have : (fun (i j : Fin (size g d)) => (fillMatrix g a d).entry i j) = (netw g a d).symm + (netw g a d).flow := hm
  rw [this]
  refine Net2.unique_of_injective (fun x hx => ?_) _
  obtain ⟨k1, k2⟩ := Net2.kernel_of_network rfl (fun i j => Net2.symm_symm hok i j) (fun i j => Net2.flow_anti hok i j)
    (fun i j hij => Net2.symm_off (contrib_all wf ph) hij) (fun i => by
      rw [Net2.symm_rowSum hok]
      exact base_nonneg wf ph (fun h => by rw [hat] at h; cases h) (cellAt_valid wf i.2).1) hx
  let X : Cell → K := fun p => if h : offset d (spreaderOf g) p < size g d then x ⟨_, h⟩ else 0
  have hX : ∀ i, x i = X (cellAt g d i) := by
    intro i
    have e := (cellAt_valid wf i.2).2
    have : offset d (spreaderOf g) (cellAt g d i) < size g d := by rw [e]; exact i.2
    show _ = dite _ _ _
    rw [dif_pos this]
    congr 1
    exact Fin.ext e.symm
  have hlink : ∀ p q y, Valid g d p → Valid g d q → 0 < y → link q y ∈ loOf g d p → X p = X q := by
    intro p q y hp hq hy hmem
    have o1 := offset_lt_size wf hp
    have o2 := offset_lt_size wf hq
    have hmem' : (rowOf g d ⟨_, o1⟩ q, (link q y).val, y) ∈ (netw g a d).ents ⟨_, o1⟩ := by
      refine List.mem_map.mpr ⟨link q y, ?_, rfl⟩
      simp only [cellAt_offset wf hp]
      exact List.mem_append_left _ hmem
    have hs := Net2.symm_entry hok hmem'
    simp only at hs
    have hne : (netw g a d).symm (rowOf g d ⟨_, o1⟩ q) ⟨_, o1⟩ ≠ 0 := by rw [hs]; exact neg_ne_zero.mpr hy.ne'
    have hr : rowOf g d ⟨_, o1⟩ q = ⟨_, o2⟩ := Fin.ext (rowOf_val wf _ hq)
    rw [hr] at hne
    have := k2 _ _ hne
    show dite _ _ _ = dite _ _ _
    rw [dif_pos o1, dif_pos o2, this]
  have hL := wf.L1
  have hv : ∀ r c, r < d.nRows → c < d.nCols → ∀ l, l < d.nLayers → X (.box l r c) = X (.box 0 r c) := by
    intro r c hr hc l
    induction l using Nat.strong_induction_on with
    | _ l ih =>
      intro hl
      by_cases h0 : l = 0
      · rw [h0]
      · obtain ⟨l', y, h1, h2, h3⟩ := link_down wf ph hns hl hr hc h0
        rw [hlink (.box l r c) (.box l' r c) y ⟨hl, hr, hc⟩ ⟨by omega, hr, hc⟩ h2 h3, ih l' h1 (by omega)]
  have hcol : ∀ r, r < d.nRows → ∀ c, c < d.nCols → X (.box 0 r c) = X (.box 0 r 0) := by
    intro r hr c
    induction c with
    | zero => intro _; rfl
    | succ c ih =>
      intro hc
      obtain ⟨y, h1, h2⟩ := (link_first wf ph hr hc).2 (by omega)
      rw [Nat.add_sub_cancel] at h2
      rw [hlink (.box 0 r (c + 1)) (.box 0 r c) y ⟨by omega, hr, hc⟩ ⟨by omega, hr, by omega⟩ h1 h2, ih (by omega)]
  have hrow : ∀ r, r < d.nRows → X (.box 0 r 0) = X (.box 0 0 0) := by
    intro r
    have hc := wf.acc.cols
    induction r with
    | zero => intro _; rfl
    | succ r ih =>
      intro hr
      obtain ⟨y, h1, h2⟩ := (link_first wf ph (c := 0) hr (by omega)).1 (by omega)
      rw [Nat.add_sub_cancel] at h2
      rw [hlink (.box 0 (r + 1) 0) (.box 0 r 0) y ⟨by omega, hr, by omega⟩ ⟨by omega, by omega, by omega⟩ h1 h2, ih (by omega)]
  have hall : ∀ p, Valid g d p → X p = X (.box 0 0 0) := by
    intro p hp
    cases p with
    | spr r c =>
      obtain ⟨s, m, ht, -⟩ := hp
      simp [spreaderOf, ht] at hsp
    | box l r c => rw [hv r c hp.2.1 hp.2.2 l hp.1, hcol r hp.2.1 c hp.2.2, hrow r hp.2.1]
  have hz : ∃ p, Valid g d p ∧ X p = 0 := by
    have hzero : ∀ p, Valid g d p → 0 < baseOf g a d p → X p = 0 := by
      intro p hp hb
      have o1 := offset_lt_size wf hp
      show dite _ _ _ = _
      rw [dif_pos o1]
      apply k1
      rw [Net2.symm_rowSum hok]
      show 0 < baseOf g a d (cellAt g d _)
      rw [cellAt_offset wf hp]; exact hb
    have hR := wf.acc.rows
    have hC := wf.acc.cols
    have hst : ∀ y : K, storage a y = 0 := fun y => by simp [storage, hat]
    rcases hh with ⟨l, hl, ht⟩ | ⟨l, c, hl, hc, hco, hpos⟩
    · refine ⟨.box l 0 0, ⟨hl, hR, hC⟩, hzero _ ⟨hl, hR, hC⟩ ?_⟩
      rw [base_eq wf a (p := .box l 0 0) ⟨hl, hR, hC⟩, hst, zero_add]
      simp only
      have hnc : ¬ IsCoolant g l 0 := by
        intro h
        rcases h with h | h | h | ⟨h, -⟩ <;> rw [h] at ht <;> exact ht
      rw [if_neg (fun h => hnc h.1), add_zero]
      have hso : solidish (typeAt g l) = true := by revert ht; cases typeAt g l <;> simp [ToAmbient, solidish]
      have ht1 := solid_top_pos wf ph hl hR hC hso
      have hb1 := solid_bottom_pos wf ph hl hR hC hso
      unfold ambientTerm
      cases hty : typeAt g l <;> rw [hty] at ht <;> simp only [ToAmbient] at ht
      · exact ht1 (Or.inr (Or.inr (Or.inl hty)))
      · exact ht1 (Or.inr (Or.inr (Or.inr hty)))
      · exact hb1 (Or.inr (Or.inl hty))
      · exact hb1 (Or.inr (Or.inr hty))
    · refine ⟨.box l 0 c, ⟨hl, hR, hc⟩, hzero _ ⟨hl, hR, hc⟩ ?_⟩
      rw [base_eq wf a (p := .box l 0 c) ⟨hl, hR, hc⟩, hst, zero_add]
      simp only
      rw [if_pos ⟨hco, Or.inl rfl⟩]
      have : ambientTerm g d l 0 c = 0 := by
        unfold ambientTerm
        rcases hco with h | h | h | ⟨h, -⟩ <;> rw [h]
      rw [this, zero_add]; exact hpos
  obtain ⟨p, hp, hp0⟩ := hz
  funext i
  rw [hX i, hall _ (cellAt_valid wf i.2).1, ← hall p hp, hp0]
  rfl

omit ph in
/-- The transient matrix is the steady one plus the storage on the diagonal. -/
theorem transient_entry (a : Ana K) (hat : a.transient = true) {i j : Nat} (hi : i < d.nCells) (hj : j < d.nCells) :
    (fillMatrix g a d).entry i j = (fillMatrix g ⟨false, a.stepTime⟩ d).entry i j +
      if i = j then (Emu.capList g d).getD i 0 / a.stepTime else 0 := by
  rw [nCells_eq wf] at hi hj
  have h1 := congrFun (congrFun (matrix_eq wf a) ⟨i, hi⟩) ⟨j, hj⟩
  have h2 := congrFun (congrFun (matrix_eq wf ⟨false, a.stepTime⟩) ⟨i, hi⟩) ⟨j, hj⟩
  have e1 : matrix g a d ⟨i, hi⟩ ⟨j, hj⟩ = (fillMatrix g a d).entry i j := rfl
  have e2 : matrix g ⟨false, a.stepTime⟩ d ⟨i, hi⟩ ⟨j, hj⟩ = (fillMatrix g ⟨false, a.stepTime⟩ d).entry i j := rfl
  rw [← e1, ← e2, h1, h2]
  unfold Net2.Netw.mat
  have hp : Net2.pick (netw g a d) (fun e => e.2.1) ⟨i, hi⟩ ⟨j, hj⟩ = Net2.pick (netw g ⟨false, a.stepTime⟩ d) (fun e => e.2.1) ⟨i, hi⟩ ⟨j, hj⟩ := rfl
  have hen : (netw g a d).ents ⟨j, hj⟩ = (netw g ⟨false, a.stepTime⟩ d).ents ⟨j, hj⟩ := rfl
  rw [hp, hen]
  by_cases hij : i = j
  · subst hij
    rw [if_pos rfl, if_pos rfl, if_pos rfl]
    show baseOf g a d (cellAt g d i) + _ + _ = baseOf g _ d (cellAt g d i) + _ + _ + _
    have hv := cellAt_valid wf hi
    have hcap := Emu.caps_getD wf hv.1
    rw [hv.2] at hcap
    rw [base_eq wf a hv.1, base_eq wf ⟨false, a.stepTime⟩ hv.1, hcap]
    have s1 : storage a (Emu.capOf g d (cellAt g d i)) = Emu.capOf g d (cellAt g d i) / a.stepTime := by simp [storage, hat]
    have s2 : storage (⟨false, a.stepTime⟩ : Ana K) (Emu.capOf g d (cellAt g d i)) = 0 := by simp [storage]
    rw [s1, s2]
    ring
  · rw [if_neg hij, if_neg (by intro h; exact hij (congrArg Fin.val h)), if_neg (by intro h; exact hij (congrArg Fin.val h))]
    ring

end
end Verif.SM
