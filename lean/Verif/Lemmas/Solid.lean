import Verif.Lemmas.Heat

/-! Stacks without coolant: sign of the solutions of a step, and non-negative shares of power. -/

set_option linter.unusedSectionVars false
set_option linter.unusedSimpArgs false
set_option linter.unusedVariables false

namespace Verif.Emu
open Verif.Dim Verif.TG Verif.SM Verif.Flp Verif.Stk

variable {K : Type} [Field K] [LinearOrder K] [IsStrictOrderedRing K] {π : Type}

/-- Without coolant, if every equation of a step has a non-negative right-hand side then no unknown is negative. -/
theorem solid_nonneg {g : TGrid K} {d : Dims K} (wf : WF g d) (hp : Physical g d) (hc : g.channel = none) {a : Ana K}
    (hat : a.transient = true) (ha : 0 < a.stepTime) {x : Nat → K}
    (h : ∀ i, i < d.nCells → 0 ≤ ∑ j ∈ Finset.range d.nCells, (fillMatrix g a d).entry i j * x j) :
    ∀ i, i < d.nCells → 0 ≤ x i := by
  rw [nCells_eq wf] at *
  have hm := matrix_eq wf a
  rw [Net2.mat_eq, flow_zero wf hp hc a, add_zero] at hm
  have hok := netw_ok wf hp a
  have hent : ∀ (i j : Nat) (hi : i < size g d) (hj : j < size g d), (fillMatrix g a d).entry i j = (netw g a d).symm ⟨i, hi⟩ ⟨j, hj⟩ :=
    fun i j hi hj => congrFun (congrFun hm ⟨i, hi⟩) ⟨j, hj⟩
  have hoff : ∀ (i j : Fin (size g d)), i ≠ j → (netw g a d).symm i j ≤ 0 := fun i j hij => Net2.symm_off (contrib_all wf hp) hij
  have hrow : ∀ i : Fin (size g d), 0 < ∑ j, (netw g a d).symm i j := by
    intro i
    rw [Net2.symm_rowSum hok]
    refine base_pos wf hp hat ha (cellAt_valid wf i.2).1 ?_
    intro l r c he
    have hv := (cellAt_valid wf i.2).1
    rw [he] at hv
    have hs := solid_of_no_channel wf hp hc hv.1
    revert hs
    cases typeAt g l <;> simp [solidish, kindOf]
  intro i hi
  refine Net2.nonneg_of_mulVec_nonneg hoff hrow (x := fun j => x j) (fun k => ?_) ⟨i, hi⟩
  have := h k k.2
  rw [← sum_fin] at this
  refine le_of_le_of_eq this ?_
  simp only [Matrix.mulVec, dotProduct]
  exact Finset.sum_congr rfl fun j _ => by rw [hent k j k.2 j.2]

theorem no_coolant {g : TGrid K} {d : Dims K} (wf : WF g d) (hp : Physical g d) (hc : g.channel = none) {l c : Nat} (hl : l < d.nLayers) :
    ¬ IsCoolant g l c := by
  intro hco
  have hs := (coolant_iff wf hl).mp hco
  have : solidish (typeAt g l) = false := by
    have := hs.1; revert this; cases typeAt g l <;> simp [isCh, solidish]
  rw [solid_of_no_channel wf hp hc hl] at this
  cases this

theorem common_nonneg (a b c d : K) : 0 ≤ common a b c d := by
  unfold common; exact le_max_left _ _

theorem share_nonneg {d : Dims K} {rects : List (Rect K)} (h : ∀ e ∈ rects, InGrid d e) (r c : Nat) : 0 ≤ share d rects r c := by
  unfold share
  apply div_nonneg
  · refine List.sum_nonneg fun x hx => ?_
    obtain ⟨e, he, rfl⟩ := List.mem_map.mp hx
    exact mul_nonneg (common_nonneg _ _ _ _) (common_nonneg _ _ _ _)
  · refine List.sum_nonneg fun x hx => ?_
    obtain ⟨e, he, rfl⟩ := List.mem_map.mp hx
    exact mul_nonneg (h e he).length.le (h e he).width.le

/-- `σ` times the power in a cell is not negative if this holds for the elements. -/
theorem powerIn_sign {d : Dims K} {raws : List (RawEl K)} {els : List (FlpEl K)} (σ : K) (hin : ∀ raw ∈ raws, ∀ e ∈ raw.rects, InGrid d e)
    (h : ∀ e ∈ els, 0 ≤ σ * next e) (r c : Nat) : 0 ≤ σ * powerIn d raws els r c := by
  unfold powerIn
  rw [← List.sum_map_mul_left]
  refine List.sum_nonneg fun x hx => ?_
  obtain ⟨p, hp, rfl⟩ := List.mem_map.mp hx
  obtain ⟨h1, h2⟩ := List.of_mem_zip hp
  rw [← mul_assoc]
  exact mul_nonneg (h _ h2) (share_nonneg (hin _ h1) r c)

theorem powerIn_mono {d : Dims K} {raws : List (RawEl K)} {els els' : List (FlpEl K)} (hin : ∀ raw ∈ raws, ∀ e ∈ raw.rects, InGrid d e)
    (h : List.Forall₂ (fun e e' => next e ≤ next e') els els') (r c : Nat) : powerIn d raws els r c ≤ powerIn d raws els' r c := by
  unfold powerIn
  induction h generalizing raws with
  | nil => simp
  | cons hx _ ih =>
    cases raws with
    | nil => simp
    | cons raw raws =>
      simp only [List.zip_cons_cons, List.map_cons, List.sum_cons]
      refine add_le_add (mul_le_mul_of_nonneg_right hx (share_nonneg (hin raw (by simp)) r c)) (ih fun raw hr => hin raw (by simp [hr]))

/-- Capacities are not negative. -/
theorem cap_nonneg {g : TGrid K} {d : Dims K} (wf : WF g d) (hp : Physical g d) {i : Nat} (hi : i < d.nCells) : 0 ≤ (capList g d).getD i 0 := by
  obtain ⟨p, hv, rfl⟩ := exists_cell wf hi
  rw [caps_getD wf hv]
  cases p with
  | box l r c => exact capacity_nonneg wf hp hv.1 hv.2.1 hv.2.2
  | spr r c =>
    obtain ⟨s, m, ht, -, -⟩ := hv
    simp only [capOf, ht]
    exact (sprCapacity_pos wf hp ht).le

/-- Conductances to the ambient are not negative. -/
theorem amb_nonneg {g : TGrid K} {d : Dims K} (wf : WF g d) (hp : Physical g d) {l r c : Nat} (hl : l < d.nLayers) (hr : r < d.nRows) (hc : c < d.nCols) :
    0 ≤ ambientTerm g d l r c := by
  have h1 : (typeAt g l = .solidAmb ∨ typeAt g l = .sourceAmb) → 0 ≤ gTop g d l r c := by
    intro h
    refine (solid_top_pos wf hp hl hr hc ?_ (Or.inr (Or.inr h))).le
    rcases h with h | h <;> rw [h] <;> rfl
  have h2 : (typeAt g l = .solidPcb ∨ typeAt g l = .sourcePcb) → 0 ≤ gBottom g d l r c := by
    intro h
    refine (solid_bottom_pos wf hp hl hr hc ?_ (Or.inr h)).le
    rcases h with h | h <;> rw [h] <;> rfl
  unfold ambientTerm
  revert h1 h2
  cases typeAt g l <;> intro h1 h2 <;> first
    | exact h1 (Or.inl rfl)
    | exact h1 (Or.inr rfl)
    | exact h2 (Or.inl rfl)
    | exact h2 (Or.inr rfl)
    | exact le_refl _

end Verif.Emu
