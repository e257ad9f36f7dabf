import Verif.Props.Coolant

/-! **C57** Heat stored in the walls of a channel: layers without coolant, and columns without coolant of the 4RM model. -/

set_option linter.unusedSectionVars false
set_option linter.unusedSimpArgs false
set_option linter.unusedVariables false

namespace Verif.SM
open Verif.Dim Verif.TG Verif.Stk Verif.Emu

variable {K φ : Type} [Field K] [LinearOrder K] [IsStrictOrderedRing K]
variable {d0 : Dims K} {decl : Option (Channel K)} {rs : List (Raw K φ)} {p : Parsed K φ} {g : TGrid K}

/-! ## Specification -/

/-- Heat capacity of a cell without coolant in the `k`-th layer of a channel: solid material in the 4RM model; in the others the material between the channels
(or the pins) is the second layer, and the layers below and above are surfaces. -/
def wallCapacity (ch : Channel K) (d : Dims K) (k r c : Nat) : K :=
  if ch.model = .mc4rm then ch.wallMat.vhc * (areaZ d r c * ch.height)
  else if k = 1 then ch.wallMat.vhc * ((1 - ch.porosity) * (areaZ d r c * ch.height)) else 0

/-- A cell of the `k`-th layer of a channel without coolant. -/
def Dry (ch : Channel K) (k c : Nat) : Prop := if ch.model = .mc4rm then c % 2 = 0 else k ≠ 2

/-! ## The theorem -/

/-- **C57 (walls)** A cell of a channel without coolant stores the heat of the wall material in it and exchanges heat with other cells only: nothing else is left in
its column or its row of the matrix. -/
theorem C57_stored_in_walls (h : BuiltFrom d0 decl rs p g) (hp : Physical g p.dims) (a : Ana K) {e : SElem K φ} (he : e ∈ p.elems)
    {ch : Channel K} (hb : e.body = .channel ch) {k r c : Nat} (hk : k < chLayers ch) (hr : r < p.dims.nRows) (hc : c < p.dims.nCols) (hd : Dry ch k c) :
    ∑ i ∈ Finset.range p.dims.nCells, (fillMatrix g a p.dims).entry i (offInStack p.dims (e.offset + k) r c) = storage a (wallCapacity ch p.dims k r c) ∧
    ∑ j ∈ Finset.range p.dims.nCells, (fillMatrix g a p.dims).entry (offInStack p.dims (e.offset + k) r c) j = storage a (wallCapacity ch p.dims k r c) := by
  have wf := wf_of_built h.built
  obtain ⟨hch, -, hl, hall⟩ := channel_at h he hb
  have hm : ch.model ≠ .none := (coolant_at h he hb).2.2.2.2
  have hl' : e.offset + k < p.dims.nLayers := by omega
  have hv : Valid g p.dims (.box (e.offset + k) r c) := ⟨hl', hr, hc⟩
  have key : ¬ IsCoolant g (e.offset + k) c ∧ ambientTerm g p.dims (e.offset + k) r c = 0 ∧
      capacity g p.dims (e.offset + k) r c = wallCapacity ch p.dims k r c := by
    unfold Dry at hd
    unfold IsCoolant ambientTerm capacity wallCapacity
    have hvhc : ∀ l, layerAt g l = wallLayer ch → heatCap g p.dims l r c = ch.wallMat.vhc := by
      intro l hl; unfold heatCap; rw [hl]; rfl
    unfold chLayers at hk
    cases hmm : ch.model <;> simp only [hmm] at hd hk hall hm
    · exact absurd rfl hm
    · obtain ⟨t1, t2, t3⟩ := hall k .ch4rm (by simp at hk; subst hk; rfl)
      have hcol : isChannelCol c = false := by simp at hd; simp [isChannelCol, hd]
      rw [t1, t3, hvhc _ t2]
      refine ⟨by simp at hd ⊢; omega, by simp, ?_⟩
      simp [hcol, areaZ]; ring
    all_goals
      simp at hk hd
      obtain rfl | rfl | rfl : k = 0 ∨ k = 1 ∨ k = 3 := by omega
      · obtain ⟨t1, t2, t3⟩ := hall 0 .bottomWall rfl
        rw [t1]; simp
      · obtain ⟨t1, t2, t3⟩ : typeAt g (e.offset + 1) = _ ∧ _ := by first | exact hall 1 .vwallCh rfl | exact hall 1 .vwallPf rfl
        rw [t1, t3, hvhc _ t2]
        simp [areaZ, chan, hch]; ring
      · obtain ⟨t1, t2, t3⟩ := hall 3 .topWall rfl
        rw [t1]; simp
  obtain ⟨k1, k2, k3⟩ := key
  constructor
  · have := col_sum wf a hv
    simp only [offset, capOf, k3, k2, outletG, k1, false_and, if_false, add_zero] at this
    exact this
  · have := row_sum wf hp a hv
    simp only [offset, capOf, k3, k2, inletG, k1, false_and, if_false, add_zero] at this
    exact this

example (a : Ana ℚ) := (C57_stored_in_walls ex4From ex4Physical a ex4_mem rfl (k := 0) (r := 0) (c := 2) (by decide) (by decide) (by decide) rfl).1
example (a : Ana ℚ) := (C57_stored_in_walls exFrom exPhysical a ex2_mem rfl (k := 1) (r := 0) (c := 2) (by decide) (by decide) (by decide) (by unfold Dry; decide)).2

end Verif.SM
