import Verif.Props.ProgramNuSteady
import Verif.Props.ProgramNuValuesEx

/-! **C72** Examples: files that meet the hypotheses of the theorems, from the text on. -/

set_option linter.unusedSimpArgs false
set_option linter.unusedVariables false

namespace Verif.Prog
open Verif.Gram Verif.Dim Verif.TG Verif.SM Verif.Stk Verif.FE Verif.Emu Verif.Flp

/-- A chip with a channel in the 2RM model, in steady state. -/
def nuRest : StackD := { nuWet2 with points := [.tcoolant "CH" "c.txt" .maximum .unsaid], solver := ⟨none, 300, none⟩ }
theorem nuRest_sensible : Sensible eff1 nuFiles nuRest := by
  have h := nuWet2_sensible
  exact ⟨h.1, h.2, h.3, h.4, h.5, h.6, h.7, h.8, h.9, h.10, h.11⟩
theorem nuRest_division : GoodDivision nuFiles nuRest := ⟨nuWet2_division.1, nuWet2_division.2, nuWet2_division.3, nuWet2_division.4⟩
theorem nuRest_raster : OnRaster (1 / 60) nuFiles nuRest := by
  have h := nuWet2_raster
  exact ⟨h.1, h.2, h.3, h.4, h.5⟩
theorem nuRest_runs : ∃ w D an G s0 log s', ExampleNU nuRest w D an G s0 log s' := by
  refine nu_runs ⟨by decide, by decide, by decide⟩ (by decide +kernel) nuRest_sensible ?_ ?_ (by decide +kernel) (by decide) (by simp [nuRest, nuWet2, wet2Doc, exDoc]) ?_ ?_
  · intro id ref p o h
    simp [nuRest, nuWet2] at h
    exact .inl h.2.2.1
  · simp [nuRest, nuWet2, wet2Doc, exDoc]
  · simp [nuRest, ShortNames]
  · intro step slot h; cases h

theorem duo_full {s : StackD} (hx : s.dims = nuDims) (h : ∀ el fs, FloorplanOf nuFiles s el fs → fs = duo) : NoGaps nuFiles s := by
  intro x y x1 x2 y1 y2 el fs hf
  rw [h el fs hf]
  rw [hx] at x2 y2
  have x2 : x < 1000 := x2
  have y2 : y < 2000 := y2
  unfold hits duo
  refine List.countP_pos_iff.mpr ?_
  by_cases hy : y < 1000
  · exact ⟨⟨0, 0, 1000, 1000⟩, by simp [firstRect], decide_eq_true ⟨x1, by norm_num; linarith, y1, by norm_num; linarith⟩⟩
  · exact ⟨⟨0, 1000, 1000, 1000⟩, by simp [firstRect], decide_eq_true ⟨x1, by norm_num; linarith, not_lt.mp hy, by norm_num; linarith⟩⟩

theorem rest_gaps {w : World Unit} {D an G s0 log s'} (E : ExampleNU nuRest w D an G s0 log s') : NoGaps (filesOf w.read) nuRest := by
  intro x y x1 x2 y1 y2 el fs hf
  refine duo_full (s := nuRest) rfl ?_ x y x1 x2 y1 y2 el fs (E.floorplan hf)
  rintro el fs ⟨ref, p, o, h1, h2⟩
  simp [nuRest, nuWet2] at h1
  obtain ⟨-, -, rfl, -⟩ := h1
  simp [nuFiles] at h2
  exact h2.symm

theorem rest_double : NoDoubleChannel nuRest := by
  intro i a b h1 h2
  match i, h1, h2 with
  | 0, h1, _ => simp [nuRest, nuWet2] at h1
  | 1, _, h2 => simp [nuRest, nuWet2] at h2
  | 2, h1, _ => simp [nuRest, nuWet2] at h1
  | i + 3, h1, _ => simp [nuRest, nuWet2] at h1

/-- A steady state with a channel in the 2RM model: found, with four watts going in, and any other run on the same files with a correct and complete solver
ends with the same temperatures. -/
example : ∃ w D an G s0 log s', ExampleNU nuRest w D an G s0 log s' ∧ (NU.steadyNU (configNU w an) s0).1 = .endOfSimulation ∧
    4 + ((G.cells.map (NU.fromSinks G)).sum - ∑ i ∈ Finset.range G.cells.length, (G.cells[i]?).elim 0 (NU.toAmbient G) * s'.temps.getD i 0) +
      NU.overColumns G (nElems D) (fun n ch c => SM.stream ch G.d c * (ch.coolant.tIn - s'.temps.getD (G.at (SM.coolantLayer n.elem ch) (G.d.nRows - 1) c) 0)) = 0 ∧
    ∀ solve log' t0 t', SessionNU { w with solve := solve } "s.stk" nuRest D an G t0 log' t' →
      NU.CompleteNU (configNU { w with solve := solve } an) → NU.CorrectNU (configNU { w with solve := solve } an) → t'.temps = s'.temps := by
  obtain ⟨w, D, an, G, s0, log, s', E⟩ := nuRest_runs
  have hp : filePowers nuFiles nuRest = [[1, 2], [3]] := by decide +kernel
  have hpw : ∀ t ∈ filePowers (filesOf w.read) nuRest, t ≠ [] := by rw [E.powers, hp]; simp
  obtain ⟨h1, -, h2⟩ := C72_program_steady E.session E.sensible (E.division nuRest_division) E.times10 rfl rfl (E.sharp nuRest_raster) rest_double
    (rest_gaps E) E.complete E.correct hpw
  refine ⟨w, D, an, G, s0, log, s', E, h1, ?_, fun solve log' t0 t' h' hc1 hc2 => ?_⟩
  · rw [E.powers, hp] at h2
    norm_num at h2 ⊢
    linarith
  · exact C72_program_unique E.session h' rfl rfl E.sensible (E.division nuRest_division) E.times10 E.times10 rfl rfl (E.sharp nuRest_raster) rest_double
      (rest_gaps E) E.complete hc1 E.correct hc2 hpw

end Verif.Prog
