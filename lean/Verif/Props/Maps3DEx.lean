import Verif.Props.Maps3D
import Verif.Props.ProgramNuHeatEx

/-! **C76** Examples: files that meet the hypotheses of the theorems, from the text on. -/

set_option linter.unusedSectionVars false
set_option linter.unusedSimpArgs false
set_option linter.unusedVariables false
set_option linter.unreachableTactic false
set_option linter.unusedTactic false

namespace Verif.Prog
open Verif.Gram Verif.Dim Verif.TG Verif.SM Verif.Stk Verif.FE Verif.Emu Verif.Flp

/-- The chip of the examples with other inspection points. -/
def mapDoc (ps : List PointD) : StackD := { nuDoc (some (1 / 50, 1 / 5)) with points := ps }

theorem mapDoc_sensible (ps) : Sensible eff1 nuFiles (mapDoc ps) := by
  have h := nuDoc_sensible (some (1 / 50, 1 / 5))
  exact ⟨h.1, h.2, h.3, h.4, h.5, h.6, h.7, h.8, h.9, h.10, h.11⟩
theorem mapDoc_division (ps) : GoodDivision nuFiles (mapDoc ps) :=
  ⟨(nuDoc_division (some (1 / 50, 1 / 5))).1, (nuDoc_division (some (1 / 50, 1 / 5))).2, (nuDoc_division (some (1 / 50, 1 / 5))).3, (nuDoc_division (some (1 / 50, 1 / 5))).4⟩
theorem mapDoc_raster (ps) : OnRaster (1 / 60) nuFiles (mapDoc ps) := by
  have h := nuDoc_raster (some (1 / 50, 1 / 5))
  exact ⟨h.1, h.2, h.3, h.4, h.5⟩
theorem mapDoc_powers (ps) : filePowers nuFiles (mapDoc ps) = [[1, 2], [3]] := by
  have : filePowers nuFiles (nuDoc (some (1 / 50, 1 / 5))) = [[1, 2], [3]] := by decide +kernel
  exact this

/-- Four points with maps of their own; two with the same name; one in a directory. -/
def ownMaps : List PointD := [.t3d "a.vtk" .step, .t3d "b.vtk" .slot, .t3d "c.vtk" .unsaid, .tmap "L" "m.txt" .step]
def sameMaps : List PointD := [.t3d "a.vtk" .step, .t3d "a.vtk" .slot]
def awayMaps : List PointD := [.t3d "./maps/a.vtk" .step]

macro "runsMaps" n:ident : tactic => `(tactic| (
  refine nu_runs ⟨by decide, by decide, by decide⟩ (by decide +kernel) (mapDoc_sensible _) ?_ ?_ (by decide +kernel) (by decide) (by simp [mapDoc, nuDoc, dryDoc, exDoc]) ?_ ?_
  · intro id ref p o h
    simp [mapDoc, nuDoc] at h
    exact .inl h.2.2.1
  · simp [mapDoc, nuDoc, dryDoc, exDoc]
  · simp [mapDoc, $n:ident, ShortNames]
    try decide
  · intro step slot h
    cases h
    exact decimalsNU (nu_single (.inl (mapDoc_powers _)))))

theorem own_runs : ∃ w D an G s0 log s', ExampleNU (mapDoc ownMaps) w D an G s0 log s' := by runsMaps ownMaps
theorem same_runs : ∃ w D an G s0 log s', ExampleNU (mapDoc sameMaps) w D an G s0 log s' := by runsMaps sameMaps
theorem away_runs : ∃ w D an G s0 log s', ExampleNU (mapDoc awayMaps) w D an G s0 log s' := by runsMaps awayMaps

section
variable {ps : List PointD} {w : World Unit} {D : Desc NFlps} {an : Analysis ℚ} {G : NU.Grid ℚ} {s0 : NU.NSim ℚ Unit} {log : NLog} {s' : NU.NSim ℚ Unit}

theorem map_few (E : ExampleNU (mapDoc ps) w D an G s0 log s') : ∃ t ∈ filePowers (filesOf w.read) (mapDoc ps), t.length * an.slotLength < 2 ^ 32 := by
  rw [E.powers, mapDoc_powers, nu_slot E rfl]
  exact ⟨[3], by simp, by norm_num⟩

theorem map_ten (E : ExampleNU (mapDoc ps) w D an G s0 log s') {n : Nat} (h : MadeSteps w an s0 n) : n = 10 := by
  obtain ⟨w1, w2, w3⟩ := E.whole (mapDoc_division _) (mapDoc_raster _) rfl (.inl (mapDoc_powers _))
  obtain ⟨h1, h2⟩ := h
  rcases lt_trichotomy n 10 with hn | hn | hn
  · have a := w1 n hn
    rcases h2 with h2 | h2 <;> rw [h2] at a <;> simp [Succeeded] at a
  · exact hn
  · have a := h1 10 hn
    rw [w2] at a
    simp [Succeeded] at a
end

theorem stem_a : stem "a.vtk" = ['a'] := by decide
theorem stem_b : stem "b.vtk" = ['b'] := by decide
theorem no_a : NoDigit "a.vtk" := by unfold NoDigit; rw [stem_a]; decide
theorem no_b : NoDigit "b.vtk" := by unfold NoDigit; rw [stem_b]; decide

theorem other_name {f g : String} {a b : Char} {l m : List Char} (hf : stem f = a :: l) (hg : g.toList = b :: m) (h : b ≠ a) (k : Nat) : g ≠ numbered f k := by
  intro e
  have e := congrArg String.toList e
  rw [numbered_list, hf, hg] at e
  exact h (List.cons.inj e).1

theorem list_a : "a.vtk".toList = ['a', '.', 'v', 't', 'k'] := by decide
theorem list_b : "b.vtk".toList = ['b', '.', 'v', 't', 'k'] := by decide
theorem list_c : "c.vtk".toList = ['c', '.', 'v', 't', 'k'] := by decide
theorem list_m : "m.txt".toList = ['m', '.', 't', 'x', 't'] := by decide

theorem own_step : ∀ y ∈ ownMaps, y ≠ .t3d "a.vtk" .step → KeepsOff "a.vtk" y := by
  intro y hy hne
  simp only [ownMaps, List.mem_cons, List.not_mem_nil, or_false] at hy
  rcases hy with rfl | rfl | rfl | rfl
  · exact absurd rfl hne
  · exact ⟨by rw [stem_a, stem_b]; decide, no_b⟩
  · exact other_name stem_a list_c (by decide)
  · exact other_name stem_a list_m (by decide)

theorem own_slot : ∀ y ∈ ownMaps, y ≠ .t3d "b.vtk" .slot → KeepsOff "b.vtk" y := by
  intro y hy hne
  simp only [ownMaps, List.mem_cons, List.not_mem_nil, or_false] at hy
  rcases hy with rfl | rfl | rfl | rfl
  · exact ⟨by rw [stem_a, stem_b]; decide, no_a⟩
  · exact absurd rfl hne
  · exact other_name stem_b list_c (by decide)
  · exact other_name stem_b list_m (by decide)

theorem own_last : ∀ y ∈ ownMaps, y ≠ .t3d "c.vtk" .unsaid → KeepsOffLast "c.vtk" y := by
  intro y hy hne
  simp only [ownMaps, List.mem_cons, List.not_mem_nil, or_false] at hy
  rcases hy with rfl | rfl | rfl | rfl
  · exact fun k => (other_name stem_a list_c (by decide) k).symm
  · exact fun k => (other_name stem_b list_c (by decide) k).symm
  · exact absurd rfl hne
  · show "m.txt" ≠ "c.vtk"; decide

theorem axes_c : ¬ IsAxes "c.vtk" := by
  rintro ⟨el, h⟩
  have h := congrArg String.toList h
  rw [list_c, String.toList_append, String.toList_append, show "xyaxis_".toList = ['x', 'y', 'a', 'x', 'i', 's', '_'] by decide] at h
  simp at h

theorem numbered_a (k : Nat) : numbered "a.vtk" k = "a" ++ toString k ++ ".vtk" := by
  unfold numbered; rw [stem_a]
theorem numbered_b (k : Nat) : numbered "b.vtk" k = "b" ++ toString k ++ ".vtk" := by
  unfold numbered; rw [stem_b]

/-- Ten steps, one slot: `a1.vtk` to `a10.vtk`, `b1.vtk` and `c.vtk` have the twelve maps. -/
example : ∃ w D an G s0 log s', ExampleNU (mapDoc ownMaps) w D an G s0 log s' ∧
    (∀ k, k < 10 → contentsNU ("a" ++ toString (k + 1) ++ ".vtk") (buildLog D ++ log) = [solidOf G (NU.afterSteps (configNU w an) s0 (k + 1))]) ∧
    contentsNU "b1.vtk" (buildLog D ++ log) = [solidOf G (NU.afterSteps (configNU w an) s0 10)] ∧
    contentsNU "c.vtk" (buildLog D ++ log) = [solidOf G s'] := by
  obtain ⟨w, D, an, G, s0, log, s', E⟩ := own_runs
  have hsl := nu_slot E rfl
  obtain ⟨n, h1, h2⟩ := C76_step E.session E.sensible (E.division (mapDoc_division _)) E.times10 rfl (map_few E) (f := "a.vtk")
    (by simp [mapDoc, ownMaps]) no_a own_step
  obtain rfl := map_ten E h1
  obtain ⟨n, h3, h4⟩ := C76_slot E.session E.sensible (E.division (mapDoc_division _)) E.times10 rfl (map_few E) (f := "b.vtk")
    (by simp [mapDoc, ownMaps]) no_b own_slot
  obtain rfl := map_ten E h3
  have h5 := C76_end E.session E.sensible (E.division (mapDoc_division _)) E.times10 (fun _ => map_few E) (f := "c.vtk") (wh := .unsaid) (.inr rfl)
    (by simp [mapDoc, ownMaps]) axes_c own_last
  refine ⟨w, D, an, G, s0, log, s', E, fun k hk => ?_, ?_, h5⟩
  · rw [← numbered_a]; exact h2 k hk
  · have := h4 0 (by rw [hsl]) (by rw [hsl]; norm_num)
    rw [numbered_b, hsl] at this
    exact this

/-- With the same name, `a1.vtk` ends with the map of the tenth step; `a2.vtk` … `a10.vtk` are those of the steps. -/
example : ∃ w D an G s0 log s', ExampleNU (mapDoc sameMaps) w D an G s0 log s' ∧
    contentsNU "a1.vtk" (buildLog D ++ log) = [solidOf G (NU.afterSteps (configNU w an) s0 10)] := by
  obtain ⟨w, D, an, G, s0, log, s', E⟩ := same_runs
  have hsl := nu_slot E rfl
  obtain ⟨n, h1, h2⟩ := C76_same_name_violated E.session E.sensible (E.division (mapDoc_division _)) E.times10 rfl (map_few E) (f := "a.vtk")
    (by simp [mapDoc, sameMaps]) (by simp [mapDoc, sameMaps]) no_a (fun y hy p q => by
      have hy : y ∈ sameMaps := hy
      simp only [sameMaps, List.mem_cons, List.not_mem_nil, or_false] at hy
      rcases hy with rfl | rfl
      · exact absurd rfl p
      · exact absurd rfl q)
  obtain rfl := map_ten E h1
  refine ⟨w, D, an, G, s0, log, s', E, ?_⟩
  have := h2 0 (by rw [hsl]) (by rw [hsl]; norm_num)
  rw [numbered_a, hsl] at this
  exact this

/-- The maps that were to be in `./maps/` are `1.vtk`, `2.vtk`, … -/
example : ∃ w D an G s0 log s', ExampleNU (mapDoc awayMaps) w D an G s0 log s' ∧
    (∀ k, k < 10 → contentsNU (toString (k + 1) ++ ".vtk") (buildLog D ++ log) = [solidOf G (NU.afterSteps (configNU w an) s0 (k + 1))]) ∧
    ∀ e ∈ buildLog D ++ log, e.file.toList.head? ≠ some '.' := by
  obtain ⟨w, D, an, G, s0, log, s', E⟩ := away_runs
  have hd : "./maps/a.vtk".toList.head? = some '.' := by decide
  obtain ⟨n, h1, h2⟩ := C76_step E.session E.sensible (E.division (mapDoc_division _)) E.times10 rfl (map_few E) (f := "./maps/a.vtk")
    (by simp [mapDoc, awayMaps]) (by unfold NoDigit; rw [stem_dot hd]; simp) (fun y hy p => by
      have hy : y ∈ awayMaps := hy
      simp only [awayMaps, List.mem_singleton] at hy
      exact absurd hy p)
  obtain rfl := map_ten E h1
  refine ⟨w, D, an, G, s0, log, s', E, fun k hk => ?_, C76_relative_lost_violated E.session E.sensible (E.division (mapDoc_division _)) E.times10 rfl
    (map_few E) fun y hy => ?_⟩
  · rw [← C76_relative_violated hd]; exact h2 k hk
  · have hy : y ∈ awayMaps := hy
    simp only [awayMaps, List.mem_singleton] at hy
    exact .inl ⟨_, hy⟩

/-- On a uniform grid a file with nothing but a 3D map gives no output. -/
def flatMaps : StackD := { dryDoc (some (1 / 50, 1 / 5)) with points := [.t3d "a.vtk" .step] }
theorem flatMaps_sensible : Sensible eff1 progFiles flatMaps := by
  have h := dryDoc_sensible (some (1 / 50, 1 / 5))
  exact ⟨h.1, h.2, h.3, h.4, h.5, h.6, h.7, h.8, h.9, h.10, h.11⟩

example : ∃ w D an s0 log s', Example flatMaps w D an s0 log s' ∧ Main w ["s.stk"] .success log (some s') ∧ log = [] := by
  have h : ∃ w D an s0 log s', Example flatMaps w D an s0 log s' := by
    refine ex_runs ⟨by decide, by decide, by decide⟩ (by decide +kernel) flatMaps_sensible ?_ ?_ (by decide +kernel) (by decide) ?_
    · intro id ref p o h
      simp [flatMaps, dryDoc] at h
      exact .inl h.2.2.1
    · simp [flatMaps, dryDoc, exDoc]
    · intro step slot h
      cases h
      exact decimals
  obtain ⟨w, D, an, s0, log, s', E⟩ := h
  have hp : filePowers progFiles flatMaps = filePowers progFiles (dryDoc (some (1 / 50, 1 / 5))) := rfl
  have h := C76_uniform_violated E.session E.sensible E.times10 fun _ => by
    rw [E.powers, ex_slot E rfl]
    decide +kernel
  refine ⟨w, D, an, s0, log, s', E, C68_session.mpr ⟨_, _, _, _, _, _, rfl, rfl, E.session⟩, List.eq_nil_iff_forall_not_mem.mpr fun e he => ?_⟩
  obtain ⟨y, hy, -, hne⟩ := h e he
  have hy : y = .t3d "a.vtk" .step := by simpa [flatMaps] using hy
  exact hne _ _ hy

end Verif.Prog
