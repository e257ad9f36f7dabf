import Verif.Props.NuRate
import Verif.Props.NuSimEx

set_option linter.unusedSimpArgs false
set_option linter.unusedVariables false

/-! # C61: concrete cases -/

namespace Verif.NU
open Verif.Dim Verif.TG Verif.Stk Verif.SM
open Verif.Emu (SimResult Succeeded flowToUm3 setFlow withFlow)

theorem hot_flow_ok (t : Emu.AType) (L : Nat) (s : NSim ℚ Unit) (f : ℚ) : (flowNU (hotCfg t L) s f).2 = true := by
  rw [(flow_state (hotCfg t L) s f).2.2.2.2.2.2.2]; rfl

/-- C61_matrix_as_rebuilt, C61_rest_untouched: two changes of the flow rate, with a step in between. -/
example (p q : ℚ) : ∃ b, Begun (hotCfg .transient 2) exDims (some (setFlow (flowToUm3 7) (setFlow (flowToUm3 5) (exChannel .mc4rm)))) (hotRaw p q)
    (((hotElems p q).map (flowEl (flowToUm3 5))).map (flowEl (flowToUm3 7))) b ∧
    (flowNU (hotCfg .transient 2) (stepNU (hotCfg .transient 2) (flowNU (hotCfg .transient 2) (hotSim .transient 2 p q) 5).1).2 7).1.mat = b.mat := by
  obtain ⟨b, h1, h2, -⟩ := C61_matrix_as_rebuilt (((hot_reachable .transient 2 p q).flow 5).exec .step) (f := 7) (hot_flow_ok _ _ _ _)
  exact ⟨b, h1, h2⟩

theorem hot_in (p q : ℚ) : InSlot (hotCfg .transient 2) (hotSim .transient 2 p q) (stepNU (hotCfg .transient 2) (hotSim .transient 2 p q)).2 :=
  .first (dvd_zero _) (hot_step 2 p q)

theorem hot_G (p q : ℚ) : ∃ fl, (stepNU (hotCfg .transient 2) (hotSim .transient 2 p q)).2.G = { hotGrid p q with flps := fl } := by
  obtain ⟨-, -, ⟨fl, -, e2⟩, -⟩ := step_spec (cfg := hotCfg .transient 2) (reachable_valid (hot_reachable .transient 2 p q))
  exact ⟨fl, e2⟩

theorem hot_len (p q : ℚ) : (stepNU (hotCfg .transient 2) (hotSim .transient 2 p q)).2.sources.length = 13 := by
  obtain ⟨-, -, fl, h⟩ := inSlot_spec (reachable_valid (hot_reachable .transient 2 p q)) (t := hotTop) rfl (hot_in p q)
  exact (power_of_each (hotFrom p q) (hotFrom p q).laid (hotPhysical p q) (hotFull p q) h).1

/-- **C61 (violated)** In the middle of a slot of the 4RM example the flow rate becomes `f`: the inlet of the second column (cell 2) keeps
the old term; the first element of the die (cell 11) loses its power and gets the term of that inlet; the term of the fourth column is
written behind the end of the vector. -/
theorem C61_wrong_cells_violated (p q f : ℚ) :
    let cfg := hotCfg .transient 2
    let s := (stepNU cfg (hotSim .transient 2 p q)).2
    (flowNU cfg s f).2 = true ∧
    (flowNU cfg s f).1.sources[2]? = some (stream (exChannel .mc4rm) exDims 1 * 300) ∧
    (flowNU cfg s f).1.sources.getD 11 0 = inflow (exChannel .mc4rm) exDims f 1 ∧
    (flowNU cfg s f).1.sources.length ≤ uniformInlet exDims 1 3 := by
  intro cfg s
  have hodd := hotOdd p q
  obtain ⟨fl, hG⟩ := hot_G p q
  have hr := (hot_reachable .transient 2 p q).exec .step
  refine ⟨hot_flow_ok _ _ _ _, ?_, ?_, ?_⟩
  · have h := C61_inlet_stale_violated (hot_reachable .transient 2 p q) (t := hotTop) rfl (hotPhysical p q) hodd (hotFull p q) (hot_in p q)
      (hot_flow_ok .transient 2 _ f) (hot_mem p q) (ch := exChannel .mc4rm) rfl (c := 1) (by show 1 < 5; decide)
      (fun _ => ⟨rfl, by show 1 + 1 < 5; decide⟩) (by
        intro n' hn' ch' hb' c' hc'
        have h10 : uniformInlet (hotSim .transient 2 p q).G.d (coolantLayer n'.elem ch') c' = coolantLayer n'.elem ch' * 10 + c' := rfl
        have : (hotSim .transient 2 p q).G.at (coolantLayer (wetChannel .mc4rm).elem (exChannel .mc4rm)) 0 1 = 2 := rfl
        rw [this, h10]
        have h1 : 0 < coolantLayer n'.elem ch' := by
          have := (hotFrom p q).channel hn' hb'
          rw [coolantLayer_eq]; omega
        omega)
    exact h
  · have h := (C61_written hr (by
      show OddColumns (stepNU (hotCfg .transient 2) (hotSim .transient 2 p q)).2.G; rw [hG]; exact hodd) (hot_flow_ok .transient 2 _ f)).1
      _ (hot_mem p q) (exChannel .mc4rm) rfl 1 (by
        show 1 < (stepNU (hotCfg .transient 2) (hotSim .transient 2 p q)).2.G.d.nCols; rw [hG]; show 1 < 5; decide) (fun _ => ⟨rfl, by
        show 1 + 1 < (stepNU (hotCfg .transient 2) (hotSim .transient 2 p q)).2.G.d.nCols; rw [hG]; show 2 < 5; decide⟩) (by
        show uniformInlet (stepNU (hotCfg .transient 2) (hotSim .transient 2 p q)).2.G.d _ 1 <
          (stepNU (hotCfg .transient 2) (hotSim .transient 2 p q)).2.sources.length
        rw [hot_len, hG]; show 1 * (2 * 5) + 1 < 13; decide)
    have hd : (exec (hotCfg .transient 2) .step (hotSim .transient 2 p q)).2.G.d = (hotGrid p q).d := by
      show (stepNU (hotCfg .transient 2) (hotSim .transient 2 p q)).2.G.d = _; rw [hG]
    rw [hd] at h
    exact h
  · rw [(C61_rest_untouched _ _ _).2.2.2.2.1]
    show (stepNU (hotCfg .transient 2) (hotSim .transient 2 p q)).2.sources.length ≤ _
    rw [hot_len]; decide

/-- The old term and the new one differ, so the energy of that step does not balance with the new flow rate. -/
example : inflow (exChannel .mc4rm) exDims 0 1 ≠ stream (exChannel .mc4rm) exDims 1 * 300 := by decide +kernel

/-- C61_next_slot: the flow rate is changed before the first slot. -/
example (p q : ℚ) : Succeeded (stepNU (hotCfg .transient 2) (flowNU (hotCfg .transient 2) (hotSim .transient 2 p q) 5).1).1 ∧
    (stepNU (hotCfg .transient 2) (flowNU (hotCfg .transient 2) (hotSim .transient 2 p q) 5).1).2.sources[2]? =
      some (inflow (exChannel .mc4rm) (hotGrid p q).d 5 1) := by
  obtain ⟨e1, -, -, -, e5, -⟩ := flow_state (hotCfg .transient 2) (hotSim .transient 2 p q) 5
  have hs : Succeeded (stepNU (hotCfg .transient 2) (flowNU (hotCfg .transient 2) (hotSim .transient 2 p q) 5).1).1 := by
    refine C62_steps_succeed ((hot_reachable .transient 2 p q).flow 5) (t := hotTop) (by rw [e1]; rfl) (by rw [e1]; exact hotFits p q)
      (by rw [e1]; exact physical_flow (hotPhysical p q)) (by rw [e1]; exact hotSharp p q) ?_ rfl (by norm_num [hotCfg]) (hot_complete _ _) ?_
    · intro ch h
      rw [e1] at h
      have hc : ch = setFlow (flowToUm3 5) (exChannel .mc4rm) := by
        have : (some (setFlow (flowToUm3 5) (exChannel .mc4rm)) : Option (Channel ℚ)) = some ch := h
        exact (Option.some.inj this).symm
      subst hc
      refine ⟨?_, ?_, ?_, ?_, ?_, ?_, ⟨?_, ?_⟩, fun _ => ?_, ⟨?_, ?_⟩, ?_, ?_, exMat_pos⟩ <;> norm_num [exChannel, exCoolant, setFlow, flowToUm3]
    · intro _ e he
      rw [(C61_rest_untouched _ _ _).2.2.1, hot_elements] at he
      simp only [hotFlp, List.mem_cons, List.not_mem_nil, or_false] at he
      rcases he with rfl | rfl <;> simp
  refine ⟨hs, ?_⟩
  exact C61_next_slot (hot_reachable .transient 2 p q) 5 (t := hotTop) rfl (hotPhysical p q) (hotOdd p q) (hotFull p q) (dvd_zero _) hs
    (hot_mem p q) (ch := exChannel .mc4rm) rfl (c := 1) (by show 1 < 5; decide) (fun _ => ⟨rfl, by show 1 + 1 < 5; decide⟩)

/-! ### A base cut into as many cells as the channel has -/

def tenElems (p q : ℚ) : List (NElem ℚ) :=
  [⟨⟨"base", .layer (exLayer 20), 0⟩, 5, 2⟩, wetChannel .mc4rm, ⟨⟨"die", .die ⟨[exLayer 5], 0, hotFlp p q⟩, 2⟩, 1, 1⟩]
def tenBase : List (Cell ℚ) :=
  [⟨0, 0, 0, 18, 10, noMat, false⟩, ⟨0, 18, 0, 36, 10, noMat, false⟩, ⟨0, 36, 0, 54, 10, noMat, false⟩, ⟨0, 54, 0, 72, 10, noMat, false⟩,
   ⟨0, 72, 0, 90, 10, noMat, false⟩, ⟨0, 0, 10, 18, 20, noMat, false⟩, ⟨0, 18, 10, 36, 20, noMat, false⟩, ⟨0, 36, 10, 54, 20, noMat, false⟩,
   ⟨0, 54, 10, 72, 20, noMat, false⟩, ⟨0, 72, 10, 90, 20, noMat, false⟩]
def tenLs : List (List (Cell ℚ)) :=
  [tenBase, wetLayer 1 (fun c => c % 2 == 1), [⟨2, 0, 0, 45, 20, exMat, false⟩, ⟨2, 45, 0, 90, 20, exMat, false⟩]]
def tenGrid (p q : ℚ) : Grid ℚ := { hotGrid p q with nCells := 22, ls := tenLs, ns := (tenElems p q).map fixDiscr }

theorem tenFile (p q : ℚ) : ∃ x g, BuiltFrom exDims (some (exChannel .mc4rm)) (hotRaw p q) x g ∧ (tenElems p q).map (·.elem) = x.elems ∧
    buildNU x.dims g.top g.bottom (tenElems p q) = some (tenGrid p q) := by
  refine ⟨_, (tenGrid p q).g, ⟨?_, ?_, ?_, ?_, rfl, rfl⟩, rfl, ?_⟩
  · show 1 ≤ 2; decide
  · show 1 ≤ 5; decide
  · intro s h; simp [spreaderOf, tenGrid, hotGrid] at h
  · rintro ch h; simp only [Option.some.injEq] at h; subst h; simp [exChannel]
  · have e : buildNU (tenGrid p q).d (tenGrid p q).g.top (tenGrid p q).g.bottom (tenElems p q) =
        some { tenGrid p q with ls := layersOf (tenGrid p q).d (tenGrid p q).g.top ((tenElems p q).map fixDiscr) } := rfl
    refine e.trans ?_
    have hls : layersOf (tenGrid p q).d (tenGrid p q).g.top ((tenElems p q).map fixDiscr) =
      layersOf (tenGrid 0 0).d (tenGrid 0 0).g.top ((tenElems 0 0).map fixDiscr) := rfl
    have hls' : layersOf (tenGrid 0 0).d (tenGrid 0 0).g.top ((tenElems 0 0).map fixDiscr) = tenLs := by decide +kernel
    rw [hls, hls']
    rfl

noncomputable def tenSim (p q : ℚ) : NSim ℚ Unit :=
  { G := tenGrid p q, conns := sequential (regions (tenGrid p q).d.nLayers (tenGrid p q).ty (tenGrid p q).ls)
    mat := fillMatrixNU id (tenGrid p q).g (hotCfg .transient 2).an.ana (tenGrid p q).d (tenGrid p q).ls.flatten
      (sequential (regions (tenGrid p q).d.nLayers (tenGrid p q).ty (tenGrid p q).ls))
    temps := List.replicate (tenGrid p q).nCells (exChannel .mc4rm).coolant.tIn
    sources := List.replicate (tenGrid p q).nCells 0, caps := capsNU (tenGrid p q), time := 0, plug := () }

theorem ten_reachable (p q : ℚ) :
    ReachableNU (hotCfg .transient 2) exDims (some (exChannel .mc4rm)) (hotRaw p q) (tenElems p q) (tenSim p q) :=
  .begun ⟨tenFile p q, runs_sequential _, (), rfl⟩

theorem tenPhysical (p q : ℚ) : PhysicalNU (tenGrid p q) := by
  refine ⟨wet4Physical.hts, ?_, ?_, (hotPhysical p q).htc, (hotPhysical p q).spr⟩
  · show ∀ c ∈ tenLs.flatten, 0 < c.length ∧ 0 < c.width
    decide +kernel
  · intro c hc _
    have h : ∀ c ∈ tenLs.flatten, ownMat (tenGrid 0 0) c = exMat := by decide +kernel
    have h2 : ownMat (tenGrid p q) c = ownMat (tenGrid 0 0) c := rfl
    rw [h2, h c hc]; exact exMat_pos
theorem tenFull (p q : ℚ) : Full (tenGrid p q) := by
  have : ∀ lc ∈ tenLs, lc ≠ [] := by decide +kernel
  exact this
theorem tenSharp (p q : ℚ) : Sharp (tenGrid p q) := by
  have : ∀ c ∈ tenLs.flatten, ∀ c' ∈ tenLs.flatten, Apart c c' := by decide +kernel
  exact this

theorem ten_step (p q : ℚ) : Succeeded (stepNU (hotCfg .transient 2) (tenSim p q)).1 :=
  C62_steps_succeed (ten_reachable p q) (t := hotTop) rfl (hotFits p q) (tenPhysical p q) (tenSharp p q) (hotChannel p q) rfl (by norm_num [hotCfg])
    (hot_complete _ _) fun _ e he => by
      have he : e ∈ hotFlp p q := by simpa [elements, tenSim, tenGrid, hotGrid] using he
      simp only [hotFlp, List.mem_cons, List.not_mem_nil, or_false] at he
      rcases he with rfl | rfl <;> simp

theorem ten_place (p q : ℚ) : InletsInPlace (tenGrid p q) (tenElems p q) := by
  intro n hn ch hb c
  simp only [tenElems, List.mem_cons, List.not_mem_nil, or_false] at hn
  rcases hn with rfl | rfl | rfl
  · cases hb
  · have hb : Body.channel (exChannel .mc4rm) = .channel ch := hb
    cases hb
    show 10 + (0 * 5 + c) = 1 * (2 * 5) + c
    omega
  · cases hb

/-- C61_inlets_right_partial: a change of the flow rate after the first step of a slot of two. -/
example (p q : ℚ) : ∃ fl, sourcesNU (flowNU (hotCfg .transient 2) (tenSim p q) 5).1.G.g (flowNU (hotCfg .transient 2) (tenSim p q) 5).1.G.d
      (flowNU (hotCfg .transient 2) (tenSim p q) 5).1.G.cells (tenGrid p q).flps =
    some ((flowNU (hotCfg .transient 2) (stepNU (hotCfg .transient 2) (tenSim p q)).2 5).1.sources, fl) :=
  C61_inlets_right_partial (ten_reachable p q) (t := hotTop) rfl (tenPhysical p q) (hotOdd p q) (tenFull p q) (ten_place p q)
    (.first (dvd_zero _) (ten_step p q)) (hot_flow_ok _ _ _ _)

end Verif.NU
