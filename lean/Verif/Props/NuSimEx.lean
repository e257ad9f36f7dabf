import Verif.Props.NuEnergy
import Verif.Props.NonUniformInletEx
import Verif.Lemmas.Demo

set_option linter.unusedSimpArgs false
set_option linter.unusedVariables false

/-! # C60 and C62: concrete cases -/

namespace Verif.NU
open Verif.Dim Verif.TG Verif.Stk Verif.SM
open Verif.Emu (SimResult Succeeded)

/-- A simulation of the 4RM example (non-uniform grid): steps of 1/100, slots of `L` steps, an exact solver. -/
noncomputable def hotCfg (t : Emu.AType) (L : Nat) : NCfg ℚ Unit :=
  { an := ⟨t, 1 / 100, L, (exChannel .mc4rm).coolant.tIn⟩, solve := fun A b => Emu.exactSolve b.length A b, factor := fun _ => true,
    plugin := fun u _ _ => (u, some []) }
noncomputable def hotSim (t : Emu.AType) (L : Nat) (p q : ℚ) : NSim ℚ Unit :=
  { G := hotGrid p q, conns := sequential (regions (hotGrid p q).d.nLayers (hotGrid p q).ty (hotGrid p q).ls)
    mat := fillMatrixNU id (hotGrid p q).g (hotCfg t L).an.ana (hotGrid p q).d (hotGrid p q).ls.flatten
      (sequential (regions (hotGrid p q).d.nLayers (hotGrid p q).ty (hotGrid p q).ls))
    temps := List.replicate (hotGrid p q).nCells (exChannel .mc4rm).coolant.tIn
    sources := List.replicate (hotGrid p q).nCells 0, caps := capsNU (hotGrid p q), time := 0, plug := () }

theorem hot_begun (t : Emu.AType) (L : Nat) (p q : ℚ) :
    Begun (hotCfg t L) exDims (some (exChannel .mc4rm)) (hotRaw p q) (hotElems p q) (hotSim t L p q) :=
  ⟨hotFile p q, runs_sequential _, (), rfl⟩

theorem hot_reachable (t : Emu.AType) (L : Nat) (p q : ℚ) :
    ReachableNU (hotCfg t L) exDims (some (exChannel .mc4rm)) (hotRaw p q) (hotElems p q) (hotSim t L p q) := .begun (hot_begun t L p q)

theorem hot_correct (t : Emu.AType) (L : Nat) : CorrectNU (hotCfg t L) := fun A b x h => Emu.exactSolve_correct h
theorem hot_complete (t : Emu.AType) (L : Nat) : CompleteNU (hotCfg t L) := fun A b h => Emu.exactSolve_some h
theorem hotChannel (p q : ℚ) : ∀ ch, (hotGrid p q).g.channel = some ch → PosChannel ch := by
  intro ch h
  simp only [hotGrid, wet4Grid, Option.some.injEq] at h
  subst h
  refine ⟨?_, ?_, ?_, ?_, ?_, ?_, ⟨?_, ?_⟩, fun _ => ?_, ⟨fun _ => ?_, fun _ => ?_⟩, ?_, ?_, exMat_pos⟩ <;> norm_num [exChannel, exCoolant]

theorem hot_elements (t : Emu.AType) (L : Nat) (p q : ℚ) : elements (hotSim t L p q) = hotFlp p q := by
  simp [elements, hotSim, hotGrid]

/-- C62_steps_succeed: the first step of the example. -/
theorem hot_step (L : Nat) (p q : ℚ) : Succeeded (stepNU (hotCfg .transient L) (hotSim .transient L p q)).1 :=
  C62_steps_succeed (hot_reachable _ L p q) rfl (hotFits p q) (hotPhysical p q) (hotSharp p q) (hotChannel p q) rfl (by norm_num [hotCfg])
    (hot_complete _ _) fun _ e he => by
      rw [hot_elements] at he
      simp only [hotFlp, List.mem_cons, List.not_mem_nil, or_false] at he
      rcases he with rfl | rfl <;> simp

/-- Inside a slot the second step succeeds too. -/
theorem hot_step2 (p q : ℚ) : Succeeded (stepNU (hotCfg .transient 2) (stepNU (hotCfg .transient 2) (hotSim .transient 2 p q)).2).1 := by
  obtain ⟨-, -, ⟨fl, e1, e2⟩, hc⟩ := step_spec (cfg := hotCfg .transient 2) (reachable_valid (hot_reachable .transient 2 p q))
  have hs := hot_step 2 p q
  have ht : (stepNU (hotCfg .transient 2) (hotSim .transient 2 p q)).2.time = 1 := by
    rcases hc with ⟨h2, -⟩ | ⟨h2, -⟩ | ⟨-, -, -, h2 | ⟨-, c2, c3⟩⟩
    · rw [h2] at hs; simp [Succeeded] at hs
    · rw [h2] at hs; simp [Succeeded] at hs
    · rw [h2.1] at hs; simp [Succeeded] at hs
    · rw [c2]; show (0 + 1) % W = 1; unfold W; norm_num
  refine C62_steps_succeed ((hot_reachable _ 2 p q).exec .step) (t := hotTop) ?_ ?_ ?_ ?_ ?_ rfl (by norm_num [hotCfg]) (hot_complete _ _) ?_
  · show (stepNU (hotCfg .transient 2) (hotSim .transient 2 p q)).2.G.g.top = _
    rw [e2]; rfl
  · show ChipFits (stepNU (hotCfg .transient 2) (hotSim .transient 2 p q)).2.G.d
    rw [e2]; exact hotFits p q
  · show PhysicalNU (stepNU (hotCfg .transient 2) (hotSim .transient 2 p q)).2.G
    rw [e2]; have h := hotPhysical p q; exact ⟨h.hts, h.cell, h.mat, h.htc, h.spr⟩
  · show Sharp (stepNU (hotCfg .transient 2) (hotSim .transient 2 p q)).2.G
    rw [e2]; exact hotSharp p q
  · show ∀ ch, (stepNU (hotCfg .transient 2) (hotSim .transient 2 p q)).2.G.g.channel = some ch → PosChannel ch
    rw [e2]; exact hotChannel p q
  · intro h
    exfalso
    have h : 2 ∣ (stepNU (hotCfg .transient 2) (hotSim .transient 2 p q)).2.time := h
    rw [ht] at h
    omega

/-- C60_wrong_config. -/
example (p q : ℚ) : stepNU (hotCfg .steady 2) (hotSim .steady 2 p q) = (.wrongConfig, hotSim .steady 2 p q) :=
  ((C60_wrong_config _ _).1 (by simp [hotCfg])).1

/-- C60_slot_terminates, C60_slot_ends_at_boundary: a slot of three steps. -/
example (p q : ℚ) : ∃ r s', SlotNU (hotCfg .transient 3) (hotSim .transient 3 p q) r s' ∧
    (Succeeded r → r = .slotDone ∧ 3 ∣ s'.time ∧ s'.time ≤ 3 ∧ traces s' = [[], []]) := by
  obtain ⟨r, s', h1, -, -⟩ := C60_slot_terminates (show 0 < (hotCfg .transient 3).an.slotLength by decide) (hot_reachable .transient 3 p q)
  refine ⟨r, s', h1, fun hr => ?_⟩
  obtain ⟨a, b, -, c, e⟩ := C60_slot_ends_at_boundary (by decide) (hot_reachable .transient 3 p q) h1 hr (by norm_num [hotSim, hotCfg])
  refine ⟨a, b, c, ?_⟩
  rw [e, if_pos (show (hotCfg .transient 3).an.slotLength ∣ (hotSim .transient 3 p q).time from dvd_zero _)]
  simp [traces, hot_elements, hotFlp]

/-- A slot of one step. -/
theorem hot_slot (p q : ℚ) : ∃ s', SlotNU (hotCfg .transient 1) (hotSim .transient 1 p q) .slotDone s' := by
  have hs := hot_step 1 p q
  obtain ⟨r, s', h1, h2, -⟩ := C60_slot_terminates (show 0 < (hotCfg .transient 1).an.slotLength by decide) (hot_reachable .transient 1 p q)
  obtain ⟨-, -, -, hc⟩ := step_spec (cfg := hotCfg .transient 1) (reachable_valid (hot_reachable .transient 1 p q))
  have hd : (stepNU (hotCfg .transient 1) (hotSim .transient 1 p q)).1 = .slotDone := by
    rcases hc with ⟨h2, -⟩ | ⟨h2, -⟩ | ⟨-, -, -, h2 | ⟨-, c2, c3⟩⟩
    · rw [h2] at hs; simp [Succeeded] at hs
    · rw [h2] at hs; simp [Succeeded] at hs
    · rw [h2.1] at hs; simp [Succeeded] at hs
    · exact c3.mpr (Nat.mod_one _)
  exact ⟨_, .stop (Prod.ext hd rfl) (by simp)⟩

/-- C60_one_value_per_slot and C60_ends_with_shortest_trace: one value per element, one slot, then the end. -/
example (p q : ℚ) : ∃ s', SlotsNU (hotCfg .transient 1) (hotSim .transient 1 p q) [.slotDone] s' ∧ s'.time = 1 ∧ traces s' = [[], []] ∧
    ∀ r s'', SlotNU (hotCfg .transient 1) s' r s'' → r = .endOfSimulation ∧ s''.temps = s'.temps := by
  obtain ⟨s', h⟩ := hot_slot p q
  have hrun : SlotsNU (hotCfg .transient 1) (hotSim .transient 1 p q) [.slotDone] s' := .cons h (.nil _)
  have htr : traces (hotSim .transient 1 p q) = [[p], [q]] := by simp [traces, hot_elements, hotFlp]
  obtain ⟨-, a, b, -⟩ := C60_one_value_per_slot rfl (by decide) (hot_reachable .transient 1 p q) (dvd_zero _) hrun (by simp) (by rw [htr]; simp)
    (by norm_num [hotSim, hotCfg])
  refine ⟨s', hrun, b, by rw [a, htr]; rfl, fun r s'' hr => ?_⟩
  obtain ⟨c1, -, c2⟩ := C60_ends_with_shortest_trace rfl (by decide) (hot_reachable .transient 1 p q) (dvd_zero _) hrun (by simp) (by rw [htr]; simp)
    (by rw [htr]; simp) (by norm_num [hotSim, hotCfg]) hr
  exact ⟨c1, c2⟩

/-- C60_what_is_lost, C60_equal_traces_partial: the step after that slot. -/
example (p q : ℚ) : ∃ s', ReachableNU (hotCfg .transient 1) exDims (some (exChannel .mc4rm)) (hotRaw p q) (hotElems p q) s' ∧
    ((stepNU (hotCfg .transient 1) s').1 = .endOfSimulation ∧ traces (stepNU (hotCfg .transient 1) s').2 = traces s') := by
  obtain ⟨s', h⟩ := hot_slot p q
  have hr := reachable_slot h (hot_reachable .transient 1 p q)
  have hrun : SlotsNU (hotCfg .transient 1) (hotSim .transient 1 p q) [.slotDone] s' := .cons h (.nil _)
  have htr : traces (hotSim .transient 1 p q) = [[p], [q]] := by simp [traces, hot_elements, hotFlp]
  obtain ⟨-, a, -, -⟩ := C60_one_value_per_slot rfl (by decide) (hot_reachable .transient 1 p q) (dvd_zero _) hrun (by simp) (by rw [htr]; simp)
    (by norm_num [hotSim, hotCfg])
  have hE : traces s' = [[], []] := by rw [a, htr]; rfl
  obtain ⟨r, s'', h1, h2, -⟩ := C60_slot_terminates (show 0 < (hotCfg .transient 1).an.slotLength by decide) hr
  obtain ⟨c1, -, c2⟩ := C60_ends_with_shortest_trace rfl (by decide) (hot_reachable .transient 1 p q) (dvd_zero _) hrun (by simp) (by rw [htr]; simp)
    (by rw [htr]; simp) (by norm_num [hotSim, hotCfg]) h1
  have hend : (stepNU (hotCfg .transient 1) s').1 = .endOfSimulation := by
    subst c1
    cases h1 with
    | stop he _ => rw [he]
    | again he h3 =>
      exfalso
      obtain ⟨-, -, -, hc⟩ := step_spec (cfg := hotCfg .transient 1) (reachable_valid hr)
      rw [he] at hc
      rcases hc with ⟨h2, -⟩ | ⟨h2, -⟩ | ⟨-, -, -, h2 | ⟨-, c2, c3⟩⟩
      · simp at h2
      · simp at h2
      · simp at h2
      · have := c3.mpr (Nat.mod_one _); simp at this
  refine ⟨s', hr, hend, C60_equal_traces_partial hr hend ?_⟩
  rw [hE]; simp

/-- C60_inserted_in_order: values 7 and 8 for the two elements. -/
example (t : Emu.AType) (p q : ℚ) : traces (insertSim (hotSim t 1 p q) [7, 8]).1 = [[p, 7], [q, 8]] := by
  have h := ((C60_inserted_in_order (hot_reachable t 1 p q) [7, 8]).1 (by rw [hot_elements]; simp [hotFlp])).2
  rw [h]
  simp [traces, hot_elements, hotFlp]

/-- C60_element_order. -/
example (t : Emu.AType) (p q : ℚ) : traces (hotSim t 1 p q) = [[p], [q]] := by
  rw [(C60_element_order (hot_begun t 1 p q) []).2]; simp [fileElements, hotRaw, hotFlp]

/-- C60_schedule_independent, C60_schedule_builds: any other order of the connections. -/
example (t : Emu.AType) (p q : ℚ) (L' : List (Conn ℚ)) (h : Runs (regions (hotGrid p q).d.nLayers (hotGrid p q).ty (hotGrid p q).ls) L') :
    ∃ s', buildSim (hotCfg t 1) (hotGrid p q) L' () = some s' ∧ (run (hotCfg t 1) [.step, .reset, .step] s').1 =
      (run (hotCfg t 1) [.step, .reset, .step] (hotSim t 1 p q)).1 := by
  have hb : buildSim (hotCfg t 1) (hotGrid p q) (hotSim t 1 p q).conns () = some (hotSim t 1 p q) := rfl
  have h1 := C60_schedule_builds (cfg := hotCfg t 1) (q := ()) (hot_begun t 1 p q).conns h
  rw [show (hotSim t 1 p q).G = hotGrid p q from rfl, hb] at h1
  obtain ⟨s', hs'⟩ := Option.isSome_iff_exists.mp h1.symm
  exact ⟨s', hs', (C60_schedule_independent (hot_begun t 1 p q).conns h hb hs' _).1⟩

theorem hotCap (p q : ℚ) (i : Nat) : IsCapacity (hotGrid p q) (hotElems p q) i (((hotGrid p q).cells[i]?).elim 0 (capacityNU (hotGrid p q).g (hotGrid p q).d)) := by
  cases hc : (hotGrid p q).cells[i]? with
  | none => intro cell h'; rw [hc] at h'; cases h'
  | some c => exact C59_capacities (hotFrom p q) (hotFits p q) (hotPhysical p q) (hotSharp p q) i c hc

/-- C60_heat_balance: the first two steps of a slot both get the power `p + q`. -/
example (p q : ℚ) : ∃ C : Nat → ℚ, ∀ s, s = hotSim .transient 2 p q ∨ s = (stepNU (hotCfg .transient 2) (hotSim .transient 2 p q)).2 →
    ∑ i ∈ Finset.range (hotGrid p q).cells.length,
      C i / (hotCfg .transient 2).an.stepTime * ((stepNU (hotCfg .transient 2) s).2.temps.getD i 0 - s.temps.getD i 0) =
    ((hotFlp p q).map nextPower).sum +
      (((hotGrid p q).cells.map (fromSinks (hotGrid p q))).sum - ∑ i ∈ Finset.range (hotGrid p q).cells.length,
        ((hotGrid p q).cells[i]?).elim 0 (toAmbient (hotGrid p q)) * (stepNU (hotCfg .transient 2) s).2.temps.getD i 0) +
      overColumns (hotGrid p q) (hotElems p q) (fun n ch c => stream ch (hotGrid p q).d c *
        (ch.coolant.tIn - (stepNU (hotCfg .transient 2) s).2.temps.getD ((hotGrid p q).at (coolantLayer n.elem ch) ((hotGrid p q).d.nRows - 1) c) 0)) := by
  refine ⟨fun i => ((hotGrid p q).cells[i]?).elim 0 (capacityNU (hotGrid p q).g (hotGrid p q).d), fun s hs => ?_⟩
  have hd : ∀ e ∈ elements (hotSim .transient 2 p q), e.dx * e.dy ≠ 0 := by
    intro e he
    rw [hot_elements] at he
    simp only [hotFlp, List.mem_cons, List.not_mem_nil, or_false] at he
    rcases he with rfl | rfl <;> simp
  have key : FedBy (hotCfg .transient 2) (hotSim .transient 2 p q) s ∧ Succeeded (stepNU (hotCfg .transient 2) s).1 := by
    rcases hs with rfl | rfl
    · exact ⟨Or.inl ⟨dvd_zero _, rfl⟩, hot_step 2 p q⟩
    · refine ⟨Or.inr ⟨?_, .first (dvd_zero _) (hot_step 2 p q)⟩, hot_step2 p q⟩
      obtain ⟨-, -, -, hc⟩ := step_spec (cfg := hotCfg .transient 2) (reachable_valid (hot_reachable .transient 2 p q))
      have hs := hot_step 2 p q
      rcases hc with ⟨h2, -⟩ | ⟨h2, -⟩ | ⟨-, -, -, h2 | ⟨-, c2, c3⟩⟩
      · rw [h2] at hs; simp [Succeeded] at hs
      · rw [h2] at hs; simp [Succeeded] at hs
      · rw [h2.1] at hs; simp [Succeeded] at hs
      · rw [c2]; show ¬ 2 ∣ (0 + 1) % W; unfold W; norm_num
  have := C60_heat_balance (hot_reachable .transient 2 p q) (t := hotTop) rfl (hotFits p q) (hotPhysical p q) (hotSharp p q) (hotOdd p q) (hotFull p q) hd
    (hotCap p q) key.1 key.2 (hot_correct _ _) (T := fun i => s.temps.getD i 0) (T' := fun i => (stepNU (hotCfg .transient 2) s).2.temps.getD i 0)
    (fun _ => rfl) (fun _ => rfl)
  rw [hot_elements] at this
  exact this

/-- C60_equilibrium_partial: without power the example stays at the temperature of the inlet. -/
example : ∀ i, i < 13 → (stepNU (hotCfg .transient 2) (hotSim .transient 2 0 0)).2.temps.getD i 0 = hotTop.tAmb := by
  have hlen : (hotGrid 0 0).cells.length = 13 := by
    have : wet4Grid.cells.length = 13 := by decide +kernel
    exact this
  have := C60_equilibrium_partial (hot_reachable .transient 2 0 0) (t := hotTop) rfl (hotFits 0 0) (hotPhysical 0 0) (hotSharp 0 0) (hotOdd 0 0) (hotFull 0 0)
    (hotChannel 0 0) (by norm_num [hotCfg]) (s := hotSim .transient 2 0 0) (by
      intro e he
      rw [hot_elements] at he
      simp only [hotFlp, List.mem_cons, List.not_mem_nil, or_false] at he
      rcases he with rfl | rfl <;> rfl) rfl (by
      intro ch h
      simp only [hotSim, hotGrid, wet4Grid, Option.some.injEq] at h
      subst h; rfl) (Or.inl ⟨dvd_zero _, rfl⟩) (hot_step 2 0 0) (hot_correct _ _) (by
      intro i hi
      show (List.replicate 13 _).getD i 0 = _
      have hi : i < 13 := by rw [← hlen]; exact hi
      rw [List.getD_eq_getElem?_getD, List.getElem?_replicate, if_pos hi]; rfl)
  intro i hi
  exact this i (by show i < (hotGrid 0 0).cells.length; rw [hlen]; exact hi)

/-- C60_steady: the steady state without power is found, and is in balance. -/
example : (steadyNU (hotCfg .steady 2) (hotSim .steady 2 0 0)).1 = .endOfSimulation ∧
    ∃ S fl, sourcesNU (hotGrid 0 0).g (hotGrid 0 0).d (hotGrid 0 0).cells (hotGrid 0 0).flps = some (S, fl) ∧
      Solves (hotGrid 0 0).cells.length (hotSim .steady 2 0 0).mat.entry
        (fun i => (steadyNU (hotCfg .steady 2) (hotSim .steady 2 0 0)).2.temps.getD i 0) fun i => S.getD i 0 := by
  have hp : ∀ e ∈ elements (hotSim .steady 2 0 0), e.powers ≠ [] := by
    intro e he
    rw [hot_elements] at he
    simp only [hotFlp, List.mem_cons, List.not_mem_nil, or_false] at he
    rcases he with rfl | rfl <;> simp
  have h1 : (steadyNU (hotCfg .steady 2) (hotSim .steady 2 0 0)).1 = .endOfSimulation := by
    obtain ⟨S, fl, e1, e2⟩ := steady_eq (cfg := hotCfg .steady 2) (reachable_valid (hot_reachable .steady 2 0 0)) (t := hotTop) rfl rfl hp
    have heq := C59_equilibrium_partial (hotFrom 0 0) (hotFits 0 0) (hotPhysical 0 0) (hotSharp 0 0) (hotOdd 0 0) (hotFull 0 0)
      (a := (hotCfg .steady 2).an.ana) ⟨_, runs_sequential _, rfl⟩
      (fun l es hl e he => by
        have : e ∈ elements (hotSim .steady 2 0 0) := List.mem_flatMap.mpr ⟨some es, List.mem_of_getElem? hl, he⟩
        rw [hot_elements] at this
        simp only [hotFlp, List.mem_cons, List.not_mem_nil, or_false] at this
        rcases this with rfl | rfl <;> rfl) (hotCap 0 0) (T := hotTop.tAmb) (fun s hs => by simp [hotGrid] at hs; rw [← hs]) rfl
      (fun ch hch => by simp [hotGrid, wet4Grid] at hch; rw [← hch]; rfl) e1
    have hlen : ((List.range (hotGrid 0 0).ls.flatten.length).map fun i => S.getD i 0).length = (hotGrid 0 0).cells.length := by
      rw [List.length_map, List.length_range]; rfl
    have hsol : ∃ x, (hotCfg .steady 2).solve (hotSim .steady 2 0 0).mat ((List.range (hotGrid 0 0).ls.flatten.length).map fun i => S.getD i 0) = some x := by
      show ∃ x, Emu.exactSolve _ _ _ = some x
      unfold Emu.exactSolve
      rw [dif_pos]
      · exact ⟨_, rfl⟩
      · rw [hlen]
        refine ⟨List.replicate (hotGrid 0 0).cells.length hotTop.tAmb, by simp, ?_⟩
        intro i hi
        have h2 := heq i hi
        simp only [storage, Emu.Analysis.ana, hotCfg, Bool.false_eq_true, if_false, zero_mul, zero_add, reduceCtorEq, decide_false] at h2
        beta_reduce
        rw [List.getD_eq_getElem?_getD, List.getElem?_map, List.getElem?_range (show i < (hotGrid 0 0).ls.flatten.length from hi)]
        refine Eq.trans (Finset.sum_congr rfl fun j hj => ?_) h2
        rw [Finset.mem_range] at hj
        rw [List.getD_eq_getElem?_getD, List.getElem?_replicate, if_pos hj]; rfl
    obtain ⟨x, hx⟩ := hsol
    rw [e2]
    have hx' : (hotCfg .steady 2).solve (hotSim .steady 2 0 0).mat ((List.range (hotSim .steady 2 0 0).G.ls.flatten.length).map fun i => S.getD i 0) = some x := hx
    rw [hx']
  refine ⟨h1, ?_⟩
  obtain ⟨⟨S, fl, a, -, b⟩, -⟩ := C60_steady (hot_reachable .steady 2 0 0) (t := hotTop) rfl rfl hp h1 (hot_correct _ _)
  exact ⟨S, fl, a, b⟩

/-- C62_step_unique, 2RM. -/
theorem wet2Channel : ∀ ch, wet2Grid.g.channel = some ch → PosChannel ch := by
  intro ch h
  simp only [wet2Grid, Option.some.injEq] at h
  subst h
  refine ⟨?_, ?_, ?_, ?_, ?_, ?_, ⟨?_, ?_⟩, fun _ => ?_, ⟨fun _ => ?_, fun _ => ?_⟩, ?_, ?_, exMat_pos⟩ <;> norm_num [exChannel, exCoolant]

example (b : Nat → ℚ) : ∃ m, Assembled id wet2Grid ⟨true, 1 / 100⟩ m ∧ OneSolution wet2Grid.cells.length m.entry b := by
  obtain ⟨m, hm⟩ := assembled_exists id wet2Grid ⟨true, 1 / 100⟩
  exact ⟨m, hm, C62_step_unique wet2From wet2Fits wet2Physical wet2Sharp wet2Channel hm rfl (by norm_num) b⟩

end Verif.NU
