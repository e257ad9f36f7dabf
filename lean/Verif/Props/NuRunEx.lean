import Verif.Props.NuRun

set_option linter.unusedSimpArgs false
set_option linter.unusedVariables false

/-! # C64: a concrete case -/

namespace Verif.NU
open Verif.Dim Verif.TG Verif.Stk Verif.SM
open Verif.Emu (SimResult Succeeded)

noncomputable def twinCfgN (t : Emu.AType) (n : Nat) : NCfg ℚ Unit :=
  { an := ⟨t, 1 / 100, n, 300⟩, solve := fun A b => Emu.exactSolve b.length A b, factor := fun _ => true, plugin := fun u _ _ => (u, some []) }
noncomputable def twinCfgU (t : Emu.AType) (n : Nat) : Emu.Cfg ℚ Unit :=
  { d := regD, an := ⟨t, 1 / 100, n, 300⟩, solve := Emu.exactSolve regD.nCells, factor := fun _ => true, plugin := fun u _ _ => (u, some []) }
noncomputable def twinN (t : Emu.AType) (n : Nat) (p q : ℚ) : NSim ℚ Unit :=
  { G := regGrid p q, conns := sequential (regions (regGrid p q).d.nLayers (regGrid p q).ty (regGrid p q).ls)
    mat := fillMatrixNU id (regGrid p q).g (twinCfgN t n).an.ana (regGrid p q).d (regGrid p q).ls.flatten
      (sequential (regions (regGrid p q).d.nLayers (regGrid p q).ty (regGrid p q).ls))
    temps := List.replicate (regGrid p q).nCells 300
    sources := List.replicate (regGrid p q).nCells 0, caps := capsNU (regGrid p q), time := 0, plug := () }
noncomputable def twinU (t : Emu.AType) (n : Nat) (els : List (Flp.FlpEl ℚ)) : Emu.Sim ℚ Unit :=
  { g := regG, mat := fillMatrix regG (twinCfgU t n).an.ana regD, temps := List.replicate regD.nCells 300,
    sources := List.replicate regD.nCells 0, caps := Emu.capList regG regD, topTcs := Emu.topList regG regD,
    botTcs := Emu.botList regG regD, flps := [some els, none], time := 0, plug := () }

theorem twin_begun (t : Emu.AType) (n : Nat) (p q : ℚ) : Begun (twinCfgN t n) regD0 none (regRaw p q) (regElems p q) (twinN t n p q) :=
  ⟨(regFrom p q).parsed, runs_sequential _, (), rfl⟩

theorem twin_started (t : Emu.AType) (n : Nat) (els : List (Flp.FlpEl ℚ)) :
    Emu.Started (twinCfgU t n) [⟨"top", .layer (exLayer 7)⟩, ⟨"die", .die ⟨[], exLayer 5, [], els⟩⟩] (twinU t n els) := by
  refine ⟨regD0, none, ⟨[⟨"die", .die ⟨[exLayer 5], 0, els⟩, 0⟩, ⟨"top", .layer (exLayer 7), 1⟩], regD, _⟩, (), ⟨?_, ?_, ?_, ?_, rfl, rfl⟩, rfl, ?_⟩
  · show 1 ≤ 2; decide
  · show 1 ≤ 2; decide
  · intro s h; simp [spreaderOf, regG, twinU] at h
  · rintro ch h; simp at h
  · unfold Emu.build; rw [if_pos (by rfl)]; rfl

theorem regGoodFlps (p q : ℚ) : GoodFloorplans (regGrid p q) := by
  intro l es hes
  match l, hes with
  | 0, hes =>
    simp only [regGrid, List.getElem?_cons_zero, Option.some.injEq] at hes
    subst hes
    refine ⟨?_, ?_⟩
    · intro x y
      simp only [List.map_cons, List.map_nil, List.countP_cons, List.countP_nil, inRect, decide_eq_true_eq, Nat.zero_add]
      split_ifs with h1 h2 h2 <;> first | omega | skip
      all_goals (exfalso; linarith [h1.1, h2.2.1])
    · intro e he
      simp only [List.mem_cons, List.not_mem_nil, or_false] at he
      rcases he with rfl | rfl <;> norm_num
  | 1, hes => simp [regGrid] at hes
  | l + 2, hes => simp [regGrid] at hes

/-- The floorplan of the example as read in uniform mode. -/
theorem regRead (p q : ℚ) : ∃ e1 e2, e1.powers = [p] ∧ e2.powers = [q] ∧ ∀ t n, Emu.ReadFrom regD (regRaws p q) (twinU t n [e1, e2]) ∧
    SameInputs (regGrid p q).flps (regRaws p q) (Emu.floorplan (twinU t n [e1, e2])) := by
  obtain ⟨e1, h1⟩ := Flp.parse_total regGood (raw := regRaw1 p) (by simp [regRaw1]) (regIn p q _ (by simp)) (by
    intro e he; simp only [regRaw1, List.mem_singleton] at he; subst he; norm_num [Flp.checkLocation, Flp.epsilon, regD, regD0, exDims])
  obtain ⟨e2, h2⟩ := Flp.parse_total regGood (raw := regRaw2 q) (by simp [regRaw2]) (regIn p q _ (by simp)) (by
    intro e he; simp only [regRaw2, List.mem_singleton] at he; subst he; norm_num [Flp.checkLocation, Flp.epsilon, regD, regD0, exDims])
  have p1 := (Flp.parse_el h1).2.2.2.1
  have p2 := (Flp.parse_el h2).2.2.2.1
  refine ⟨e1, e2, p1, p2, fun t n => ⟨⟨regGood, ?_, ?_⟩, ?_, ?_⟩⟩
  · intro l hl
    have hl : l < 2 := hl
    interval_cases l
    · exact .cons ⟨e1, h1, rfl, rfl⟩ (.cons ⟨e2, h2, rfl, rfl⟩ .nil)
    · exact .nil
  · intro l hl raw hr e he
    cases l with
    | zero => exact regIn p q raw hr e he
    | succ l => simp [regRaws] at hr
  · intro l es hes
    match l, hes with
    | 0, hes =>
      simp only [regGrid, List.getElem?_cons_zero, Option.some.injEq] at hes
      subst hes
      exact .cons ⟨rfl, p1⟩ (.cons ⟨rfl, p2⟩ .nil)
    | 1, hes => simp [regGrid] at hes
    | l + 2, hes => simp [regGrid] at hes
  · intro l hl
    cases l with
    | zero => exact absurd rfl (hl _)
    | succ l => rfl

theorem regPhysicalU : Physical regG regD := by
  refine ⟨?_, ?_, ?_, ?_, ?_, ?_, ?_, ?_⟩
  · norm_num [regD, regD0, exDims]
  · norm_num [regD, regD0, exDims]
  · intro h hh
    simp only [regD, List.mem_cons, List.not_mem_nil, or_false] at hh
    rcases hh with rfl | rfl <;> norm_num
  · intro ly hly
    simp only [regG, List.mem_cons, List.not_mem_nil, or_false] at hly
    rcases hly with rfl | rfl <;> exact ⟨exMat_pos, fun m hm => by simp [exLayer] at hm⟩
  · intro s h
    simp only [regG, Option.some.injEq, TopSink.ambient.injEq] at h
    subst h; norm_num
  · intro s h; simp [regG] at h
  · intro s m h; simp [regG] at h
  · intro ch h; simp [regG] at h

/-- Whatever is called on the two simulations of the example, cell 1 of the non-uniform grid has the temperature of the cell in row 1 and
column 0 of the uniform one (unknown 2), and the results are the same; with the powers left for one slot the first step is done. -/
example (n : Nat) (p q : ℚ) : ∃ els, (∀ ops : List (NOp ℚ),
      (run (twinCfgN .transient n) ops (twinN .transient n p q)).1 = (Emu.run (twinCfgU .transient n) (ops.map asUniform) (twinU .transient n els)).1 ∧
      (run (twinCfgN .transient n) ops (twinN .transient n p q)).2.temps[1]? =
        (Emu.run (twinCfgU .transient n) (ops.map asUniform) (twinU .transient n els)).2.temps[2]?) ∧
    (∀ r t', SlotNU (twinCfgN .transient n) (twinN .transient n p q) r t' → ∃ s', Emu.SlotRun (twinCfgU .transient n) (twinU .transient n els) r s' ∧
      t'.temps[1]? = s'.temps[2]?) ∧
    (steadyNU (twinCfgN .steady n) (twinN .steady n p q)).2.temps[1]? = (Emu.emulateSteady (twinCfgU .steady n) (twinU .steady n els)).2.temps[2]? ∧
    Succeeded (stepNU (twinCfgN .transient n) (twinN .transient n p q)).1 := by
  obtain ⟨e1, e2, p1, p2, hre⟩ := regRead p q
  obtain ⟨L, R, C, h, h1⟩ := regSame p q
  simp only [Prod.mk.injEq] at h1
  have e : offInStack (regGrid p q).d (L 1) (R 1) (C 1) = 2 := by
    rw [h1.1, h1.2.1, h1.2.2]
    simp [offInStack, offInLayer, regGrid, regD, regD0, exDims, W]
  have hlen : 1 < (regGrid p q).cells.length := by rw [regCells]; decide
  have cU : ∀ t, Emu.Correct (twinCfgU t n) := fun t A b x h => Emu.exactSolve_correct h
  have cN : ∀ t, CorrectNU (twinCfgN t n) := fun t A b x h => Emu.exactSolve_correct h
  have uU : ∀ t, CompleteU (twinCfgU t n) := fun t A b _ h => Emu.exactSolve_some h
  have uN : ∀ t, CompleteNU (twinCfgN t n) := fun t A b h => Emu.exactSolve_some h
  have key := C64_same_runs_partial (twin_started .transient n [e1, e2]) (twin_begun .transient n p q) rfl rfl rfl h (sk := ⟨1, 300⟩) rfl rfl
    (regPhysical p q) (regSharp p q) (regFull p q) (regGoodFlps p q) (hre _ _).1 (hre _ _).2 (by norm_num [twinCfgN]) (cU _) (cN _) (uU _) (uN _)
  have slots := fun r t' => C64_same_slots_partial (twin_started .transient n [e1, e2]) (twin_begun .transient n p q) rfl rfl rfl h (sk := ⟨1, 300⟩) rfl rfl
    (regPhysical p q) (regSharp p q) (regFull p q) (regGoodFlps p q) (hre _ _).1 (hre _ _).2 (by norm_num [twinCfgN]) (cU _) (cN _) (uU _) (uN _)
    [] (r := r) (t' := t')
  have steady := C64_same_steady_partial (twin_started .steady n [e1, e2]) (twin_begun .steady n p q) rfl rfl rfl h (sk := ⟨1, 300⟩) rfl rfl
    (regPhysical p q) (regSharp p q) (regFull p q) (regGoodFlps p q) (hre _ _).1 (hre _ _).2 (cU _) (cN _) (uU _) (uN _) regPhysicalU
  refine ⟨[e1, e2], ?_, ?_, ?_, ?_⟩
  · intro ops
    obtain ⟨k1, -, -, k4, -⟩ := key ops
    have := k4 1 hlen
    rw [show offInStack (twinN .transient n p q).G.d (L 1) (R 1) (C 1) = 2 from e] at this
    exact ⟨k1, this⟩
  · intro r t' hs
    obtain ⟨s', k1, -, -, k4⟩ := slots r t' hs
    have := k4 1 hlen
    rw [show offInStack (twinN .transient n p q).G.d (L 1) (R 1) (C 1) = 2 from e] at this
    exact ⟨s', k1, this⟩
  · have := steady.2.2 1 hlen
    rw [show offInStack (twinN .steady n p q).G.d (L 1) (R 1) (C 1) = 2 from e] at this
    exact this
  · refine C62_steps_succeed (.begun (twin_begun .transient n p q)) (t := ⟨1, 300⟩) rfl ?_ (regPhysical p q) (regSharp p q) ?_ rfl (by norm_num [twinCfgN]) (uN _) ?_
    · refine ⟨?_, ?_, ?_⟩
      · norm_num [twinN, regGrid, regD, regD0, exDims]
      · norm_num [twinN, regGrid, regD, regD0, exDims]
      · show ∑ c ∈ Finset.range 2, cellLength regD c ≤ regD.chipLength
        rw [Finset.sum_range_succ, Finset.sum_range_succ, Finset.sum_range_zero]
        decide +kernel
    · intro ch hch; simp [twinN, regGrid, regG] at hch
    · intro _ e he
      simp [elements, twinN, regGrid] at he
      rcases he with rfl | rfl <;> simp

end Verif.NU
