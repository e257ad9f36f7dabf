import Verif.Props.ProgramNuRaster
import Verif.Props.ProgramNuEx

/-! **C70** Examples: files that meet the hypotheses of the theorems, from the text on. -/

set_option linter.unusedSectionVars false
set_option linter.unusedSimpArgs false
set_option linter.unusedVariables false
set_option linter.unreachableTactic false
set_option linter.unusedTactic false

namespace Verif.Prog
open Verif.Gram Verif.Dim Verif.TG Verif.SM Verif.Stk Verif.FE Verif.Emu Verif.Flp

theorem division_files {s : StackD} {f f' : Files} (h : SameFiles s f f') (hg : GoodDivision f' s) : GoodDivision f s :=
  ⟨hg.cell, hg.layers, hg.dies, fun id ref p o fl hx hf => hg.mats id ref p o fl hx (by rw [← h.1 id ref p o hx]; exact hf)⟩

theorem raster_files {u : ℚ} {s : StackD} {f f' : Files} (h : SameFiles s f f') (hg : OnRaster u f' s) : OnRaster u f s :=
  ⟨hg.unit, hg.layers, fun id ref p o fl hx hf => hg.dies id ref p o fl hx (by rw [← h.1 id ref p o hx]; exact hf), hg.chan, hg.plug⟩

theorem mult60 {x : ℚ} (h : (x * 60).den = 1) : NU.Mult (1 / 60) x :=
  ⟨(x * 60).num, by
    have := Rat.num_div_den (x * 60)
    rw [h] at this
    push_cast at this
    rw [div_one] at this
    rw [this]; ring⟩

theorem nu_flp {p : String} {f : List FlpD} (h : nuFiles.flp p = some f) :
    (p = "duo.flp" ∧ f = [⟨"A", .one 0 0 1000 1000 none (some (2, 2)), [1, 2]⟩, ⟨"B", .one 0 1000 1000 1000 (some "BEOL") none, [3]⟩]) ∨
      (p = "idle.flp" ∧ f = [⟨"A", .one 0 0 1000 2000 none (some (1, 2)), [0]⟩]) := by
  by_cases hp : p = "duo.flp"
  · subst hp
    simp [nuFiles] at h
    exact .inl ⟨rfl, h.symm⟩
  · by_cases hq : p = "idle.flp"
    · subst hq
      simp [nuFiles] at h
      exact .inr ⟨rfl, h.symm⟩
    · simp [nuFiles, hp, hq] at h

theorem nu_mats {s : StackD} (hB : ∃ q ∈ s.mats, q.id = "BEOL") {p : String} {f : List FlpD} (h : nuFiles.flp p = some f) :
    ∀ e ∈ f, ∀ x y l w m n, e.area = .one x y l w (some m) n → ∃ q ∈ s.mats, q.id = m := by
  intro e he x y l w m n ha
  rcases nu_flp h with ⟨-, rfl⟩ | ⟨-, rfl⟩
  · simp only [List.mem_cons, List.not_mem_nil, or_false] at he
    rcases he with rfl | rfl
    · simp at ha
    · simp at ha
      rw [← ha.2.2.2.2.1]; exact hB
  · simp only [List.mem_cons, List.not_mem_nil, or_false] at he
    subst he
    simp at ha

theorem nu_raster {s : StackD} {o : Option (ℚ × ℚ)} {p : String} (ho : o = some (1, 2) ∨ p = "idle.flp") {f : List FlpD} (h : nuFiles.flp p = some f) :
    ∀ e ∈ f, NU.Mult (1 / 60) (firstRect e.area).x ∧ NU.Mult (1 / 60) (firstRect e.area).y ∧
    NU.Mult (1 / 60) ((firstRect e.area).length / (elemParts s.dims o e.area).1) ∧ NU.Mult (1 / 60) ((firstRect e.area).width / (elemParts s.dims o e.area).2) := by
  have f2 : ⌊(2 : ℚ)⌋₊ = 2 := by norm_num
  have f1 : ⌊(1 : ℚ)⌋₊ = 1 := by norm_num
  intro e he
  rcases nu_flp h with ⟨hp, rfl⟩ | ⟨-, rfl⟩
  · obtain rfl : o = some (1, 2) := ho.resolve_right (by rw [hp]; decide)
    simp only [List.mem_cons, List.not_mem_nil, or_false] at he
    rcases he with rfl | rfl
    · refine ⟨mult60 ?_, mult60 ?_, mult60 ?_, mult60 ?_⟩ <;> simp [firstRect, elemParts, f2] <;> norm_num
    · refine ⟨mult60 ?_, mult60 ?_, mult60 ?_, mult60 ?_⟩ <;> simp [firstRect, elemParts, partsOf, f2, f1] <;> norm_num
  · simp only [List.mem_cons, List.not_mem_nil, or_false] at he
    subst he
    refine ⟨mult60 ?_, mult60 ?_, mult60 ?_, mult60 ?_⟩ <;> simp [firstRect, elemParts, f2, f1] <;> norm_num

macro "divisionNU" : tactic => `(tactic| (
  constructor
  · norm_num [exDoc, dryDoc, wet2Doc, plugDoc, nuDoc, nuWet2, nuWet4, nuIdle, nuFlat, nuPlug, nuDims]
  · intro id ref n h
    simp [exDoc, dryDoc, wet2Doc, plugDoc, nuDoc, nuWet2, nuWet4, nuIdle, nuFlat, nuPlug, nuDims] at h
    rw [h.2.2]; norm_num
  · intro id ref p n h
    simp [exDoc, dryDoc, wet2Doc, plugDoc, nuDoc, nuWet2, nuWet4, nuIdle, nuFlat, nuPlug, nuDims] at h
    try (rw [h.2.2.2]; norm_num)
  · intro id ref p o f h hf
    exact nu_mats (by simp [exDoc, dryDoc, wet2Doc, plugDoc, nuDoc, nuWet2, nuWet4, nuIdle, nuFlat, nuPlug, nuDims]) hf))

theorem nuDoc_division (k) : GoodDivision nuFiles (nuDoc k) := by divisionNU
theorem nuWet2_division : GoodDivision nuFiles nuWet2 := by divisionNU
theorem nuWet4_division : GoodDivision nuFiles nuWet4 := by divisionNU
theorem nuIdle_division : GoodDivision nuFiles nuIdle := by divisionNU
theorem nuFlat_division : GoodDivision nuFiles nuFlat := by divisionNU
theorem nuPlug_division : GoodDivision nuFiles nuPlug := by divisionNU

macro "rasterNU" : tactic => `(tactic| (
  constructor
  · norm_num
  · intro id ref o h
    simp [exDoc, dryDoc, wet2Doc, plugDoc, nuDoc, nuWet2, nuWet4, nuIdle, nuFlat, nuPlug, nuDims] at h
    rw [h.2.2]
    have f3 : ⌊(3 : ℚ)⌋₊ = 3 := by norm_num
    have f2 : ⌊(2 : ℚ)⌋₊ = 2 := by norm_num
    constructor <;> apply mult60 <;> simp [exDoc, dryDoc, wet2Doc, plugDoc, nuDoc, nuWet2, nuWet4, nuIdle, nuFlat, nuPlug, nuDims, partsOf, f2, f3] <;> norm_num
  · intro id ref p o f h hf
    simp [exDoc, dryDoc, wet2Doc, plugDoc, nuDoc, nuWet2, nuWet4, nuIdle, nuFlat, nuPlug, nuDims] at h
    exact nu_raster (by first | exact .inr h.2.2.1 | exact .inl h.2.2.2) hf
  · intro id h
    simp only [exDoc, dryDoc, wet2Doc, plugDoc, nuDoc, nuWet2, nuWet4, nuIdle, nuFlat, nuPlug, nuDims]
    first
      | (simp [exDoc, dryDoc, wet2Doc, plugDoc, nuDoc, nuWet2, nuWet4, nuIdle, nuFlat, nuPlug, nuDims] at h; done)
      | (refine ⟨mult60 (by norm_num), mult60 (by norm_num), mult60 (by norm_num), mult60 ?_, mult60 ?_⟩ <;> simp [wallOr] <;> norm_num; done)
      | exact ⟨mult60 (by norm_num), mult60 (by norm_num)⟩
  · intro p h
    first
      | (simp [exDoc, dryDoc, wet2Doc, plugDoc, nuDoc, nuWet2, nuWet4, nuIdle, nuFlat, nuPlug, nuDims] at h; done)
      | (constructor <;> apply mult60 <;> norm_num [exDoc, dryDoc, wet2Doc, plugDoc, nuDoc, nuWet2, nuWet4, nuIdle, nuFlat, nuPlug, nuDims, columns])))

theorem nuDoc_raster (k) : OnRaster (1 / 60) nuFiles (nuDoc k) := by rasterNU
theorem nuWet2_raster : OnRaster (1 / 60) nuFiles nuWet2 := by rasterNU
theorem nuWet4_raster : OnRaster (1 / 60) nuFiles nuWet4 := by rasterNU
theorem nuIdle_raster : OnRaster (1 / 60) nuFiles nuIdle := by rasterNU
theorem nuFlat_raster : OnRaster (1 / 60) nuFiles nuFlat := by rasterNU
theorem nuPlug_raster : OnRaster (1 / 60) nuFiles nuPlug := by rasterNU

/-! ### What the theorems say about them -/

section
variable {s : StackD} {w : World Unit} {D : Desc NFlps} {an : Analysis ℚ} {G : NU.Grid ℚ} {s0 : NU.NSim ℚ Unit} {log : NLog} {s' : NU.NSim ℚ Unit}

theorem ExampleNU.division (E : ExampleNU s w D an G s0 log s') (h : GoodDivision nuFiles s) : GoodDivision (filesOf w.read) s := division_files E.same h
theorem ExampleNU.sharp (E : ExampleNU s w D an G s0 log s') (h : OnRaster (1 / 60) nuFiles s) : NU.Sharp G :=
  C70_raster E.session.start E.sensible (raster_files E.same h)

/-- A whole run: ten steps that succeed, then the end for want of power values. -/
theorem ExampleNU.whole (E : ExampleNU s w D an G s0 log s') (hd : GoodDivision nuFiles s) (hr : OnRaster (1 / 60) nuFiles s)
    (ht : s.solver.kind = some (1 / 50, 1 / 5)) (hp : filePowers nuFiles s = [[1, 2], [3]] ∨ filePowers nuFiles s = [[0]]) :
    (∀ k, k < 10 → Succeeded (NU.stepNU (configNU w an) (NU.afterSteps (configNU w an) s0 k)).1) ∧
    (NU.stepNU (configNU w an) (NU.afterSteps (configNU w an) s0 10)).1 = .endOfSimulation ∧ s' = NU.afterSteps (configNU w an) s0 11 := by
  have hsl := nu_slot E ht
  have hW : ∃ t ∈ filePowers (filesOf w.read) s, t.length * an.slotLength < 2 ^ 32 := by
    rw [E.powers, hsl]
    obtain ⟨t, h1, h2⟩ := nu_single hp
    exact ⟨t, h1, by rw [h2]; norm_num⟩
  obtain ⟨n, h1, h2, h3, ⟨t, h4, h5⟩, h6⟩ := C70_whole_run E.session E.sensible (E.division hd) E.times10 ht (E.sharp hr) E.complete E.plugin hW
  have hn : n = 10 := by
    rw [E.powers] at h4 h6
    rw [hsl] at h5 h6
    rcases hp with hp | hp <;> rw [hp] at h4 h6
    · have := h6 [3] (by simp)
      simp only [List.mem_cons, List.not_mem_nil, or_false] at h4
      rcases h4 with rfl | rfl <;> simp at h5 this <;> omega
    · simp only [List.mem_cons, List.not_mem_nil, or_false] at h4
      subst h4
      simpa using h5
  subst hn
  exact ⟨h1, h2, h3⟩

end

theorem nuWet2_powers : filePowers nuFiles nuWet2 = [[1, 2], [3]] := by decide +kernel
theorem nuWet4_powers : filePowers nuFiles nuWet4 = [[1, 2], [3]] := by decide +kernel
theorem nuFlat_powers : filePowers nuFiles nuFlat = [[1, 2], [3]] := by decide +kernel
theorem nuIdle_powers : filePowers nuFiles nuIdle = [[0]] := by decide +kernel

/-- Steps: `C70_steps_succeed`. -/
example : ∃ w D an G s0 log s', ExampleNU nuWet4 w D an G s0 log s' ∧
    ∀ k, k ≤ 9 → Succeeded (NU.stepNU (configNU w an) (NU.afterSteps (configNU w an) s0 k)).1 := by
  obtain ⟨w, D, an, G, s0, log, s', E⟩ := nuWet4_runs
  refine ⟨w, D, an, G, s0, log, s', E, ?_⟩
  refine C70_steps_succeed E.session E.sensible (E.division nuWet4_division) E.times10 rfl (E.sharp nuWet4_raster) E.complete E.plugin (by norm_num) ?_
  rw [E.powers, nu_slot E rfl, nuWet4_powers]
  simp

/-- A whole run with a pluggable heat sink whose spreader is larger than the chip. -/
example : ∃ w D an G s0 log s', ExampleNU nuPlug w D an G s0 log s' ∧ s' = NU.afterSteps (configNU w an) s0 11 := by
  obtain ⟨w, D, an, G, s0, log, s', E⟩ := nuPlug_runs
  exact ⟨w, D, an, G, s0, log, s', E, (E.whole nuPlug_division nuPlug_raster rfl (.inl (by decide +kernel))).2.2⟩

/-- Heat balance, with a channel in the 4RM model: four watts go in during every step. -/
example : ∃ w D an G s0 log s', ∃ C : Nat → ℚ, ExampleNU nuWet4 w D an G s0 log s' ∧ (∀ i, NU.IsCapacity G (nElems D) i (C i)) ∧ ∀ k, k < 10 → ∀ T T' : Nat → ℚ,
    (∀ i, T i = (NU.afterSteps (configNU w an) s0 k).temps.getD i 0) → (∀ i, T' i = (NU.afterSteps (configNU w an) s0 (k + 1)).temps.getD i 0) →
    ∑ i ∈ Finset.range G.cells.length, C i / (1 / 50) * (T' i - T i) = 4 +
      ((G.cells.map (NU.fromSinks G)).sum - ∑ i ∈ Finset.range G.cells.length, (G.cells[i]?).elim 0 (NU.toAmbient G) * T' i) +
      NU.overColumns G (nElems D) fun n ch c => SM.stream ch G.d c * (ch.coolant.tIn - T' (G.at (SM.coolantLayer n.elem ch) (G.d.nRows - 1) c)) := by
  obtain ⟨w, D, an, G, s0, log, s', E⟩ := nuWet4_runs
  obtain ⟨C, hC⟩ := C70_capacities E.session.start E.sensible (E.division nuWet4_division) (E.sharp nuWet4_raster)
  refine ⟨w, D, an, G, s0, log, s', C, E, hC, fun k hk T T' h1 h2 => ?_⟩
  have := C70_heat_balance E.session E.sensible (E.division nuWet4_division) E.times10 rfl rfl (E.sharp nuWet4_raster) E.correct (n := 10) (by norm_num)
    (E.whole nuWet4_division nuWet4_raster rfl (.inl nuWet4_powers)).1 hk hC h1 h2
  rw [this, E.powers, nuWet4_powers, nu_slot E rfl, Nat.div_eq_of_lt hk]
  norm_num

/-- Steady state. -/
example : ∃ w D an G s0 log s', ExampleNU (nuDoc none) w D an G s0 log s' ∧ ((NU.steadyNU (configNU w an) s0).1 = .endOfSimulation →
    4 + ((G.cells.map (NU.fromSinks G)).sum - ∑ i ∈ Finset.range G.cells.length, (G.cells[i]?).elim 0 (NU.toAmbient G) * s'.temps.getD i 0) +
      NU.overColumns G (nElems D) (fun n ch c => SM.stream ch G.d c * (ch.coolant.tIn - s'.temps.getD (G.at (SM.coolantLayer n.elem ch) (G.d.nRows - 1) c) 0)) = 0) := by
  obtain ⟨w, D, an, G, s0, log, s', E⟩ := nuSteady_runs
  refine ⟨w, D, an, G, s0, log, s', E, fun hend => ?_⟩
  have hp : filePowers nuFiles (nuDoc none) = [[1, 2], [3]] := by decide +kernel
  have := C70_steady E.session E.sensible (E.division (nuDoc_division _)) E.times10 rfl rfl (E.sharp (nuDoc_raster _)) E.correct
    (by rw [E.powers, hp]; simp) hend
  rw [E.powers, hp] at this
  norm_num at this ⊢
  linarith

/-- Equilibrium, with a channel. -/
example : ∃ w D an G s0 log s', ExampleNU nuIdle w D an G s0 log s' ∧
    ∀ k, k ≤ 10 → ∀ i, i < G.cells.length → (NU.afterSteps (configNU w an) s0 k).temps.getD i 0 = 300 := by
  obtain ⟨w, D, an, G, s0, log, s', E⟩ := nuIdle_runs
  refine ⟨w, D, an, G, s0, log, s', E, ?_⟩
  exact C70_equilibrium E.session E.sensible (E.division nuIdle_division) E.times10 rfl rfl rfl rfl (by intro y h; cases h; rfl) (E.sharp nuIdle_raster)
    E.correct (by rw [E.powers, nuIdle_powers]; simp) (by norm_num) (E.whole nuIdle_division nuIdle_raster rfl (.inr nuIdle_powers)).1

/-- Heat balance with a pluggable heat sink on a spreader as large as the chip. -/
example : ∃ w D an G s0 log s', ∃ C : Nat → ℚ, ExampleNU nuFlat w D an G s0 log s' ∧ (∀ i, NU.IsCapacity G (nElems D) i (C i)) ∧ ∀ k, k < 10 → ∀ T T' : Nat → ℚ,
    (∀ i, T i = (NU.afterSteps (configNU w an) s0 k).temps.getD i 0) → (∀ i, T' i = (NU.afterSteps (configNU w an) s0 (k + 1)).temps.getD i 0) →
    ∃ q, ∑ i ∈ Finset.range G.cells.length, C i / (1 / 50) * (T' i - T i) = 4 + (G.cells.map (NU.fromSinks G)).sum +
        NU.overColumns G (nElems D) (fun n ch c => SM.stream ch G.d c * (ch.coolant.tIn - T' (G.at (SM.coolantLayer n.elem ch) (G.d.nRows - 1) c))) -
        NU.taken_by G q := by
  obtain ⟨w, D, an, G, s0, log, s', E⟩ := nuFlat_runs
  obtain ⟨C, hC⟩ := C70_capacities E.session.start E.sensible (E.division nuFlat_division) (E.sharp nuFlat_raster)
  have hsp : ∃ sp m, D.top = some (.pluggable sp m) ∧ NU.NoBorder sp := by
    have key : ((describe plainReader eff1 nuFiles nuFlat).bind fun D => match D.top with
      | some (.pluggable sp m) => some (sp.rowsBorder, sp.colsBorder)
      | _ => none) = some (0, 0) := by decide +kernel
    rw [E.plain, Option.bind_some] at key
    cases hx : D.top with
    | none => rw [hx] at key; cases key
    | some y =>
      rw [hx] at key
      cases y with
      | ambient => cases key
      | pluggable sp m =>
        simp only [Option.some.injEq, Prod.mk.injEq] at key
        exact ⟨sp, m, rfl, key⟩
  have hcell : G.nCells < 2 ^ 32 := by
    have key : ((describe plainReader eff1 nuFiles nuFlat).bind fun D => (gridNU D).map fun G => decide (G.nCells < 2 ^ 32)) = some true := by decide +kernel
    rw [E.plain, Option.bind_some, E.session.grid, Option.map_some] at key
    simpa using key
  obtain ⟨sp, m, h1, h2⟩ := hsp
  refine ⟨w, D, an, G, s0, log, s', C, E, hC, fun k hk T T' hT hT' => ?_⟩
  obtain ⟨prev, q, -, this⟩ := C70_heat_balance_plug E.session E.sensible (E.division nuFlat_division) E.times10 rfl h1 h2 hcell (E.sharp nuFlat_raster) E.correct
    (n := 10) (by norm_num) (E.whole nuFlat_division nuFlat_raster rfl (.inl nuFlat_powers)).1 hk hC hT hT'
  refine ⟨q, ?_⟩
  rw [this, E.powers, nuFlat_powers, nu_slot E rfl, Nat.div_eq_of_lt hk]
  norm_num

end Verif.Prog
