import Verif.Props.NuPlug
import Verif.Props.NuSimEx

set_option linter.unusedSimpArgs false
set_option linter.unusedVariables false

/-! # C63: concrete cases -/

namespace Verif.NU
open Verif.Dim Verif.TG Verif.Stk Verif.SM
open Verif.Emu (SimResult Succeeded)

/-- Spreaders of the size of the chip, and one cell longer at both ends. -/
def flatSpr : Spreader ℚ :=
  { length := 90, width := 20, height := 1, cellLength := 18, cellWidth := 10, nRows := 2, nCols := 5, rowsBorder := 0, colsBorder := 0 }
def wideSpr : Spreader ℚ :=
  { length := 126, width := 20, height := 1, cellLength := 18, cellWidth := 10, nRows := 2, nCols := 7, rowsBorder := 0, colsBorder := 1 }

example : initSpreader wet2D0 90 20 1 = some flatSpr ∧ initSpreader wet2D0 126 20 1 = some wideSpr := by
  constructor <;> simp [initSpreader, wet2D0, exDims, flatSpr, wideSpr, W] <;> norm_num

def plugLs : List (List (Cell ℚ)) := wet2Grid.ls ++ [wet2Layer 6 false]
def plugElems (p q : ℚ) : List (NElem ℚ) :=
  [⟨⟨"base", .layer (exLayer 20), 0⟩, 1, 1⟩, wetChannel .mc2rm, ⟨⟨"die", .die ⟨[exLayer 5], 0, hotFlp p q⟩, 5⟩, 1, 1⟩]
/-- The 2RM example with a pluggable sink (4RM channels and pluggable sinks exclude each other). -/
def plugGrid (sp : Spreader ℚ) (p q : ℚ) : Grid ℚ :=
  { wet2Grid with
    d := { wet2Grid.d with nCells := 60 + sp.nRows * sp.nCols }
    nCells := 53
    g := { wet2Grid.g with types := [.solid, .bottomWall, .vwallCh, .ch2rm, .topWall, .sourceSpr], top := some (.pluggable sp exMat) }
    ls := plugLs
    flps := [none, none, none, none, none, some (hotFlp p q)]
    ns := (plugElems p q).map fixDiscr }

theorem plugFile (sp : Spreader ℚ) (hsp : sp = flatSpr ∨ sp = wideSpr) (p q : ℚ) :
    ∃ x g, BuiltFrom wet2D0 (some (exChannel .mc2rm)) (hotRaw p q) x g ∧ (plugElems p q).map (·.elem) = x.elems ∧
    buildNU x.dims g.top g.bottom (plugElems p q) = some (plugGrid sp p q) := by
  have hls' : layersOf (plugGrid flatSpr 0 0).d (plugGrid flatSpr 0 0).g.top ((plugElems 0 0).map fixDiscr) = plugLs := by decide +kernel
  rcases hsp with rfl | rfl
  · refine ⟨_, (plugGrid flatSpr p q).g, ⟨?_, ?_, ?_, ?_, rfl, rfl⟩, rfl, ?_⟩
    · show 1 ≤ 2; decide
    · show 1 ≤ 5; decide
    · intro s h
      simp only [spreaderOf, plugGrid, Option.some.injEq] at h
      subst h; exact ⟨rfl, rfl⟩
    · rintro ch h; simp only [Option.some.injEq] at h; subst h; simp [exChannel]
    · have e : buildNU (plugGrid flatSpr p q).d (plugGrid flatSpr p q).g.top (plugGrid flatSpr p q).g.bottom (plugElems p q) =
          some { plugGrid flatSpr p q with ls := layersOf (plugGrid flatSpr p q).d (plugGrid flatSpr p q).g.top ((plugElems p q).map fixDiscr) } := rfl
      refine e.trans ?_
      have hls : layersOf (plugGrid flatSpr p q).d (plugGrid flatSpr p q).g.top ((plugElems p q).map fixDiscr) =
        layersOf (plugGrid flatSpr 0 0).d (plugGrid flatSpr 0 0).g.top ((plugElems 0 0).map fixDiscr) := rfl
      rw [hls, hls']; rfl
  · refine ⟨_, (plugGrid wideSpr p q).g, ⟨?_, ?_, ?_, ?_, rfl, rfl⟩, rfl, ?_⟩
    · show 1 ≤ 2; decide
    · show 1 ≤ 5; decide
    · intro s h
      simp only [spreaderOf, plugGrid, Option.some.injEq] at h
      subst h; exact ⟨rfl, rfl⟩
    · rintro ch h; simp only [Option.some.injEq] at h; subst h; simp [exChannel]
    · have e : buildNU (plugGrid wideSpr p q).d (plugGrid wideSpr p q).g.top (plugGrid wideSpr p q).g.bottom (plugElems p q) =
          some { plugGrid wideSpr p q with ls := layersOf (plugGrid wideSpr p q).d (plugGrid wideSpr p q).g.top ((plugElems p q).map fixDiscr) } := rfl
      refine e.trans ?_
      have hls : layersOf (plugGrid wideSpr p q).d (plugGrid wideSpr p q).g.top ((plugElems p q).map fixDiscr) =
        layersOf (plugGrid flatSpr 0 0).d (plugGrid flatSpr 0 0).g.top ((plugElems 0 0).map fixDiscr) := rfl
      rw [hls, hls']; rfl

/-- The example with a plugin that takes `k` times the excess of the temperature over the one of the inlet, from each cell, and counts
the calls. -/
noncomputable def plugCfg (L : Nat) (k : ℚ) : NCfg ℚ Nat :=
  { an := ⟨.transient, 1 / 100, L, (exChannel .mc2rm).coolant.tIn⟩, solve := fun A b => Emu.exactSolve b.length A b, factor := fun _ => true,
    plugin := fun n T _ => (n + 1, some (T.map fun t => k * (t - (exChannel .mc2rm).coolant.tIn))) }
noncomputable def plugSim (sp : Spreader ℚ) (L : Nat) (k p q : ℚ) : NSim ℚ Nat :=
  { G := plugGrid sp p q, conns := sequential (regions (plugGrid sp p q).d.nLayers (plugGrid sp p q).ty (plugGrid sp p q).ls)
    mat := fillMatrixNU id (plugGrid sp p q).g (plugCfg L k).an.ana (plugGrid sp p q).d (plugGrid sp p q).ls.flatten
      (sequential (regions (plugGrid sp p q).d.nLayers (plugGrid sp p q).ty (plugGrid sp p q).ls))
    temps := List.replicate (plugGrid sp p q).nCells (exChannel .mc2rm).coolant.tIn
    sources := List.replicate (plugGrid sp p q).nCells 0, caps := capsNU (plugGrid sp p q), time := 0, plug := 0 }

theorem plug_reachable (sp : Spreader ℚ) (hsp : sp = flatSpr ∨ sp = wideSpr) (L : Nat) (k p q : ℚ) :
    ReachableNU (plugCfg L k) wet2D0 (some (exChannel .mc2rm)) (hotRaw p q) (plugElems p q) (plugSim sp L k p q) :=
  .begun ⟨plugFile sp hsp p q, runs_sequential _, 0, rfl⟩

theorem plugFits (sp : Spreader ℚ) (p q : ℚ) : ChipFits (plugGrid sp p q).d := ⟨wet2Fits.pos, wet2Fits.chip, wet2Fits.fit⟩
theorem plugSharp (sp : Spreader ℚ) (p q : ℚ) : Sharp (plugGrid sp p q) := by
  show ∀ c ∈ plugLs.flatten, ∀ c' ∈ plugLs.flatten, Apart c c'
  decide +kernel
theorem plugPhysical (sp : Spreader ℚ) (hsp : sp = flatSpr ∨ sp = wideSpr) (p q : ℚ) : PhysicalNU (plugGrid sp p q) := by
  refine ⟨wet2Physical.hts, ?_, ?_, ?_, ?_⟩
  · show ∀ c ∈ plugLs.flatten, 0 < c.length ∧ 0 < c.width
    decide +kernel
  · intro c hc hl
    have h : ∀ c ∈ plugLs.flatten, c.layer < 6 → ownMat (plugGrid flatSpr 0 0) c = exMat := by decide +kernel
    have h2 : ownMat (plugGrid sp p q) c = ownMat (plugGrid flatSpr 0 0) c := rfl
    rw [h2, h c hc hl]; exact exMat_pos
  · intro s h; simp [plugGrid] at h
  · intro s m h
    simp only [plugGrid, Option.some.injEq, TopSink.pluggable.injEq] at h
    obtain ⟨rfl, rfl⟩ := h
    rcases hsp with rfl | rfl <;> exact ⟨by norm_num [flatSpr, wideSpr], by norm_num [flatSpr, wideSpr], by norm_num [flatSpr, wideSpr], exMat_pos⟩
theorem plugFull (sp : Spreader ℚ) (p q : ℚ) : Full (plugGrid sp p q) := by
  have : ∀ lc ∈ plugLs, lc ≠ [] := by decide +kernel
  exact this
theorem plugOdd (sp : Spreader ℚ) (p q : ℚ) : OddColumns (plugGrid sp p q) := fun _ _ _ => (by decide : 5 % 2 = 1)
theorem plugChannel (sp : Spreader ℚ) (p q : ℚ) : ∀ ch, (plugGrid sp p q).g.channel = some ch → PosChannel ch := by
  intro ch h
  simp only [plugGrid, wet2Grid, Option.some.injEq] at h
  subst h
  refine ⟨?_, ?_, ?_, ?_, ?_, ?_, ⟨?_, ?_⟩, fun _ => ?_, ⟨fun _ => ?_, fun _ => ?_⟩, ?_, ?_, exMat_pos⟩ <;> norm_num [exChannel, exCoolant]
theorem plug_correct (L : Nat) (k : ℚ) : CorrectNU (plugCfg L k) := fun A b x h => Emu.exactSolve_correct h
theorem plug_complete (L : Nat) (k : ℚ) : CompleteNU (plugCfg L k) := fun A b h => Emu.exactSolve_some h
theorem plug_elements (sp : Spreader ℚ) (L : Nat) (k p q : ℚ) : elements (plugSim sp L k p q) = hotFlp p q := by
  simp [elements, plugSim, plugGrid]
theorem flat_noBorder : NoBorder flatSpr := ⟨rfl, rfl⟩
theorem wide_border : ¬ NoBorder wideSpr := fun h => by have := h.2; simp [wideSpr] at this

/-- C63_steps_succeed. -/
theorem plug_step (sp : Spreader ℚ) (hsp : sp = flatSpr ∨ sp = wideSpr) (L : Nat) (k p q : ℚ) :
    Succeeded (stepNU (plugCfg L k) (plugSim sp L k p q)).1 :=
  C63_steps_succeed (plug_reachable sp hsp L k p q) (plugFits sp p q) (plugPhysical sp hsp p q) (plugSharp sp p q) (plugChannel sp p q) rfl
    (by norm_num [plugCfg]) (plug_complete L k) (fun _ _ _ => by simp [plugCfg]) fun _ e he => by
      rw [plug_elements] at he
      simp only [hotFlp, List.mem_cons, List.not_mem_nil, or_false] at he
      rcases he with rfl | rfl <;> simp

/-- C63_spreader_cells. -/
example (p q : ℚ) : (plugGrid flatSpr p q).cells.length = 43 + 2 * 5 ∧ (capsNU (plugGrid flatSpr p q)).length = 53 ∧
    ∃ cell, (plugGrid flatSpr p q).cells[50]? = some cell ∧ cell.x0 = 36 ∧ cell.y0 = 10 := by
  have hf : FromStack wet2D0 (some (exChannel .mc2rm)) (hotRaw p q) (plugElems p q) (plugGrid flatSpr p q) := .fresh (plugFile flatSpr (Or.inl rfl) p q)
  obtain ⟨h1, h2, -, h3⟩ := C63_spreader_cells hf (sp := flatSpr) (m := exMat) rfl flat_noBorder
  obtain ⟨cell, a, -, b, -, c, -⟩ := h3 1 2 (by show 1 < 2; decide) (by show 2 < 5; decide)
  refine ⟨h1, h2, cell, a, ?_, ?_⟩
  · rw [b]; show (90 / ((5 : Nat) : ℚ)) * ((2 : Nat) : ℚ) = 36; norm_num
  · rw [c]; show (20 / ((2 : Nat) : ℚ)) * ((1 : Nat) : ℚ) = 10; norm_num

/-- C63_exchange: the first step; a die with powers `p` and `q`. -/
example (k p q : ℚ) : ∃ fl : List ℚ, (∀ r c, r < 2 → c < 5 →
    (stepNU (plugCfg 2 k) (plugSim flatSpr 2 k p q)).2.sources.getD (43 + (r * 5 + c)) 0 = - fl.getD (r * 5 + c) 0) ∧
    (stepNU (plugCfg 2 k) (plugSim flatSpr 2 k p q)).2.plug = 1 := by
  obtain ⟨prev, fl, h1, h2, -⟩ := C63_exchange (plug_reachable flatSpr (Or.inl rfl) 2 k p q) (sp := flatSpr) (m := exMat) rfl flat_noBorder
    (by show 53 < 2 ^ 32; norm_num) (plugFull flatSpr p q) (Or.inl ⟨dvd_zero _, rfl⟩) (plug_step flatSpr (Or.inl rfl) 2 k p q) (plug_correct 2 k)
  refine ⟨fl, h2, ?_⟩
  have := congrArg Prod.fst h1
  exact this.symm

/-- C63_heat_balance: the first step, all the cells at the temperature of the inlet. -/
example (k p q : ℚ) (T' : Nat → ℚ) (hT' : ∀ i, T' i = (stepNU (plugCfg 2 k) (plugSim flatSpr 2 k p q)).2.temps.getD i 0) (C : Nat → ℚ)
    (hC : ∀ i, IsCapacity (plugGrid flatSpr p q) (plugElems p q) i (C i)) : ∃ fl : List ℚ,
    ∑ i ∈ Finset.range 53, C i / (1 / 100) * (T' i - (plugSim flatSpr 2 k p q).temps.getD i 0) =
      (p + (q + 0)) + ((plugGrid flatSpr p q).cells.map (fromSinks (plugGrid flatSpr p q))).sum +
      overColumns (plugGrid flatSpr p q) (plugElems p q) (fun n ch c => stream ch (plugGrid flatSpr p q).d c *
        (ch.coolant.tIn - T' ((plugGrid flatSpr p q).at (coolantLayer n.elem ch) (2 - 1) c))) - taken_by (plugGrid flatSpr p q) fl := by
  obtain ⟨prev, fl, -, h⟩ := C63_heat_balance (plug_reachable flatSpr (Or.inl rfl) 2 k p q) (sp := flatSpr) (m := exMat) rfl flat_noBorder
    (by show 53 < 2 ^ 32; norm_num) (plugFits flatSpr p q) (plugPhysical flatSpr (Or.inl rfl) p q) (plugSharp flatSpr p q) (plugOdd flatSpr p q)
    (plugFull flatSpr p q) (by
      intro e he; rw [plug_elements] at he
      simp only [hotFlp, List.mem_cons, List.not_mem_nil, or_false] at he
      rcases he with rfl | rfl <;> simp) hC (by norm_num [plugCfg]) (Or.inl ⟨dvd_zero _, rfl⟩) (plug_step flatSpr (Or.inl rfl) 2 k p q) (plug_correct 2 k)
    (T := fun i => (plugSim flatSpr 2 k p q).temps.getD i 0) (fun _ => rfl) hT'
  rw [plug_elements] at h
  exact ⟨fl, h⟩

/-- The capacities asked for in that example exist. -/
example (p q : ℚ) : ∃ C : Nat → ℚ, ∀ i, IsCapacity (plugGrid flatSpr p q) (plugElems p q) i (C i) := by
  have hf : FromStack wet2D0 (some (exChannel .mc2rm)) (hotRaw p q) (plugElems p q) (plugGrid flatSpr p q) := .fresh (plugFile flatSpr (Or.inl rfl) p q)
  refine ⟨fun i => ((plugGrid flatSpr p q).cells[i]?).elim 0 (capacityNU (plugGrid flatSpr p q).g (plugGrid flatSpr p q).d), fun i => ?_⟩
  cases hcc : (plugGrid flatSpr p q).cells[i]? with
  | none => intro cell h'; rw [hcc] at h'; cases h'
  | some c =>
    simp only [hcc, Option.elim_some]
    exact C59_capacities hf (plugFits flatSpr p q) (plugPhysical flatSpr (Or.inl rfl) p q) (plugSharp flatSpr p q) i c hcc

/-- C63_equilibrium_partial: without power nothing changes. -/
example (k : ℚ) : ∀ i, i < 53 → (stepNU (plugCfg 2 k) (plugSim flatSpr 2 k 0 0)).2.temps.getD i 0 = 300 := by
  have h := C63_equilibrium_partial (plug_reachable flatSpr (Or.inl rfl) 2 k 0 0) (sp := flatSpr) (m := exMat) rfl flat_noBorder
    (by show 53 < 2 ^ 32; norm_num) (plugFits flatSpr 0 0) (plugPhysical flatSpr (Or.inl rfl) 0 0) (plugSharp flatSpr 0 0) (plugOdd flatSpr 0 0)
    (plugFull flatSpr 0 0) (plugChannel flatSpr 0 0) (by norm_num [plugCfg]) (by
      intro e he; rw [plug_elements] at he
      simp only [hotFlp, List.mem_cons, List.not_mem_nil, or_false] at he
      rcases he with rfl | rfl <;> rfl) rfl (T := 300) (by
      intro ch h; simp only [plugSim, plugGrid, wet2Grid, Option.some.injEq] at h; subst h; rfl) (Or.inl ⟨dvd_zero _, rfl⟩)
    (plug_step flatSpr (Or.inl rfl) 2 k 0 0) (by
      intro prev q hq i
      simp only [plugCfg, Option.some.injEq] at hq
      subst hq
      rw [List.getD_eq_getElem?_getD, List.getElem?_map]
      cases hT : (spreaderTemps (plugSim flatSpr 2 k 0 0).G fun _ => (300 : ℚ))[i]? with
      | none => rfl
      | some t =>
        have : t = 300 := by
          obtain ⟨r, -, ht⟩ := List.mem_flatMap.mp (List.mem_of_getElem? hT)
          obtain ⟨c, -, rfl⟩ := List.mem_map.mp ht
          rfl
        subst this
        show k * (300 - 300) = 0
        ring) (plug_correct 2 k) (by
      intro i hi
      show (List.replicate 53 (300 : ℚ)).getD i 0 = 300
      have hi' : i < 53 := hi
      rw [List.getD_eq_getElem?_getD, List.getElem?_replicate, if_pos hi']; rfl)
  exact h

/-- **C63 (violated)** The same stack, with a spreader one cell longer at both ends: 57 capacities are written into an array of 53; in the
first step the plugin gets the temperatures from cell 39 on, a cell of the channel, and the power of the die (cells 41 and 42) is replaced by
the heat flows of the plugin. -/
theorem C63_lost_power_violated (k p q : ℚ) :
    53 < (capsNU (plugGrid wideSpr p q)).length ∧
    ∃ (prev fl : List ℚ), (plugCfg 2 k).plugin 0 ((plugSim wideSpr 2 k p q).temps.drop 39) prev = (1, some fl) ∧
      (stepNU (plugCfg 2 k) (plugSim wideSpr 2 k p q)).2.sources.getD 41 0 = - fl.getD 2 0 ∧
      (stepNU (plugCfg 2 k) (plugSim wideSpr 2 k p q)).2.sources.getD 42 0 = - fl.getD 3 0 ∧
      ∃ c, (plugGrid wideSpr p q).cells[41]? = some c ∧ c.layer = 5 ∧ (plugGrid wideSpr p q).flps[5]? = some (some (hotFlp p q)) := by
  have hf : FromStack wet2D0 (some (exChannel .mc2rm)) (hotRaw p q) (plugElems p q) (plugGrid wideSpr p q) := .fresh (plugFile wideSpr (Or.inr rfl) p q)
  refine ⟨C63_capacity_overflow_violated hf (sp := wideSpr) (m := exMat) rfl wide_border, ?_⟩
  obtain ⟨o, h1, h2, prev, fl, h3, h4⟩ := C63_border_violated (plug_reachable wideSpr (Or.inr rfl) 2 k p q) (sp := wideSpr) (m := exMat) rfl wide_border
    (by show 53 < 2 ^ 32; norm_num) (by show 2 * 7 ≤ 53; decide) (plugFull wideSpr p q) (dvd_zero _) (plug_step wideSpr (Or.inr rfl) 2 k p q)
  have hn : (plugSim wideSpr 2 k p q).G.cells.length = 53 := rfl
  have ho : o = 39 := by
    have e : o + 2 * 7 = 53 := h1
    omega
  subst ho
  refine ⟨prev, fl, ?_, h4 41 (by decide) (by rw [hn]; decide), h4 42 (by decide) (by rw [hn]; decide), _, rfl, rfl, rfl⟩
  have e : (stepNU (plugCfg 2 k) (plugSim wideSpr 2 k p q)).2.plug = 1 := by
    have := congrArg Prod.fst h3
    exact this.symm
  rw [← e]
  exact h3

end Verif.NU
