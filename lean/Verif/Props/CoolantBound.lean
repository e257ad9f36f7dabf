import Verif.Props.Monotone
import Verif.Props.Equilibrium

/-! **C25** The bounds do not hold with coolant: the flow is discretized with central differences, so a cell of the coolant in front of a hot one is
computed too cold. -/

set_option linter.unusedSectionVars false
set_option linter.unusedSimpArgs false
set_option linter.unusedVariables false
set_option maxRecDepth 4000

namespace Verif.Emu
open Verif.Dim Verif.TG Verif.SM Verif.Flp Verif.Stk

/-! ### The chip: 0.1 mm × 1 mm of silicon, one channel of water (0.42 ml/min), two cells along the flow; one power source over the second cell -/

def coldMat : Material ℚ := ⟨3 / 20000, 3 / 20000, 3 / 20000, 1628 / 10 ^ 15⟩
def coldChannel : Channel ℚ := ⟨.mc2rm, 100, 50, 1 / 2, 1, coldMat, ⟨27 / 10 ^ 9, 27 / 10 ^ 9, 27 / 10 ^ 9, 4172 / 10 ^ 15, 7 * 10 ^ 9, 0, 300⟩, fun x => x + 1, fun x => x + 1⟩
def coldDims : Dims ℚ :=
  { firstWall := 100, wall := 100, channel := 100, lastWall := 100, width := 500, heights := [], nLayers := 0, nRows := 2, nCols := 1, nCells := 0,
    chipLength := 100, chipWidth := 1000 }
def coldD : Dims ℚ := { coldDims with nLayers := 6, nCells := 12, heights := [50, 100, 100, 100, 100, 50] }
def coldG : TGrid ℚ :=
  { nLayers := 6, types := [.source, .bottomWall, .vwallCh, .ch2rm, .topWall, .solidAmb],
    layers := [⟨50, coldMat, []⟩, ⟨100, coldMat, []⟩, ⟨100, coldMat, []⟩, ⟨100, coldMat, []⟩, ⟨100, coldMat, []⟩, ⟨50, coldMat, []⟩],
    channel := some coldChannel, top := some (.ambient ⟨1 / 10 ^ 9, 300⟩), bottom := none }
def coldRaw (f : List (FlpEl ℚ)) : List (Raw ℚ (List (FlpEl ℚ))) :=
  [⟨"lid", .layer ⟨50, coldMat, []⟩⟩, ⟨"ch", .channel⟩, ⟨"die", .die ⟨[], ⟨50, coldMat, []⟩, [], f⟩⟩]
noncomputable def coldCfg : Cfg ℚ Unit :=
  { d := coldD, an := ⟨.transient, 1 / 50, 1, 300⟩, solve := exactSolve 12, factor := fun _ => true, plugin := fun u _ _ => (u, some []) }
noncomputable def coldSim (f : List (FlpEl ℚ)) : Sim ℚ Unit :=
  { g := coldG, mat := fillMatrix coldG coldCfg.an.ana coldD, temps := List.replicate coldD.nCells 300, sources := List.replicate coldD.nCells 0,
    caps := capList coldG coldD, topTcs := topList coldG coldD, botTcs := botList coldG coldD, flps := [some f, none, none, none, none, none], time := 0, plug := () }
def hotSpot (p : List ℚ) : RawEl ℚ := ⟨"hot", [⟨0, 500, 100, 500⟩], p⟩

theorem cold_builtFrom (f : List (FlpEl ℚ)) : ∃ p, BuiltFrom coldDims (some coldChannel) (coldRaw f) p coldG ∧
    p.dims = coldD ∧ fillFloorplans p.dims.nLayers p.elems = [some f, none, none, none, none, none] := by
  refine ⟨⟨[⟨"die", .die ⟨[⟨50, coldMat, []⟩], 0, f⟩, 0⟩, ⟨"ch", .channel coldChannel, 1⟩, ⟨"lid", .layer ⟨50, coldMat, []⟩, 5⟩], coldD,
    SM.numConnections { coldDims with nLayers := 6, heights := [50, 100, 100, 100, 100, 50] } .mc2rm 1 none⟩, ⟨?_, ?_, ?_, ?_, ?_, ?_⟩, rfl, rfl⟩
  · exact (by decide : 1 ≤ coldD.nRows)
  · exact (by decide : 1 ≤ coldD.nCols)
  · intro s h; simp [spreaderOf, coldG] at h
  · rintro ch h; simp only [Option.some.injEq] at h; subst h; simp [coldChannel]
  · rfl
  · rfl

theorem coldBuilt : Built (List (FlpEl ℚ)) coldG coldD := by
  obtain ⟨p, h1, h2, -⟩ := cold_builtFrom []
  rw [← h2]; exact h1.built

theorem coldMat_pos : PosMat coldMat := by unfold PosMat coldMat; norm_num

theorem coldPhysical : Physical coldG coldD := by
  refine ⟨by norm_num [coldD, coldDims], by norm_num [coldD, coldDims], ?_, ?_, ?_, ?_, ?_, ?_⟩
  · intro h hh; simp [coldD] at hh; rcases hh with rfl | rfl | rfl <;> norm_num
  · intro ly hly
    simp only [coldG, List.mem_cons, List.not_mem_nil, or_false] at hly
    rcases hly with rfl | rfl | rfl | rfl | rfl | rfl <;> exact ⟨coldMat_pos, by intro m hm; cases hm⟩
  · intro s h; simp [coldG] at h; subst h; norm_num
  · intro s h; simp [coldG] at h
  · intro s m h; simp [coldG] at h
  · intro ch h; simp [coldG] at h; subst h; norm_num [CoolantOk, coldChannel]

theorem cold_started (f : List (FlpEl ℚ)) : Started coldCfg (coldRaw f) (coldSim f) := by
  obtain ⟨p, h1, h2, h3⟩ := cold_builtFrom f
  refine ⟨coldDims, _, p, (), h1, h2.symm, ?_⟩
  unfold build; rw [if_pos (by rfl), h3]; rfl

theorem cold_reachable (f : List (FlpEl ℚ)) : Reachable coldCfg (coldSim f) := ⟨_, _, [], cold_started f, rfl⟩
theorem cold_correct : Correct coldCfg := fun A b x h => exactSolve_correct h

theorem coldGrid : GoodGrid coldD := by
  have hs : Sized coldD := ⟨by simp [coldD, coldDims, W], by simp [coldD, coldDims, W]⟩
  exact ⟨hs, by norm_num [coldD, coldDims], by norm_num [coldD, coldDims], covers_uniform hs 100 rfl rfl rfl rfl⟩

theorem cold_inGrid (p : List ℚ) : ∀ e ∈ (hotSpot p).rects, InGrid coldD e := by
  have hl : gridLength coldD = 100 := by
    rw [gridLength_uniform coldGrid.sized 100 rfl rfl rfl rfl]; norm_num [coldD, coldDims]
  have hw : gridWidth coldD = 1000 := by rw [gridWidth_eq coldGrid.sized]; norm_num [coldD, coldDims]
  intro e he
  simp [hotSpot] at he
  subst he
  constructor <;> norm_num [hl, hw]

theorem cold_parse (p : List ℚ) : ∃ e : FlpEl ℚ, List.Forall₂ (From coldD) [hotSpot p] [e] ∧ e.powers = p := by
  obtain ⟨e, h⟩ := parse_total coldGrid (raw := hotSpot p) (by simp [hotSpot]) (cold_inGrid p) (by
    intro e he
    simp [hotSpot] at he
    subst he
    norm_num [checkLocation, epsilon, coldD, coldDims])
  exact ⟨{ e with powers := p }, .cons ⟨e, h, rfl, rfl⟩ .nil, rfl⟩

def coldRaws (p : List ℚ) : Nat → List (RawEl ℚ)
  | 0 => [hotSpot p]
  | _ => []

theorem cold_readFrom {p : List ℚ} {e : FlpEl ℚ} (h : List.Forall₂ (From coldD) [hotSpot p] [e]) : ReadFrom coldCfg.d (coldRaws p) (coldSim [e]) := by
  refine ⟨coldGrid, ?_, ?_⟩
  · intro l hl
    have hl : l < 6 := hl
    interval_cases l
    · exact h
    all_goals exact .nil
  · intro l hl raw hr
    cases l with
    | zero => simp [coldRaws] at hr; subst hr; exact cold_inGrid p
    | succ l => simp [coldRaws] at hr

theorem cold_surroundings (f : List (FlpEl ℚ)) : Surroundings (coldSim f).g 300 := by
  refine ⟨?_, ?_, ?_⟩
  · intro sk h; simp [coldSim, coldG] at h; subst h; rfl
  · intro sk h; simp [coldSim, coldG] at h
  · intro ch h; simp [coldSim, coldG] at h; subst h; rfl

theorem cold_uniform (f : List (FlpEl ℚ)) : Uniform coldCfg.d (coldSim f) 300 := by
  intro i hi
  have hi : i < 12 := hi
  show (List.replicate 12 (300 : ℚ)).getD i 0 = 300
  rw [List.getD_eq_getElem?_getD, List.getElem?_replicate, if_pos hi]; rfl

theorem cold_step {s : Sim ℚ Unit} (h : Good coldCfg s) (hg : s.g = coldG) (ht : s.time = 0) (hp : ∀ e ∈ elements s, e.powers ≠ []) :
    Succeeded (emulateStep coldCfg s).1 := by
  have hm : s.mat = fillMatrix coldG ⟨true, 1 / 50⟩ coldD := by rw [h.mat, hg]; rfl
  rw [step_start (cfg := coldCfg) h.ready rfl (by rw [ht]; rfl) hp]
  have hfin : ∀ s1 : Sim ℚ Unit, s1.g = coldG → s1.mat = fillMatrix coldG ⟨true, 1 / 50⟩ coldD → Succeeded (finishStep coldCfg s1).1 := by
    intro s1 hg1 hm1
    have hpl : pluggable coldCfg s1 = (s1, true) := by unfold pluggable; rw [hg1]; rfl
    obtain ⟨x, hx⟩ := exactSolve_some (n := 12) (A := s1.mat) (b := fillSystemVector coldCfg s1)
      (by rw [hm1]; exact C22_coolant_step_unique coldBuilt coldPhysical ⟨true, 1 / 50⟩ rfl (by norm_num) _)
    rw [finish_ok hpl hx]
    simp only
    generalize slotCompleted _ _ = b
    cases b
    · exact Or.inl rfl
    · exact Or.inr rfl
  exact hfin _ hg hm

/-! ### Its matrix -/

def coldM : List (List ℚ) := [[303407/2000000, -3/2000, -3/20, 0, 0, 0, 0, 0, 0, 0, 0, 0],
  [-3/2000, 303407/2000000, 0, -3/20, 0, 0, 0, 0, 0, 0, 0, 0],
  [-3/20, 0, 4527/20000, 0, -3/40, 0, -27/20000, 0, 0, 0, 0, 0],
  [0, -3/20, 0, 4527/20000, 0, -3/40, 0, -27/20000, 0, 0, 0, 0],
  [0, 0, -3/40, 0, 303407/2000000, -3/2000, 0, 0, -3/40, 0, 0, 0],
  [0, 0, 0, -3/40, -3/2000, 303407/2000000, 0, 0, 0, -3/40, 0, 0],
  [0, 0, -27/20000, 0, 0, 0, 35647/2000000, 7301/500000, -27/20000, 0, 0, 0],
  [0, 0, 0, -27/20000, 0, 0, -7301/500000, 35647/2000000, 0, -27/20000, 0, 0],
  [0, 0, 0, 0, -3/40, 0, -27/20000, 0, 7527/20000, 0, -3/10, 0],
  [0, 0, 0, 0, 0, -3/40, 0, -27/20000, 0, 7527/20000, 0, -3/10],
  [0, 0, 0, 0, 0, 0, 0, 0, -3/10, 0, 3621645407/12002000000, -3/2000],
  [0, 0, 0, 0, 0, 0, 0, 0, 0, -3/10, -3/2000, 3621645407/12002000000]]

theorem cold_entries : ∀ i, i < 12 → ∀ j, j < 12 → (fillMatrix coldG ⟨true, 1 / 50⟩ coldD).entry i j = (coldM.getD i []).getD j 0 := by decide +kernel

/-- The cell of the coolant at the inlet, solved for. -/
theorem cold_solution {y b : Nat → ℚ} (h : Solves 12 (fillMatrix coldG ⟨true, 1 / 50⟩ coldD).entry y b) {p : ℚ} (hb : ∀ i, i < 12 → b i = if i = 1 then p else 0) :
    y 6 = (-108482018369453125746481149311445752976773883897600000000/23502176778116225124716345977243405690111375735251591277) * p := by
  have key : ∀ i, i < 12 → ∑ j ∈ Finset.range 12, (coldM.getD i []).getD j 0 * y j = if i = 1 then p else 0 := by
    intro i hi
    rw [← hb i hi, ← h i hi]
    exact Finset.sum_congr rfl fun j hj => by rw [cold_entries i hi j (Finset.mem_range.mp hj)]
  have e0 := key 0 (by norm_num)
  have e1 := key 1 (by norm_num)
  have e2 := key 2 (by norm_num)
  have e3 := key 3 (by norm_num)
  have e4 := key 4 (by norm_num)
  have e5 := key 5 (by norm_num)
  have e6 := key 6 (by norm_num)
  have e7 := key 7 (by norm_num)
  have e8 := key 8 (by norm_num)
  have e9 := key 9 (by norm_num)
  have e10 := key 10 (by norm_num)
  have e11 := key 11 (by norm_num)
  simp only [Finset.sum_range_succ, Finset.sum_range_zero, coldM, List.getD_cons_zero, List.getD_cons_succ] at e0 e1 e2 e3 e4 e5 e6 e7 e8 e9 e10 e11
  norm_num at e0 e1 e2 e3 e4 e5 e6 e7 e8 e9 e10 e11
  linear_combination (19181589079183644998616814199473625714123385748800000000/2136561525283293193156031452476673244555579612295599207) * e0 + (-108482018369453125746481149311445752976773883897600000000/23502176778116225124716345977243405690111375735251591277) * e1 + (214478528101116511120960308839836583954752322501468592000/23502176778116225124716345977243405690111375735251591277) * e2 + (-111823987290112416027723203125734837406633685071431744000/23502176778116225124716345977243405690111375735251591277) * e3 + (19172577387047213049941015830447836300116844148800000000/2136561525283293193156031452476673244555579612295599207) * e4 + (-108416382080134471885998904744130458642199000697600000000/23502176778116225124716345977243405690111375735251591277) * e5 + (800160378311672058007618086404491409080152066612900592000/23502176778116225124716345977243405690111375735251591277) * e6 + (-672465267917697121817079092580320816526316280710055744000/23502176778116225124716345977243405690111375735251591277) * e7 + (214276706607087321438612947193416380894125421907180592000/23502176778116225124716345977243405690111375735251591277) * e8 + (-111689241320287035586698951634979620347749835339015744000/23502176778116225124716345977243405690111375735251591277) * e9 + (212484818921808684596367867331589088665498336073600000000/23502176778116225124716345977243405690111375735251591277) * e10 + (-109983964010636831123837252723437875391333994995200000000/23502176778116225124716345977243405690111375735251591277) * e11

/-! ### The theorem -/

/-- **C25 with coolant: refuted.** A chip of silicon with a channel of water, at 300 kelvin like its ambient and the incoming water, is heated with the power `p`, which
can be chosen. One step later a cell of the coolant has the temperature `300 - c * p` with a positive `c`: *colder* than everything was if `p` is positive, and
the colder the more power is dissipated. Neither the lower bound nor the monotonicity of solid stacks holds with coolant. -/
theorem C25_coolant_violated : ∃ (cfg : Cfg ℚ Unit) (i : Nat) (c : ℚ), Correct cfg ∧ i < cfg.d.nCells ∧ 0 < c ∧ ∀ p : ℚ, ∃ (s : Sim ℚ Unit) (raws : Nat → List (RawEl ℚ)),
    Reachable cfg s ∧ Physical s.g cfg.d ∧ ReadFrom cfg.d raws s ∧ s.time = 0 ∧ Surroundings s.g 300 ∧ Uniform cfg.d s 300 ∧ traces s = [[p]] ∧
    Succeeded (emulateStep cfg s).1 ∧ (emulateStep cfg s).2.temps.getD i 0 = 300 - c * p := by
  refine ⟨coldCfg, 6, -(-108482018369453125746481149311445752976773883897600000000/23502176778116225124716345977243405690111375735251591277), cold_correct, by decide, by norm_num, fun p => ?_⟩
  obtain ⟨e, he, hpw⟩ := cold_parse [p]
  have hr := cold_reachable [e]
  have hg := reachable_good hr
  have hel : elements (coldSim [e]) = [e] := by simp [elements, coldSim]
  have hs : Succeeded (emulateStep coldCfg (coldSim [e])).1 := cold_step hg rfl rfl (by rw [hel]; simp [hpw])
  refine ⟨coldSim [e], coldRaws [p], hr, coldPhysical, cold_readFrom he, rfl, cold_surroundings _, cold_uniform _, ?_, hs, ?_⟩
  · unfold traces; rw [hel]; simp [hpw]
  obtain ⟨-, -, heq, -⟩ := step_eq hg cold_correct hs
  have hbal := balanced_any hg.wf coldPhysical coldCfg.an.ana (cold_surroundings [e]) (.inl (by decide))
    (S := fun i => (slotSources coldCfg.d (coldSim [e])).getD i 0 - if i = 1 then p else 0) (by
      intro l r c hl hrr hc
      have hsl := slot_at hg (cold_readFrom he) hl hrr hc
      have hl' : l < 6 := hl
      have hrr' : r < 2 := hrr
      have hc' : c < 1 := hc
      obtain rfl : c = 0 := by omega
      have hoff : ∀ l, l < 6 → ∀ r, r < 2 → offInStack coldD l r 0 = l * 2 + r := by decide +kernel
      have hoff : offInStack coldCfg.d l r 0 = l * 2 + r := hoff l hl' r hrr'
      show (slotSources coldCfg.d (coldSim [e])).getD (offInStack coldCfg.d l r 0) 0 - (if offInStack coldCfg.d l r 0 = 1 then p else 0) = _
      have hpw' : powerIn coldCfg.d (coldRaws [p] l) (floorplan (coldSim [e]) l) r 0 = if offInStack coldCfg.d l r 0 = 1 then p else 0 := by
        rw [hoff]
        cases l with
        | zero =>
          have hsh : ∀ r, r < 2 → share coldD [⟨0, 500, 100, 500⟩] r 0 = if r = 1 then 1 else 0 := by decide +kernel
          show (([hotSpot [p]].zip [e]).map fun q => next q.2 * share coldD q.1.rects r 0).sum = _
          have hn : next e = p := by unfold next; rw [hpw]; rfl
          simp only [List.zip_cons_cons, List.zip_nil_left, List.map_cons, List.map_nil, List.sum_cons, List.sum_nil, hotSpot, hn, hsh r hrr']
          simp
        | succ l =>
          rw [if_neg (by omega)]
          rfl
      rw [hsl, hpw']; ring) (by
      intro k hk
      have hk : k < 0 := hk
      omega)
  have hdiff : Solves 12 (fillMatrix coldG ⟨true, 1 / 50⟩ coldD).entry (fun i => (emulateStep coldCfg (coldSim [e])).2.temps.getD i 0 - 300)
      (fun i => if i = 1 then p else 0) := by
    intro i hi
    have h1 := heq i hi
    have h2 := hbal i hi
    simp only at h1 h2
    rw [step_sources hg hs (show i < chip coldCfg.d from hi), if_pos (show (coldSim [e]).time % coldCfg.an.slotLength = 0 from rfl), hg.caps, cold_uniform [e] i hi] at h1
    rw [storage_transient (show coldCfg.an.ana.transient = true from rfl)] at h2
    simp only [mul_sub, Finset.sum_sub_distrib]
    have h1' : ∑ j ∈ Finset.range 12, (fillMatrix coldG ⟨true, 1 / 50⟩ coldD).entry i j * (emulateStep coldCfg (coldSim [e])).2.temps.getD j 0 = _ := h1
    have h2' : ∑ j ∈ Finset.range 12, (fillMatrix coldG ⟨true, 1 / 50⟩ coldD).entry i j * 300 = _ := h2
    rw [h1', h2']
    have : (coldSim [e]).g = coldG := rfl
    have h3 : coldCfg.an.ana.stepTime = coldCfg.an.stepTime := rfl
    rw [this, h3]
    ring
  have := cold_solution hdiff (p := p) (fun i hi => rfl)
  linarith

end Verif.Emu
