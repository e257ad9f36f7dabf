import Verif.Props.Monotone
import Verif.Props.Steady
import Verif.Lemmas.SteadySign

/-! **C25** Bounds and comparison of steady states on uniform grids without coolant. -/

set_option linter.unusedSectionVars false
set_option linter.unusedSimpArgs false
set_option linter.unusedVariables false

namespace Verif.Emu
open Verif.Dim Verif.TG Verif.SM Verif.Flp Verif.Stk

variable {K : Type} [Field K] [LinearOrder K] [IsStrictOrderedRing K] {π ρ : Type}

theorem solid_notStacked {g : TGrid K} {d : Dims K} (wf : WF g d) (hp : Physical g d) (hc : g.channel = none) : NotStacked g d := by
  intro l hl h
  have hs := solid_of_no_channel wf hp hc (show l < d.nLayers by omega)
  rw [h.1] at hs
  cases hs

/-- The sum of a row of the steady equations of a cell of a stack without coolant. -/
theorem solid_row {g : TGrid K} {d : Dims K} (wf : WF g d) (hp : Physical g d) (hc : g.channel = none) {a : Ana K} (hat : a.transient = false) {l r c : Nat}
    (hl : l < d.nLayers) (hr : r < d.nRows) (hcc : c < d.nCols) :
    ∑ j ∈ Finset.range d.nCells, (fillMatrix g a d).entry (offInStack d l r c) j = ambientTerm g d l r c := by
  have := row_sum wf hp a (p := .box l r c) ⟨hl, hr, hcc⟩
  rw [box_offset] at this
  rw [this]
  have hin : inletG g d l r c = 0 := by
    unfold inletG; rw [if_neg (fun hx => no_coolant wf hp hc hl hx.1)]
  simp [hin, storage, hat]

/-- The sign of what steady temperatures differ from `m` by. -/
theorem steady_sign {g : TGrid K} {d : Dims K} (wf : WF g d) (hp : Physical g d) (hso : Solid g) (hh : HeatLeaves g d) {σ m : K} {P : Nat → Nat → Nat → K}
    {T : List K} (hT : SteadyState g d P T)
    (hP : ∀ l r c, l < d.nLayers → r < d.nRows → c < d.nCols → 0 ≤ σ * (P l r c - ambientTerm g d l r c * m)) :
    ∀ i, i < d.nCells → 0 ≤ σ * (T.getD i 0 - m) := by
  refine solid_steady wf hp hso.noCoolant (solid_notStacked wf hp hso.noCoolant) hh (solid_no_spreader hso) (a := ⟨false, 1⟩) rfl
    (x := fun i => σ * (T.getD i 0 - m)) fun i hi => ?_
  obtain ⟨p, hv, rfl⟩ := exists_cell wf hi
  cases p with
  | spr r c => obtain ⟨sp, mm, ht, -⟩ := hv; exact absurd ht (hso.noPlugin sp mm)
  | box l r c =>
    have e := hT l r c hv.1 hv.2.1 hv.2.2
    have e2 := solid_row wf hp hso.noCoolant (a := ⟨false, 1⟩) rfl hv.1 hv.2.1 hv.2.2
    rw [box_offset]
    have e1 : ∑ j ∈ Finset.range d.nCells, (fillMatrix g ⟨false, 1⟩ d).entry (offInStack d l r c) j * (σ * (T.getD j 0 - m)) =
        σ * ((∑ j ∈ Finset.range d.nCells, (fillMatrix g ⟨false, 1⟩ d).entry (offInStack d l r c) j * T.getD j 0) -
          (∑ j ∈ Finset.range d.nCells, (fillMatrix g ⟨false, 1⟩ d).entry (offInStack d l r c) j) * m) := by
      rw [Finset.sum_mul, ← Finset.sum_sub_distrib, Finset.mul_sum]
      exact Finset.sum_congr rfl fun j _ => by ring
    rw [e1, e, e2]
    exact hP l r c hv.1 hv.2.1 hv.2.2

theorem solid_inlet {g : TGrid K} {d : Dims K} (wf : WF g d) (hp : Physical g d) (hc : g.channel = none) {l r c : Nat} (hl : l < d.nLayers) :
    inletTerm g d l r c = 0 := by
  unfold inletTerm; rw [if_neg (fun hx => no_coolant wf hp hc hl hx.2)]

theorem steady_bound {cfg : Cfg K π} {s : Sim K π} (h : Reachable cfg s) (hc : Correct cfg) (hp : Physical s.g cfg.d) (hso : Solid s.g)
    (hh : HeatLeaves s.g cfg.d) {raws : Nat → List (RawEl K)} (hf : ReadFrom cfg.d raws s) {σ m : K}
    (htop : ∀ sk, s.g.top = some (.ambient sk) → 0 ≤ σ * (sk.tAmb - m)) (hbot : ∀ sk, s.g.bottom = some sk → 0 ≤ σ * (sk.tAmb - m))
    (hne : ∀ tr ∈ traces s, tr ≠ []) (hpow : Powers (fun v => 0 ≤ σ * v) s) (hs : (emulateSteady cfg s).1 = .endOfSimulation) :
    ∀ i, i < cfg.d.nCells → 0 ≤ σ * ((emulateSteady cfg s).2.temps.getD i 0 - m) := by
  have hg := reachable_good h
  refine steady_sign hg.wf hp hso hh (C46_steady_result h hc hf hne hs) fun l r c hl hr hcc => ?_
  have k2 := sink_sign hg.wf hp htop hbot hl hr hcc
  have k1 := powerIn_sign σ (hf.inGrid l hl) (powers_next (P := fun v : K => 0 ≤ σ * v) (by simp) hpow l) r c
  unfold heatIn
  rw [solid_inlet hg.wf hp hso.noCoolant hl, add_zero]
  have : σ * (powerIn cfg.d (raws l) (floorplan s l) r c + sinkTerm s.g cfg.d l r c - ambientTerm s.g cfg.d l r c * m) =
    σ * powerIn cfg.d (raws l) (floorplan s l) r c + σ * (sinkTerm s.g cfg.d l r c - ambientTerm s.g cfg.d l r c * m) := by ring
  rw [this]
  exact add_nonneg k1 k2

/-- **C25 (steady state)** Without coolant and with powers that are not negative, no cell of the steady state is colder than both ambients. -/
theorem C25_steady_never_below {cfg : Cfg K π} {s : Sim K π} (h : Reachable cfg s) (hc : Correct cfg) (hp : Physical s.g cfg.d) (hso : Solid s.g)
    (hh : HeatLeaves s.g cfg.d) {raws : Nat → List (RawEl K)} (hf : ReadFrom cfg.d raws s) {m : K}
    (htop : ∀ sk, s.g.top = some (.ambient sk) → m ≤ sk.tAmb) (hbot : ∀ sk, s.g.bottom = some sk → m ≤ sk.tAmb)
    (hne : ∀ tr ∈ traces s, tr ≠ []) (hpow : ∀ tr ∈ traces s, ∀ v ∈ tr, 0 ≤ v) (hs : (emulateSteady cfg s).1 = .endOfSimulation) :
    AtLeast cfg.d (emulateSteady cfg s).2 m := by
  intro i hi
  have := steady_bound h hc hp hso hh hf (σ := 1) (m := m) (by intro sk e; have := htop sk e; linarith) (by intro sk e; have := hbot sk e; linarith) hne
    (by intro e he v hv; rw [one_mul]; exact hpow e.powers (List.mem_map.mpr ⟨e, he, rfl⟩) v hv) hs i hi
  linarith

/-- **C25 (steady state)** Without coolant and without power, no cell of the steady state is hotter than both ambients. -/
theorem C25_steady_never_above {cfg : Cfg K π} {s : Sim K π} (h : Reachable cfg s) (hc : Correct cfg) (hp : Physical s.g cfg.d) (hso : Solid s.g)
    (hh : HeatLeaves s.g cfg.d) {raws : Nat → List (RawEl K)} (hf : ReadFrom cfg.d raws s) {m : K}
    (htop : ∀ sk, s.g.top = some (.ambient sk) → sk.tAmb ≤ m) (hbot : ∀ sk, s.g.bottom = some sk → sk.tAmb ≤ m)
    (hne : ∀ tr ∈ traces s, tr ≠ []) (hpow : ∀ tr ∈ traces s, ∀ v ∈ tr, v ≤ 0) (hs : (emulateSteady cfg s).1 = .endOfSimulation) :
    AtMost cfg.d (emulateSteady cfg s).2 m := by
  intro i hi
  have := steady_bound h hc hp hso hh hf (σ := -1) (m := m) (by intro sk e; have := htop sk e; linarith) (by intro sk e; have := hbot sk e; linarith) hne
    (by intro e he v hv; have := hpow e.powers (List.mem_map.mpr ⟨e, he, rfl⟩) v hv; linarith) hs i hi
  linarith

/-- **C25 (steady state, comparison)** Two steady states of the same stack without coolant: if in the second simulation both ambient temperatures and the
power values are at least those of the first one, every cell is at least as hot. -/
theorem C25_steady_monotone {cfg : Cfg K π} {cfg' : Cfg K ρ} (hd : cfg'.d = cfg.d) {s : Sim K π} {s' : Sim K ρ} (h : Reachable cfg s) (h' : Reachable cfg' s')
    (hc : Correct cfg) (hc' : Correct cfg') (hp : Physical s.g cfg.d) (hso : Solid s.g) (hh : HeatLeaves s.g cfg.d) {raws : Nat → List (RawEl K)}
    (hf : ReadFrom cfg.d raws s) (hf' : ReadFrom cfg.d raws s') {a b : K} (hamb : s'.g = withAmb s.g a b)
    (htop : ∀ sk, s.g.top = some (.ambient sk) → sk.tAmb ≤ a) (hbot : ∀ sk, s.g.bottom = some sk → sk.tAmb ≤ b)
    (hne : ∀ tr ∈ traces s, tr ≠ []) (hpow : List.Forall₂ (List.Forall₂ (· ≤ ·)) (traces s) (traces s'))
    (hs : (emulateSteady cfg s).1 = .endOfSimulation) (hs' : (emulateSteady cfg' s').1 = .endOfSimulation) :
    ∀ i, i < cfg.d.nCells → (emulateSteady cfg s).2.temps.getD i 0 ≤ (emulateSteady cfg' s').2.temps.getD i 0 := by
  have hg := reachable_good h
  have hg' := reachable_good h'
  have hne' : ∀ tr ∈ traces s', tr ≠ [] := by
    revert hne
    generalize traces s = A at hpow
    generalize traces s' = B at hpow
    induction hpow with
    | nil => intro _ tr htr; cases htr
    | cons hx _ ih =>
      intro hne tr htr
      rcases List.mem_cons.mp htr with rfl | htr
      · intro e
        rw [e] at hx
        exact hne _ List.mem_cons_self (List.forall₂_nil_right_iff.mp hx)
      · exact ih (fun t ht => hne t (List.mem_cons_of_mem _ ht)) tr htr
  have hT := C46_steady_result h hc hf hne hs
  have hT' := C46_steady_result h' hc' (raws := raws) (by rw [hd]; exact hf') hne' hs'
  rw [hd, hamb] at hT'
  generalize (emulateSteady cfg s).2.temps = T at *
  generalize (emulateSteady cfg' s').2.temps = T' at *
  intro i hi
  refine sub_nonneg.mp (solid_steady hg.wf hp hso.noCoolant (solid_notStacked hg.wf hp hso.noCoolant) hh (solid_no_spreader hso) (a := ⟨false, 1⟩) rfl
    (x := fun i => T'.getD i 0 - T.getD i 0) (fun i hi => ?_) i hi)
  obtain ⟨p, hv, rfl⟩ := exists_cell hg.wf hi
  cases p with
  | spr r c => exact absurd hv (no_spr hso)
  | box l r c =>
    obtain ⟨hl, hr, hcc⟩ := hv
    have e := hT l r c hl hr hcc
    have e' := hT' l r c hl hr hcc
    rw [fill_withAmb] at e'
    rw [box_offset]
    simp only [mul_sub, Finset.sum_sub_distrib]
    rw [e, e', sub_nonneg]
    unfold heatIn
    rw [hd, solid_inlet hg.wf hp hso.noCoolant hl, add_zero]
    have hi' : inletTerm s'.g cfg.d l r c = 0 := by
      unfold inletTerm
      rw [if_neg (fun hx => ?_)]
      rw [hamb] at hx
      exact withAmb_noCoolant hg.wf hp hso.noCoolant hl hx.2
    rw [hi', add_zero, hamb]
    refine add_le_add (powerIn_mono (hf.inGrid l hl) ?_ r c) (sink_mono hg.wf hp htop hbot hl hr hcc)
    have hlen : s.flps.length = cfg.d.nLayers := hg.ready.len.trans hg.wf.nl
    have hlen' : s'.flps.length = cfg.d.nLayers := (hg'.ready.len.trans hg'.wf.nl).trans (by rw [hd])
    have hpw : List.Forall₂ ElLe (elements s) (elements s') := by
      unfold traces at hpow
      rw [List.forall₂_map_left_iff, List.forall₂_map_right_iff] at hpow
      exact hpow
    have := layers_forall₂ s.flps s'.flps (by rw [hlen, hlen']) (fun l hl => by
      have e1 := (hf.from_ l (by omega)).length_eq
      have e2 := (hf'.from_ l (by omega)).length_eq
      unfold floorplan at e1 e2
      rw [← e1, e2]) hpw l
    exact this.imp fun e e' he => elLe_next he

/-! ### Non-vacuity: the die between two sinks of `Props/Monotone`, in steady state -/

noncomputable def restCfg (T : ℚ) : Cfg ℚ Unit := { solidCfg T with an := ⟨.steady, 1 / 100, 2, T⟩ }
noncomputable def restSim (T : ℚ) (els : List (FlpEl ℚ)) : Sim ℚ Unit := { solidSim T els with mat := fillMatrix (solidG T) (restCfg T).an.ana solidD }

theorem rest_reachable (T : ℚ) (els : List (FlpEl ℚ)) : Reachable (restCfg T) (restSim T els) := by
  obtain ⟨p, h1, h2, h3⟩ := solid_builtFrom T els
  refine ⟨_, _, [], ⟨_, _, p, (), h1, h2.symm, ?_⟩, rfl⟩
  unfold build; rw [if_pos (by rfl), h3]; rfl

theorem rest_leaves (T : ℚ) : HeatLeaves (solidG T) solidD := by
  obtain ⟨p, h1, h2, -⟩ := solid_builtFrom T []
  have hb := h1.built
  rw [h2] at hb
  exact C46_sink_suffices hb (.inl ⟨_, rfl⟩)

theorem rest_ends (T : ℚ) (e1 e2 : FlpEl ℚ) (h1 : e1.powers ≠ []) (h2 : e2.powers ≠ []) :
    (emulateSteady (restCfg T) (restSim T [e1, e2])).1 = .endOfSimulation := by
  have hr := rest_reachable T [e1, e2]
  have hg := reachable_good hr
  have := steady_value (restCfg T) (restSim T [e1, e2]) hg rfl rfl (by
    intro tr htr
    have : traces (restSim T [e1, e2]) = [e1.powers, e2.powers] := by simp [traces, elements, restSim, solidSim]
    rw [this] at htr
    simp only [List.mem_cons, List.not_mem_nil, or_false] at htr
    rcases htr with rfl | rfl
    · exact h1
    · exact h2) (temps_length_steady hr rfl)
  obtain ⟨x, hx⟩ := exactSolve_some (n := 20) (A := fillMatrix (restSim T [e1, e2]).g (restCfg T).an.ana (restCfg T).d)
    (b := (List.range (chip (restCfg T).d)).map fun i => (slotSources (restCfg T).d (restSim T [e1, e2])).getD i 0)
    (steady_unique_wf hg.wf (solid_physical T) (solid_notStacked hg.wf (solid_physical T) rfl) (rest_leaves T) rfl ⟨false, 1 / 100⟩ rfl _)
  have hso : (restCfg T).solve = exactSolve 20 := rfl
  rw [hso, hx] at this
  exact congrArg Prod.fst this

/-- Two steady simulations, at 300 and at 310, with powers 1 and 4 against 3 and 4: both end, the first one is nowhere below 300, and the second one is
nowhere colder than the first one. -/
example : ∃ els els' : List (FlpEl ℚ), (emulateSteady (restCfg 300) (restSim 300 els)).1 = .endOfSimulation ∧
    (emulateSteady (restCfg 310) (restSim 310 els')).1 = .endOfSimulation ∧ traces (restSim 300 els) = [[1, 1], [4, 5]] ∧
    AtLeast solidD (emulateSteady (restCfg 300) (restSim 300 els)).2 300 ∧
    ∀ i, i < 20 → (emulateSteady (restCfg 300) (restSim 300 els)).2.temps.getD i 0 ≤ (emulateSteady (restCfg 310) (restSim 310 els')).2.temps.getD i 0 := by
  obtain ⟨e1, e2, h, p1, p2⟩ := solid_parse [1, 1] [4, 5]
  obtain ⟨f1, f2, h', q1, q2⟩ := solid_parse [3, 1] [4, 5]
  have hr := rest_reachable 300 [e1, e2]
  have hr' := rest_reachable 310 [f1, f2]
  have hc : ∀ T, Correct (restCfg T) := fun T A b x h => exactSolve_correct h
  have he : ∀ T (a b : FlpEl ℚ), traces (restSim T [a, b]) = [a.powers, b.powers] := by intro T a b; simp [traces, elements, restSim, solidSim]
  have s1 := rest_ends 300 e1 e2 (by rw [p1]; simp) (by rw [p2]; simp)
  have s2 := rest_ends 310 f1 f2 (by rw [q1]; simp) (by rw [q2]; simp)
  have hne : ∀ tr ∈ traces (restSim 300 [e1, e2]), tr ≠ [] := by
    rw [he, p1, p2]; intro tr ht; simp only [List.mem_cons, List.not_mem_nil, or_false] at ht; rcases ht with rfl | rfl <;> simp
  have hf : ReadFrom (restCfg 300).d chipRaws (restSim 300 [e1, e2]) := ⟨(solid_readFrom 300 h).grid, (solid_readFrom 300 h).from_, (solid_readFrom 300 h).inGrid⟩
  have hf' : ReadFrom (restCfg 300).d chipRaws (restSim 310 [f1, f2]) :=
    ⟨(solid_readFrom 310 h').grid, (solid_readFrom 310 h').from_, (solid_readFrom 310 h').inGrid⟩
  refine ⟨[e1, e2], [f1, f2], s1, s2, by rw [he, p1, p2], ?_, ?_⟩
  · refine C25_steady_never_below hr (hc _) (solid_physical 300) (solid_solid 300) (rest_leaves 300) hf ?_ ?_ hne ?_ s1
    · intro sk h; simp [restSim, solidSim, solidG] at h; subst h; simp
    · intro sk h; simp [restSim, solidSim, solidG] at h; subst h; simp
    · intro tr htr v hv
      rw [he, p1, p2] at htr
      simp only [List.mem_cons, List.not_mem_nil, or_false] at htr
      rcases htr with rfl | rfl <;> simp at hv <;> rcases hv with rfl | rfl <;> norm_num
  · refine C25_steady_monotone (cfg := restCfg 300) (cfg' := restCfg 310) rfl hr hr' (hc _) (hc _) (solid_physical 300)
      (solid_solid 300) (rest_leaves 300) hf hf' (a := 310) (b := 310) rfl ?_ ?_ hne ?_ s1 s2
    · intro sk h; simp [restSim, solidSim, solidG] at h; subst h; norm_num
    · intro sk h; simp [restSim, solidSim, solidG] at h; subst h; norm_num
    · rw [he, he]; simp [p1, p2, q1, q2]

end Verif.Emu
