import Verif.Lemmas.Steady
import Verif.Props.Monotone

/-! # C46: the steady state is the fixed point of the transient -/

set_option linter.unusedSectionVars false
set_option linter.unusedSimpArgs false
set_option linter.unusedVariables false

namespace Verif.Emu
open Verif.Dim Verif.TG Verif.SM Verif.Flp Verif.Stk

variable {K : Type} [Field K] [LinearOrder K] [IsStrictOrderedRing K] {π ρ : Type}

/-! ### Specification -/

/-- The heat that enters cell `(l, r, c)` from outside the stack during the slot that starts in `s`: the power of the floorplan
elements that lie on it, the ambient and the inlet of the coolant. -/
noncomputable def heatIn (cfg : Cfg K π) (raws : Nat → List (RawEl K)) (s : Sim K π) (l r c : Nat) : K :=
  powerIn cfg.d (raws l) (floorplan s l) r c + sinkTerm s.g cfg.d l r c + inletTerm s.g cfg.d l r c

/-- The temperatures `T` (of the cells of the stack) are a steady state of the grid `g` with the heat `P` entering each cell: the
equations of the steady matrix hold. -/
def SteadyState (g : TGrid K) (d : Dims K) (P : Nat → Nat → Nat → K) (T : List K) : Prop :=
  ∀ l r c, l < d.nLayers → r < d.nRows → c < d.nCols →
    ∑ j ∈ Finset.range d.nCells, (fillMatrix g ⟨false, 1⟩ d).entry (offInStack d l r c) j * T.getD j 0 = P l r c

/-- Two states have the same temperatures. -/
def SameTemps (d : Dims K) (T T' : List K) : Prop := ∀ i, i < d.nCells → T.getD i 0 = T'.getD i 0

/-! ### Proofs -/

theorem steady_step (g : TGrid K) (d : Dims K) (x y : K) : fillMatrix g ⟨false, x⟩ d = fillMatrix g ⟨false, y⟩ d := by
  have hs : ∀ z : K, storage (⟨false, x⟩ : Ana K) z = storage ⟨false, y⟩ z := fun z => by simp [storage]
  have hc : columns g ⟨false, x⟩ d = columns g ⟨false, y⟩ d := by
    unfold columns
    have hb : ∀ l r c, boxColumn g ⟨false, x⟩ d l r c = boxColumn g ⟨false, y⟩ d l r c := by
      intro l r c
      unfold boxColumn solidColumn liquid4Column liquid2Column vwallColumn topWallColumn bottomWallColumn
      simp only [hs]
    have hl : ∀ l, layerColumns g ⟨false, x⟩ d l = layerColumns g ⟨false, y⟩ d l := by
      intro l
      unfold layerColumns
      simp only [hb]
    have hsp : spreaderColumns g ⟨false, x⟩ d = spreaderColumns g ⟨false, y⟩ d := by
      unfold spreaderColumns spreaderColumn
      simp only [hs]
    simp only [hl, hsp]
  unfold fillMatrix
  rw [hc]

/-- Without a spreader the equations over the cells are the equations over all the unknowns. -/
theorem steadyState_iff {g : TGrid K} {d : Dims K} (wf : WF g d) (hsp : spreaderOf g = none) {P : Nat → Nat → Nat → K} {b : Nat → K}
    (hb : ∀ l r c, l < d.nLayers → r < d.nRows → c < d.nCols → b (offInStack d l r c) = P l r c) (x : K) (T : List K) :
    SteadyState g d P T ↔ Solves d.nCells (fillMatrix g ⟨false, x⟩ d).entry (fun i => T.getD i 0) b := by
  rw [steady_step g d x 1]
  constructor
  · intro h i hi
    obtain ⟨p, hp, rfl⟩ := exists_cell wf hi
    cases p with
    | spr r c => obtain ⟨s, m, ht, -⟩ := hp; simp [spreaderOf, ht] at hsp
    | box l r c => rw [box_offset, hb l r c hp.1 hp.2.1 hp.2.2]; exact h l r c hp.1 hp.2.1 hp.2.2
  · intro h l r c hl hr hc
    obtain ⟨-, -, h3, h4⟩ := wf_off wf hl hr hc
    rw [h _ (by have := (wf_chip wf).1; omega), hb l r c hl hr hc]

theorem transient_solves {g : TGrid K} {d : Dims K} (wf : WF g d) {a : Ana K} (hat : a.transient = true) (T : List K) (b : Nat → K) :
    Solves d.nCells (fillMatrix g a d).entry (fun i => T.getD i 0) (fun i => b i + ((capList g d).getD i 0 / a.stepTime) * T.getD i 0) ↔
    Solves d.nCells (fillMatrix g ⟨false, a.stepTime⟩ d).entry (fun i => T.getD i 0) b := by
  refine forall_congr' fun i => forall_congr' fun hi => ?_
  have : ∑ j ∈ Finset.range d.nCells, (fillMatrix g a d).entry i j * T.getD j 0 =
      (∑ j ∈ Finset.range d.nCells, (fillMatrix g ⟨false, a.stepTime⟩ d).entry i j * T.getD j 0) + ((capList g d).getD i 0 / a.stepTime) * T.getD i 0 := by
    have e : ∀ j ∈ Finset.range d.nCells, (fillMatrix g a d).entry i j * T.getD j 0 =
        (fillMatrix g ⟨false, a.stepTime⟩ d).entry i j * T.getD j 0 + (if i = j then ((capList g d).getD i 0 / a.stepTime) * T.getD j 0 else 0) := by
      intro j hj
      rw [transient_entry wf a hat hi (Finset.mem_range.mp hj)]
      split_ifs <;> ring
    rw [Finset.sum_congr rfl e, Finset.sum_add_distrib, Finset.sum_ite_eq, if_pos (Finset.mem_range.mpr hi)]
  rw [this]
  constructor
  · intro h; exact add_right_cancel h
  · intro h; rw [h]

/-- One successful step, with given sources: the temperatures are unchanged exactly if they solve the steady equations. -/
theorem fixed_iff {cfg : Cfg K π} {s : Sim K π} (hg : Good cfg s) (hc : Correct cfg) (hdt : 0 < cfg.an.stepTime) (hp : Physical s.g cfg.d)
    (hsp : spreaderOf s.g = none) (hs : Succeeded (emulateStep cfg s).1) {b : Nat → K}
    (hb : ∀ i, i < cfg.d.nCells → (emulateStep cfg s).2.sources.getD i 0 = b i) :
    SameTemps cfg.d (emulateStep cfg s).2.temps s.temps ↔
    Solves cfg.d.nCells (fillMatrix s.g ⟨false, cfg.an.stepTime⟩ cfg.d).entry (fun i => s.temps.getD i 0) b := by
  obtain ⟨ht, -, heq, -⟩ := step_eq hg hc hs
  have hat : cfg.an.ana.transient = true := by simp [Analysis.ana, ht]
  generalize (emulateStep cfg s).2 = s' at *
  have heq' : Solves cfg.d.nCells (fillMatrix s.g cfg.an.ana cfg.d).entry (fun i => s'.temps.getD i 0)
      (fun i => b i + ((capList s.g cfg.d).getD i 0 / cfg.an.ana.stepTime) * s.temps.getD i 0) := by
    intro i hi
    rw [heq i hi]
    simp only
    rw [hb i hi, hg.caps]
    rfl
  have key := transient_solves hg.wf hat s.temps b
  have hdt' : cfg.an.ana.stepTime = cfg.an.stepTime := rfl
  rw [hdt'] at key
  rw [← key]
  constructor
  · intro h i hi
    refine Eq.trans ?_ (heq' i hi)
    exact Finset.sum_congr rfl fun j hj => by simp only; rw [h j (Finset.mem_range.mp hj)]
  · intro h i hi
    obtain ⟨x, hx, hu⟩ := step_unique_wf hg.wf hp cfg.an.ana hat hdt
      (fun i => b i + ((capList s.g cfg.d).getD i 0 / cfg.an.ana.stepTime) * s.temps.getD i 0)
    have h1 := hu _ heq' i hi
    have h2 := hu _ h i hi
    rw [h1]
    exact h2.symm

theorem cells_chip {g : TGrid K} {d : Dims K} (wf : WF g d) (hsp : spreaderOf g = none) : d.nCells = chip d := by
  have := (wf_chip wf).2.1
  rw [hsp] at this
  exact this

/-- The first step of a slot leaves every temperature unchanged exactly if the temperatures are a steady state with the powers of that
slot. Any solid or liquid cooled stack without a pluggable sink, any history before. -/
theorem C46_fixed_point {cfg : Cfg K π} {s : Sim K π} (h : Reachable cfg s) (hc : Correct cfg) (hdt : 0 < cfg.an.stepTime)
    (hp : Physical s.g cfg.d) (hsp : spreaderOf s.g = none) {raws : Nat → List (RawEl K)} (hf : ReadFrom cfg.d raws s)
    (hb : cfg.an.slotLength ∣ s.time) (hs : Succeeded (emulateStep cfg s).1) :
    SameTemps cfg.d (emulateStep cfg s).2.temps s.temps ↔ SteadyState s.g cfg.d (heatIn cfg raws s) s.temps := by
  have hg := reachable_good h
  rw [steadyState_iff (b := fun i => (slotSources cfg.d s).getD i 0) hg.wf hsp
    (fun l r c hl hr hc => by rw [slot_at hg hf hl hr hc]; rfl) cfg.an.stepTime]
  refine fixed_iff hg hc hdt hp hsp hs fun i hi => ?_
  rw [step_sources hg hs (by rw [← cells_chip hg.wf hsp]; exact hi), if_pos (Nat.dvd_iff_mod_eq_zero.mp hb)]

/-- A steady state is kept during the whole slot. -/
theorem C46_kept_during_slot {cfg : Cfg K π} {s : Sim K π} (h : Reachable cfg s) (hc : Correct cfg) (hdt : 0 < cfg.an.stepTime)
    (hp : Physical s.g cfg.d) (hsp : spreaderOf s.g = none) {raws : Nat → List (RawEl K)} (hf : ReadFrom cfg.d raws s)
    (hb : cfg.an.slotLength ∣ s.time) (hst : SteadyState s.g cfg.d (heatIn cfg raws s) s.temps) (k : Nat) (hk : k ≤ cfg.an.slotLength)
    (hW : s.time + k < 2 ^ 32) (hok : ∀ r ∈ (steps cfg k s).1, Succeeded r) : SameTemps cfg.d (steps cfg k s).2.temps s.temps := by
  have hg := reachable_good h
  have hgr : ∀ k, (steps cfg k s).2.g = s.g := by
    intro k
    induction k with
    | zero => rfl
    | succ k ih => rw [run_snoc_step]; exact ((step_spec (cfg := cfg) (steps_good hg k).ready).2.1).trans ih
  have hst' : ∀ T : List K, SameTemps cfg.d T s.temps →
      Solves cfg.d.nCells (fillMatrix s.g ⟨false, cfg.an.stepTime⟩ cfg.d).entry (fun i => T.getD i 0) (fun i => (slotSources cfg.d s).getD i 0) := by
    intro T hT i hi
    rw [← (steadyState_iff (b := fun i => (slotSources cfg.d s).getD i 0) hg.wf hsp
      (fun l r c hl hr hc => by rw [slot_at hg hf hl hr hc]; rfl) cfg.an.stepTime _).mp hst i hi]
    exact Finset.sum_congr rfl fun j hj => by simp only; rw [hT j (Finset.mem_range.mp hj)]
  induction k with
  | zero => intro i _; rfl
  | succ k ih =>
    have hok0 : ∀ r ∈ (steps cfg k s).1, Succeeded r := fun r hr => hok r (by rw [run_snoc_step]; exact List.mem_append_left _ hr)
    have ih' := ih (by omega) (by omega) hok0
    have hsrc := sources_in_slot hg hb k hk (by rw [W_eq]; omega) hok
    have hs : Succeeded (emulateStep cfg (steps cfg k s).2).1 := hok _ (by rw [run_snoc_step]; simp)
    rw [run_snoc_step] at hsrc ⊢
    simp only at hsrc ⊢
    have hgk := steps_good hg k
    have hgrk := hgr k
    generalize (steps cfg k s).2 = s1 at *
    have := (fixed_iff hgk hc hdt (by rw [hgrk]; exact hp) (by rw [hgrk]; exact hsp) hs
      (b := fun i => (slotSources cfg.d s).getD i 0) (fun i hi => hsrc i (by rw [← cells_chip hg.wf hsp]; exact hi))).mpr (by rw [hgrk]; exact hst' _ ih')
    intro i hi
    rw [this i hi, ih' i hi]

/-- A successful steady simulation ends in a steady state, with the first power of every element. -/
theorem C46_steady_result {cfg : Cfg K π} {s : Sim K π} (h : Reachable cfg s) (hc : Correct cfg) {raws : Nat → List (RawEl K)}
    (hf : ReadFrom cfg.d raws s) (hpow : ∀ tr ∈ traces s, tr ≠ []) (hs : (emulateSteady cfg s).1 = .endOfSimulation) :
    SteadyState s.g cfg.d (heatIn cfg raws s) (emulateSteady cfg s).2.temps := by
  have hg := reachable_good h
  obtain ⟨ht, hno, -, -, heq⟩ := steady_eq hg hc (fun e he => hpow e.powers (List.mem_map.mpr ⟨e, he, rfl⟩)) hs
  rw [steadyState_iff (b := fun i => (slotSources cfg.d s).getD i 0) hg.wf hno
    (fun l r c hl hr hc => by rw [slot_at hg hf hl hr hc]; rfl) cfg.an.stepTime]
  have : cfg.an.ana = ⟨false, cfg.an.stepTime⟩ := by simp [Analysis.ana, ht]
  rw [← this]
  exact heq

/-- In a stack in which heat can leave (a conventional sink, or flowing coolant) and no channel lies directly on another one, the steady
state is unique: there is exactly one for every power input. -/
theorem C46_steady_unique {g : TGrid K} {d : Dims K} {φ : Type} (hb : Built φ g d) (hp : Physical g d) (hns : NotStacked g d) (hh : HeatLeaves g d)
    (hsp : spreaderOf g = none) (P : Nat → Nat → Nat → K) :
    ∃ T, SteadyState g d P T ∧ ∀ T', SteadyState g d P T' → SameTemps d T' T := by
  have wf := wf_of_built hb
  -- the right-hand side as a function of the unknown
  obtain ⟨b, hb⟩ : ∃ b : Nat → K, ∀ l r c, l < d.nLayers → r < d.nRows → c < d.nCols → b (offInStack d l r c) = P l r c := by
    refine ⟨fun i => match cellAt g d i with | .box l r c => P l r c | .spr _ _ => 0, fun l r c hl hr hc => ?_⟩
    have := cellAt_offset wf (p := .box l r c) ⟨hl, hr, hc⟩
    rw [box_offset] at this
    simp only [this]
  obtain ⟨x, hx, hu⟩ := steady_unique_wf wf hp hns hh hsp ⟨false, 1⟩ rfl b
  have hget : ∀ i, i < d.nCells → ((List.range d.nCells).map x).getD i 0 = x i := by
    intro i hi
    simp [List.getD_eq_getElem?_getD, hi]
  refine ⟨(List.range d.nCells).map x, ?_, fun T' hT' i hi => ?_⟩
  · rw [steadyState_iff wf hsp hb 1]
    intro i hi
    rw [← hx i hi]
    exact Finset.sum_congr rfl fun j hj => by simp only; rw [hget j (Finset.mem_range.mp hj)]
  · rw [hget i hi]
    exact hu _ ((steadyState_iff wf hsp hb 1 T').mp hT') i hi

/-- Every conventional sink lets heat leave. -/
theorem C46_sink_suffices {g : TGrid K} {d : Dims K} {φ : Type} (hb : Built φ g d)
    (h : (∃ sk, g.top = some (.ambient sk)) ∨ ∃ sk, g.bottom = some sk) : HeatLeaves g d := by
  obtain ⟨d0, decl, rs, p, hd, hp, hpd, hg⟩ := hb.parsed
  obtain ⟨hn, -, -, -, -, -⟩ := C16_layers_match_file hd hp
  obtain ⟨htl, htop, hbot, hgn, hpos, hty⟩ := C18_sinks_change_only_outermost_layers hd hp hg
  obtain ⟨⟨t0, h0, h0'⟩, ⟨t1, h1, h1'⟩⟩ := stack_ends hp
  left
  rcases Bool.eq_false_or_eq_true g.bottom.isSome with hB | hB
  · obtain ⟨sk, hsk⟩ := Option.isSome_iff_exists.mp hB
    have := hty 0 t0 h0
    rw [if_pos ⟨rfl, hB⟩, hsk] at this
    refine ⟨0, by rw [← hpd]; exact hpos, ?_⟩
    rw [typeAt_of_get this]
    rcases h0' with rfl | rfl <;> trivial
  · have hBn : g.bottom = none := by simpa using hB
    obtain ⟨sk, hsk⟩ : ∃ sk, g.top = some (.ambient sk) := by
      rcases h with h | ⟨sk, h⟩
      · exact h
      · rw [hBn] at h; cases h
    rw [← hn] at h1
    have := hty _ t1 h1
    rw [hBn, if_neg (by simp), if_pos rfl, hsk] at this
    refine ⟨p.dims.nLayers - 1, by rw [← hpd]; omega, ?_⟩
    rw [typeAt_of_get this]
    rcases h1' with rfl | rfl <;> trivial

theorem temps_length_steady {cfg : Cfg K π} {s : Sim K π} (h : Reachable cfg s) (ht : cfg.an.type = .steady) : s.temps.length = cfg.d.nCells := by
  obtain ⟨rs, s0, ops, h0, rfl⟩ := h
  have h1 : s0.temps.length = cfg.d.nCells := by rw [(started_spec h0).2.2.2.1]; simp
  clear h0
  induction ops generalizing s0 with
  | nil => exact h1
  | cons o ops ih =>
    refine ih _ ?_
    cases o with
    | step => simp only [exec]; rw [show emulateStep cfg s0 = (.wrongConfig, s0) by simp [emulateStep, ht]]; exact h1
    | insert vs => exact h1
    | reset => simp [exec, reset]
    | flow f =>
      simp only [exec, updateFlow]
      split <;> exact h1

/-- What a steady simulation computes. -/
theorem steady_value (cfg : Cfg K π) (s : Sim K π) (hg : Good cfg s) (ht : cfg.an.type = .steady) (hsp : spreaderOf s.g = none)
    (hpow : ∀ tr ∈ traces s, tr ≠ []) (hl : s.temps.length = cfg.d.nCells) : ((emulateSteady cfg s).1, (emulateSteady cfg s).2.temps) =
        (match cfg.solve (fillMatrix s.g cfg.an.ana cfg.d) ((List.range (chip cfg.d)).map fun i => (slotSources cfg.d s).getD i 0) with
        | none => (SimResult.solverError, (List.range (chip cfg.d)).map fun i => (slotSources cfg.d s).getD i 0)
        | some x => (.endOfSimulation, x)) := by
    have hu := updateSource_ok hg.ready cfg.d (fun e he => hpow e.powers (List.mem_map.mpr ⟨e, he, rfl⟩))
    have hb : fillSystemVectorSteady cfg (updateSourceVector cfg.d s).1 = (List.range (chip cfg.d)).map fun i => (slotSources cfg.d s).getD i 0 := by
      rw [hu]
      unfold fillSystemVectorSteady
      have hn : (lastLayer cfg.d + 1) * ((lastRow cfg.d + 1) * (lastColumn cfg.d + 1)) = chip cfg.d := by
        rw [hg.wf.lastLayer, hg.wf.lastRow, hg.wf.lastColumn]
        have := hg.wf.L1
        have := hg.wf.acc.rows
        have := hg.wf.acc.cols
        unfold chip
        congr 1
        · omega
        · congr 1 <;> omega
      simp only [hn]
      rw [List.drop_eq_nil_of_le (by rw [hl, cells_chip hg.wf hsp]), List.append_nil]
    have hm : (updateSourceVector cfg.d s).1.mat = fillMatrix s.g cfg.an.ana cfg.d := hg.mat
    have e : emulateSteady cfg s = (match cfg.solve (updateSourceVector cfg.d s).1.mat (fillSystemVectorSteady cfg (updateSourceVector cfg.d s).1) with
        | none => (.solverError, { (updateSourceVector cfg.d s).1 with temps := fillSystemVectorSteady cfg (updateSourceVector cfg.d s).1 })
        | some x => (.endOfSimulation, { (updateSourceVector cfg.d s).1 with temps := x })) := by
      unfold emulateSteady
      rw [if_neg (by simp [ht])]
      have h2 : (updateSourceVector cfg.d s).2 = true := by rw [hu]
      cases htop : s.g.top with
      | none =>
        simp only [h2, if_true]
        generalize cfg.solve (updateSourceVector cfg.d s).1.mat _ = o
        cases o <;> rfl
      | some tt =>
        cases tt with
        | ambient sk =>
          simp only [h2, if_true]
          generalize cfg.solve (updateSourceVector cfg.d s).1.mat _ = o
          cases o <;> rfl
        | pluggable sp m => simp [spreaderOf, htop] at hsp
    rw [e, hm, hb]
    generalize cfg.solve _ _ = o
    cases o <;> rfl

/-- The configuration with another initial temperature. -/
def withInit (cfg : Cfg K π) (t : K) : Cfg K π := { cfg with an := { cfg.an with initTemp := t } }

/-- The result of a steady simulation does not depend on the initial temperature, nor on anything that happened before: two steady
simulations of the same grid with the same next powers return the same result and the same temperatures. -/
theorem C46_independent_of_history {cfg : Cfg K π} {t : K} {s s' : Sim K π} (h : Reachable cfg s) (h' : Reachable (withInit cfg t) s')
    (ht : cfg.an.type = .steady) (hgr : s.g = s'.g) (hge : geom s.flps = geom s'.flps) (hnx : nextValues s.flps = nextValues s'.flps)
    (hpow : ∀ tr ∈ traces s, tr ≠ []) (hpow' : ∀ tr ∈ traces s', tr ≠ []) (hsp : spreaderOf s.g = none) :
    (emulateSteady (withInit cfg t) s').1 = (emulateSteady cfg s).1 ∧ (emulateSteady (withInit cfg t) s').2.temps = (emulateSteady cfg s).2.temps := by
  have hg := reachable_good h
  have hg' := reachable_good h'
  have l1 := temps_length_steady h ht
  have l2 := temps_length_steady h' ht
  have k1 := steady_value cfg s hg ht hsp hpow l1
  have k2 := steady_value (withInit cfg t) s' hg' ht (by rw [← hgr]; exact hsp) hpow' l2
  have hsrc : slotSources (withInit cfg t).d s' = slotSources cfg.d s := by
    unfold slotSources
    rw [hg.top, hg.bot, hg'.top, hg'.bot, ← hgr]
    exact (layersAdd_congr s.g cfg.d _ _ s.flps s'.flps hge hnx 0 0 _).symm
  have ha : (withInit cfg t).an.ana = cfg.an.ana := rfl
  have hd : (withInit cfg t).d = cfg.d := rfl
  have hso : (withInit cfg t).solve = cfg.solve := rfl
  rw [hsrc, ha, hd, hso, ← hgr] at k2
  have := k2.trans k1.symm
  rw [Prod.mk.injEq] at this
  exact this

theorem powerIn_next {d : Dims K} {raws : List (RawEl K)} {es es' : List (FlpEl K)} (h : es.map next = es'.map next) (r c : Nat) :
    powerIn d raws es r c = powerIn d raws es' r c := by
  unfold powerIn
  congr 1
  induction raws generalizing es es' with
  | nil => simp
  | cons a raws ih =>
    cases es with
    | nil => cases es' with
      | nil => rfl
      | cons b bs => simp at h
    | cons e es => cases es' with
      | nil => simp at h
      | cons b bs =>
        simp only [List.map_cons, List.cons.injEq] at h
        simp only [List.zip_cons_cons, List.map_cons, h.1, ih h.2]

/-- A transient simulation of a stack from which heat can leave stops changing exactly at the temperatures that a steady simulation of
the same stack, with the same powers, returns. -/
theorem C46_transient_stops_at_steady_result {cfg : Cfg K π} {cfg0 : Cfg K ρ} (hd : cfg0.d = cfg.d) {s : Sim K π} {s0 : Sim K ρ}
    (h : Reachable cfg s) (h0 : Reachable cfg0 s0) (hc : Correct cfg) (hc0 : Correct cfg0) (hdt : 0 < cfg.an.stepTime)
    (hp : Physical s.g cfg.d) (hns : NotStacked s.g cfg.d) (hh : HeatLeaves s.g cfg.d) (hgr : s0.g = s.g)
    {raws : Nat → List (RawEl K)} (hf : ReadFrom cfg.d raws s) (hf0 : ReadFrom cfg0.d raws s0)
    (hnext : ∀ l, l < cfg.d.nLayers → (floorplan s l).map next = (floorplan s0 l).map next)
    (hb : cfg.an.slotLength ∣ s.time) (hs : Succeeded (emulateStep cfg s).1)
    (hpow : ∀ tr ∈ traces s0, tr ≠ []) (hs0 : (emulateSteady cfg0 s0).1 = .endOfSimulation) :
    SameTemps cfg.d (emulateStep cfg s).2.temps s.temps ↔ SameTemps cfg.d s.temps (emulateSteady cfg0 s0).2.temps := by
  have hg := reachable_good h
  have hr := C46_steady_result h0 hc0 hf0 hpow hs0
  obtain ⟨-, hno, -, -, -⟩ := steady_eq (reachable_good h0) hc0 (fun e he => hpow e.powers (List.mem_map.mpr ⟨e, he, rfl⟩)) hs0
  rw [hgr] at hno hr
  rw [hd] at hr
  have hP : ∀ l r c, l < cfg.d.nLayers → r < cfg.d.nRows → c < cfg.d.nCols → heatIn cfg0 raws s0 l r c = heatIn cfg raws s l r c := by
    intro l r c hl _ _
    unfold heatIn
    rw [hd, hgr, powerIn_next (hnext l hl)]
  rw [C46_fixed_point h hc hdt hp hno hf hb hs]
  obtain ⟨b, hb⟩ : ∃ b : Nat → K, ∀ l r c, l < cfg.d.nLayers → r < cfg.d.nRows → c < cfg.d.nCols → b (offInStack cfg.d l r c) = heatIn cfg raws s l r c :=
    ⟨fun i => (slotSources cfg.d s).getD i 0, fun l r c hl hr hc => slot_at hg hf hl hr hc⟩
  have hb0 : ∀ l r c, l < cfg.d.nLayers → r < cfg.d.nRows → c < cfg.d.nCols → b (offInStack cfg.d l r c) = heatIn cfg0 raws s0 l r c :=
    fun l r c hl hr hc => by rw [hP l r c hl hr hc]; exact hb l r c hl hr hc
  rw [steadyState_iff hg.wf hno hb 1]
  have hr' := (steadyState_iff hg.wf hno hb0 1 _).mp hr
  obtain ⟨x, hx, hu⟩ := steady_unique_wf hg.wf hp hns hh hno ⟨false, 1⟩ rfl b
  constructor
  · intro h1 i hi
    rw [hu _ h1 i hi]
    exact (hu _ hr' i hi).symm
  · intro h1 i hi
    rw [← hr' i hi]
    exact Finset.sum_congr rfl fun j hj => by simp only; rw [h1 j (Finset.mem_range.mp hj)]

/-! ### Non-vacuity -/

theorem chip_leaves : HeatLeaves chipG chipD := C46_sink_suffices chipBuilt (Or.inr ⟨_, rfl⟩)

theorem chip_notStacked : NotStacked chipG chipD := by
  intro l hl
  have hl : l + 1 < 5 := hl
  have h4 : l < 4 := by omega
  interval_cases l <;> simp [chipG, typeAt]

theorem chip_readFrom' {e1 e2 : FlpEl ℚ} (h : List.Forall₂ (From chipD) [okRaw1, okRaw2] [e1, e2]) (t : AType) (L : Nat) :
    ReadFrom (chipCfg t L).d chipRaws (chipSim t L [] [e1, e2]) :=
  ⟨(chip_readFrom h L).grid, (chip_readFrom h L).from_, (chip_readFrom h L).inGrid⟩

theorem chip_steady (L : Nat) (e1 e2 : FlpEl ℚ) (h1 : e1.powers ≠ []) (h2 : e2.powers ≠ []) :
    (emulateSteady (chipCfg .steady L) (chipSim .steady L [] [e1, e2])).1 = .endOfSimulation := by
  have hg := reachable_good (chip_reachable .steady L [] [e1, e2])
  have := steady_value (chipCfg .steady L) (chipSim .steady L [] [e1, e2]) hg rfl rfl (by
    intro tr htr
    unfold traces at htr
    rw [chip_elements] at htr
    simp at htr
    rcases htr with rfl | rfl
    · exact h1
    · exact h2) (temps_length_steady (chip_reachable .steady L [] [e1, e2]) rfl)
  obtain ⟨x, hx⟩ := exactSolve_some (n := 50) (A := fillMatrix (chipSim .steady L [] [e1, e2]).g (chipCfg .steady L).an.ana (chipCfg .steady L).d)
    (b := (List.range (chip (chipCfg .steady L).d)).map fun i => (slotSources (chipCfg .steady L).d (chipSim .steady L [] [e1, e2])).getD i 0)
    (steady_unique_wf (wf_of_built chipBuilt) chipPhysical chip_notStacked chip_leaves rfl ⟨false, 1 / 100⟩ rfl _)
  have hso : (chipCfg .steady L).solve = exactSolve 50 := rfl
  rw [hso, hx] at this
  exact congrArg Prod.fst this

/-- The hypotheses of C46 hold for a transient and a steady simulation of the same liquid cooled chip, with power 3 in one element and 4
in the other: the transient simulation, which starts at 300 K, moves unless the steady temperatures are 300 K everywhere. -/
example : ∃ (s s0 : Sim ℚ Unit), Reachable (chipCfg .transient 10) s ∧ Reachable (chipCfg .steady 1) s0 ∧ traces s = [[3, 5], [4, 6]] ∧ traces s0 = [[3], [4]] ∧
    (SameTemps chipD (emulateStep (chipCfg .transient 10) s).2.temps s.temps ↔ SameTemps chipD s.temps (emulateSteady (chipCfg .steady 1) s0).2.temps) := by
  obtain ⟨e1, e2, hf, p1, p2, -⟩ := chip_parse [3, 5] [4, 6]
  obtain ⟨a1, a2, hf', q1, q2, -⟩ := chip_parse [3] [4]
  refine ⟨chipSim .transient 10 [] [e1, e2], chipSim .steady 1 [] [a1, a2], chip_reachable _ _ _ _, chip_reachable _ _ _ _, ?_, ?_, ?_⟩
  · unfold traces; rw [chip_elements]; simp [p1, p2]
  · unfold traces; rw [chip_elements]; simp [q1, q2]
  refine C46_transient_stops_at_steady_result (raws := chipRaws) (cfg := chipCfg .transient 10) (cfg0 := chipCfg .steady 1) rfl
    (chip_reachable _ _ _ _) (chip_reachable _ _ _ _) (chip_correct _ _) (chip_correct _ _) (by norm_num [chipCfg]) chipPhysical chip_notStacked chip_leaves rfl
    (chip_readFrom' hf _ _) (chip_readFrom' hf' _ _) ?_ (Nat.dvd_zero _) ?_ ?_ (chip_steady 1 a1 a2 (by rw [q1]; simp) (by rw [q2]; simp))
  · intro l hl
    have hl : l < 5 := hl
    interval_cases l <;> simp [floorplan, chipSim, next, p1, p2, q1, q2]
  · refine chip_step (reachable_good (chip_reachable _ _ _ _)) rfl fun _ e he => ?_
    rw [chip_elements] at he
    simp at he
    rcases he with rfl | rfl
    · rw [p1]; simp
    · rw [p2]; simp
  · intro tr htr
    unfold traces at htr
    rw [chip_elements] at htr
    simp at htr
    rcases htr with rfl | rfl
    · rw [q1]; simp
    · rw [q2]; simp

theorem started_init {cfg : Cfg K π} {rs : List (Raw K (List (FlpEl K)))} {s : Sim K π} (h : Started cfg rs s) (t : K) :
    Started (withInit cfg t) rs { s with temps := List.replicate cfg.d.nCells t } := by
  obtain ⟨d0, decl, p, q, hb, hd, hs⟩ := h
  refine ⟨d0, decl, p, q, hb, hd, ?_⟩
  unfold build at hs ⊢
  have ha : (withInit cfg t).an.ana = cfg.an.ana := rfl
  simp only at hs ⊢
  rw [ha]
  have hf : (withInit cfg t).factor = cfg.factor := rfl
  have hdd : (withInit cfg t).d = cfg.d := rfl
  rw [hf, hdd]
  split at hs
  · next hfa =>
    rw [if_pos hfa]
    simp only [Option.some.injEq] at hs ⊢
    rw [← hs]
    rfl
  · cases hs

/-- The hypotheses of `C46_independent_of_history` hold for two simulations of the chip that start at 300 and at 350 K. -/
example (e1 e2 : FlpEl ℚ) (h1 : e1.powers ≠ []) (h2 : e2.powers ≠ []) :
    (emulateSteady (withInit (chipCfg .steady 1) 350) { chipSim .steady 1 [] [e1, e2] with temps := List.replicate chipD.nCells 350 }).2.temps =
      (emulateSteady (chipCfg .steady 1) (chipSim .steady 1 [] [e1, e2])).2.temps := by
  have ht : ∀ tr ∈ traces (chipSim .steady 1 [] [e1, e2]), tr ≠ [] := by
    intro tr htr
    unfold traces at htr
    rw [chip_elements] at htr
    simp at htr
    rcases htr with rfl | rfl
    · exact h1
    · exact h2
  have hr : Reachable (withInit (chipCfg .steady 1) 350) { chipSim .steady 1 [] [e1, e2] with temps := List.replicate chipD.nCells 350 } :=
    ⟨_, _, [], started_init (chip_started .steady 1 [] [e1, e2]) 350, rfl⟩
  exact (C46_independent_of_history (chip_reachable _ _ _ _) hr rfl rfl rfl rfl ht ht rfl).2

end Verif.Emu
