import Verif.Props.Flow

/-! C41: resetting the thermal state. -/

set_option linter.unusedSectionVars false
set_option linter.unusedSimpArgs false
set_option linter.unusedVariables false

namespace Verif.Emu
open Verif.Dim Verif.TG Verif.SM Verif.Flp Verif.Stk

variable {K : Type} [Field K] [LinearOrder K] [IsStrictOrderedRing K] {π : Type}

/-- **C41** A reset sets every cell to the initial temperature and changes nothing else. -/
theorem C41_reset_only_temperatures (cfg : Cfg K π) (s : Sim K π) :
    (reset cfg s).temps.length = cfg.d.nCells ∧ (∀ i, i < cfg.d.nCells → (reset cfg s).temps[i]? = some cfg.an.initTemp) ∧
    (reset cfg s).time = s.time ∧ elements (reset cfg s) = elements s ∧ traces (reset cfg s) = traces s ∧ (reset cfg s).g = s.g ∧
      (reset cfg s).mat = s.mat ∧ (reset cfg s).sources = s.sources ∧ (reset cfg s).caps = s.caps ∧ (reset cfg s).topTcs = s.topTcs ∧
      (reset cfg s).botTcs = s.botTcs ∧ (reset cfg s).plug = s.plug := by
  refine ⟨by simp [reset], fun i hi => by simp [reset, hi], rfl, rfl, rfl, rfl, rfl, rfl, rfl, rfl, rfl, rfl⟩

/-- Two simulations at the same phase of a slot, with the same remaining powers and the same temperatures. Inside a slot the sources of
the slot are also the same; at a slot boundary they are irrelevant, except for the part of a pluggable heat sink. Nothing is asked of the
numbers of steps simulated. -/
structure SamePhase (cfg : Cfg K π) (s s' : Sim K π) : Prop where
  g : s.g = s'.g
  flps : s.flps = s'.flps
  plug : s.plug = s'.plug
  temps : s.temps = s'.temps
  phase : s.time % cfg.an.slotLength = s'.time % cfg.an.slotLength
  sources : s.time % cfg.an.slotLength ≠ 0 → s.sources = s'.sources

/-- The results and the temperatures after each call. -/
def observe (cfg : Cfg K π) : List (Op K) → Sim K π → List (List SimResult × List K)
  | [], _ => []
  | o :: os, s => ((exec cfg o s).1, (exec cfg o s).2.temps) :: observe cfg os (exec cfg o s).2

theorem upd_temps (s1 : Sim K π) (b : List K) : ∃ s2 : Sim K π, s2 = { s1 with temps := b } ∧ s2.temps = b ∧ s2.plug = s1.plug ∧
    s2.sources = s1.sources ∧ s2.time = s1.time := ⟨_, rfl, rfl, rfl, rfl, rfl⟩

theorem finish_solver' {cfg : Cfg K π} {s s1 : Sim K π} (h : pluggable cfg s = (s1, true))
    (h2 : cfg.solve s1.mat (fillSystemVector cfg s1) = none) : ∃ s2, finishStep cfg s = (.solverError, s2) ∧
      s2.temps = fillSystemVector cfg s1 ∧ s2.plug = s1.plug ∧ s2.sources = s1.sources ∧ s2.time = s1.time := by
  unfold finishStep
  simp only [h, h2, if_true]
  generalize fillSystemVector cfg s1 = b
  obtain ⟨s2, e, r⟩ := upd_temps s1 b
  exact ⟨s2, by rw [e], r⟩

theorem finish_ok' {cfg : Cfg K π} {s s1 : Sim K π} {x : List K} (h : pluggable cfg s = (s1, true))
    (h2 : cfg.solve s1.mat (fillSystemVector cfg s1) = some x) : ∃ s2, finishStep cfg s =
      (if s2.time % cfg.an.slotLength == 0 then .slotDone else .stepDone, s2) ∧
      s2.temps = x ∧ s2.plug = s1.plug ∧ s2.sources = s1.sources ∧ s2.time = (s1.time + 1) % W :=
  ⟨_, finish_ok h h2, rfl, rfl, rfl, rfl⟩

theorem slotStart_fields (cfg : Cfg K π) (s : Sim K π) : (slotStart cfg s).g = s.g ∧ (slotStart cfg s).plug = s.plug ∧
    (slotStart cfg s).temps = s.temps ∧ (slotStart cfg s).sources = slotSources cfg.d s ∧ (slotStart cfg s).time = s.time ∧
    (slotStart cfg s).flps = s.flps.map (Option.map (List.map pop)) := ⟨rfl, rfl, rfl, rfl, rfl, rfl⟩

theorem step_start' {cfg : Cfg K π} {s : Sim K π} (h : Ready s) (ht : cfg.an.type = .transient) (hb : s.time % cfg.an.slotLength = 0)
    (hp : ∀ e ∈ elements s, e.powers ≠ []) : emulateStep cfg s = finishStep cfg (slotStart cfg s) := step_start h ht hb hp

theorem finish_same {cfg : Cfg K π} {s s' : Sim K π} (h : Good cfg s) (h' : Good cfg s') (hg : s.g = s'.g) (hp : s.plug = s'.plug)
    (ht : s.temps = s'.temps) (hs : s.sources = s'.sources) (hph : s.time % cfg.an.slotLength = s'.time % cfg.an.slotLength)
    (hW : s.time + 1 < W) (hW' : s'.time + 1 < W) :
    (finishStep cfg s).1 = (finishStep cfg s').1 ∧ (finishStep cfg s).2.temps = (finishStep cfg s').2.temps ∧
      (finishStep cfg s).2.plug = (finishStep cfg s').2.plug ∧ (finishStep cfg s).2.sources = (finishStep cfg s').2.sources ∧
      (finishStep cfg s).2.time % cfg.an.slotLength = (finishStep cfg s').2.time % cfg.an.slotLength := by
  have hm : s.mat = s'.mat := by rw [h.mat, h'.mat, hg]
  have hcap : s.caps = s'.caps := by rw [h.caps, h'.caps, hg]
  have hpl : (pluggable cfg s).2 = (pluggable cfg s').2 ∧ (pluggable cfg s).1.plug = (pluggable cfg s').1.plug ∧
      (pluggable cfg s).1.sources = (pluggable cfg s').1.sources ∧ (pluggable cfg s).1.caps = s.caps ∧ (pluggable cfg s').1.caps = s'.caps := by
    unfold pluggable
    rw [hg, hp, ht, hs]
    split
    · simp only
      split <;> exact ⟨rfl, rfl, rfl, rfl, rfl⟩
    · exact ⟨rfl, hp, hs, rfl, rfl⟩
  obtain ⟨a1, a2, a3, a4, a5⟩ := hpl
  obtain ⟨-, b2, b3, b4, b5⟩ := pluggable_keeps cfg s
  obtain ⟨-, c2, c3, c4, c5⟩ := pluggable_keeps cfg s'
  have hvec : fillSystemVector cfg (pluggable cfg s).1 = fillSystemVector cfg (pluggable cfg s').1 := by
    unfold fillSystemVector
    rw [a3, a4, a5, hcap, b5, c5, ht, b2, c2, hg]
  cases hq : pluggable cfg s with
  | mk s1 ok =>
    cases hq' : pluggable cfg s' with
    | mk s1' ok' =>
      rw [hq, hq'] at a1 a2 a3 hvec
      rw [hq] at b3 b4 b5
      rw [hq'] at c3 c4 c5
      simp only at a1 a2 a3 hvec b3 b4 b5 c3 c4 c5
      subst a1
      have hadd : ∀ a b L : Nat, a % L = b % L → (a + 1) % L = (b + 1) % L := by
        intro a b L hab; rw [Nat.add_mod, hab, ← Nat.add_mod]
      cases ok with
      | false =>
        rw [finish_plugin hq, finish_plugin hq']
        exact ⟨rfl, by rw [b5, c5, ht], a2, a3, by rw [b3, c3]; exact hph⟩
      | true =>
        have e : cfg.solve s1.mat (fillSystemVector cfg s1) = cfg.solve s1'.mat (fillSystemVector cfg s1') := by rw [hvec, b4, c4, hm]
        cases hs1 : cfg.solve s1.mat (fillSystemVector cfg s1) with
        | none =>
          obtain ⟨z, h1, h2, h3, h4, h5⟩ := finish_solver' hq hs1
          obtain ⟨z', h1', h2', h3', h4', h5'⟩ := finish_solver' hq' (e ▸ hs1)
          rw [h1, h1']
          exact ⟨rfl, by simp only [h2, h2', hvec], by simp only [h3, h3', a2], by simp only [h4, h4', a3], by simp only [h5, h5', b3, c3]; exact hph⟩
        | some x =>
          obtain ⟨z, h1, h2, h3, h4, h5⟩ := finish_ok' hq hs1
          obtain ⟨z', h1', h2', h3', h4', h5'⟩ := finish_ok' hq' (e ▸ hs1)
          rw [h1, h1']
          rw [b3, Nat.mod_eq_of_lt hW] at h5
          rw [c3, Nat.mod_eq_of_lt hW'] at h5'
          have hmod : z.time % cfg.an.slotLength = z'.time % cfg.an.slotLength := by
            rw [h5, h5']; exact hadd _ _ _ hph
          exact ⟨by simp only [hmod], by simp only [h2, h2'], by simp only [h3, h3', a2], by simp only [h4, h4', a3], hmod⟩

theorem same_step {cfg : Cfg K π} {s s' : Sim K π} (h : Good cfg s) (h' : Good cfg s') (hs : SamePhase cfg s s') (hW : s.time + 1 < W)
    (hW' : s'.time + 1 < W) : (emulateStep cfg s).1 = (emulateStep cfg s').1 ∧ SamePhase cfg (emulateStep cfg s).2 (emulateStep cfg s').2 := by
  have he : elements s = elements s' := by unfold elements; rw [hs.flps]
  by_cases ht : cfg.an.type = .transient
  · by_cases hb : s.time % cfg.an.slotLength = 0
    · have hb' : s'.time % cfg.an.slotLength = 0 := by rw [← hs.phase]; exact hb
      have hus : (updateSourceVector cfg.d s).2 = (updateSourceVector cfg.d s').2 ∧
          (updateSourceVector cfg.d s).1.flps = (updateSourceVector cfg.d s').1.flps ∧
          (updateSourceVector cfg.d s).1.sources = (updateSourceVector cfg.d s').1.sources := by
        unfold updateSourceVector
        rw [h.top, h.bot, h'.top, h'.bot, hs.g, hs.flps]; exact ⟨rfl, rfl, rfl⟩
      by_cases hp : ∃ e ∈ elements s, e.powers = []
      · obtain ⟨fs, x, e1, -⟩ := updateSource_fail h.ready cfg.d hp
        obtain ⟨fs', x', e1', -⟩ := updateSource_fail h'.ready cfg.d (he ▸ hp)
        rw [e1, e1'] at hus
        simp only at hus
        have k1 : emulateStep cfg s = (.endOfSimulation, { s with flps := fs, sources := x }) := by simp [emulateStep, ht, slotCompleted, hb, e1]
        have k2 : emulateStep cfg s' = (.endOfSimulation, { s' with flps := fs', sources := x' }) := by
          simp [emulateStep, ht, slotCompleted, hb', e1']
        rw [k1, k2]
        exact ⟨rfl, ⟨hs.g, hus.2.1, hs.plug, hs.temps, hs.phase, fun h0 => absurd hb h0⟩⟩
      · have hp1 : ∀ e ∈ elements s, e.powers ≠ [] := fun e he hh => hp ⟨e, he, hh⟩
        have hp2 : ∀ e ∈ elements s', e.powers ≠ [] := by rw [← he]; exact hp1
        rw [step_start' h.ready ht hb hp1, step_start' h'.ready ht hb' hp2]
        have hsrc : slotSources cfg.d s = slotSources cfg.d s' := by
          unfold slotSources; rw [h.top, h.bot, h'.top, h'.bot, hs.g, hs.flps]
        have k1 := good_start h
        have k2 := good_start h'
        obtain ⟨u1, u2, u3, u4, u5, u6⟩ := slotStart_fields cfg s
        obtain ⟨v1, v2, v3, v4, v5, v6⟩ := slotStart_fields cfg s'
        generalize slotStart cfg s = z at *
        generalize slotStart cfg s' = z' at *
        obtain ⟨r1, r2, r3, r4, r5⟩ := finish_same k1 k2 (by rw [u1, v1, hs.g]) (by rw [u2, v2, hs.plug]) (by rw [u3, v3, hs.temps])
          (by rw [u4, v4, hsrc]) (by rw [u5, v5, hs.phase]) (by omega) (by omega)
        obtain ⟨f1, f2, -⟩ := finishStep_cases cfg z
        obtain ⟨f1', f2', -⟩ := finishStep_cases cfg z'
        exact ⟨r1, ⟨by rw [f2, f2', u1, v1, hs.g], by rw [f1, f1', u6, v6, hs.flps], r3, r2, r5, fun _ => r4⟩⟩
    · have hb' : s'.time % cfg.an.slotLength ≠ 0 := by rw [← hs.phase]; exact hb
      rw [step_inside ht hb, step_inside ht hb']
      obtain ⟨r1, r2, r3, r4, r5⟩ := finish_same h h' hs.g hs.plug hs.temps (hs.sources hb) hs.phase hW hW'
      obtain ⟨f1, f2, -⟩ := finishStep_cases cfg s
      obtain ⟨f1', f2', -⟩ := finishStep_cases cfg s'
      exact ⟨r1, ⟨by rw [f2, f2', hs.g], by rw [f1, f1', hs.flps], r3, r2, r5, fun _ => r4⟩⟩
  · have k : ∀ s : Sim K π, emulateStep cfg s = (.wrongConfig, s) := fun s => by simp [emulateStep, ht]
    rw [k, k]; exact ⟨rfl, hs⟩

theorem same_exec {cfg : Cfg K π} {s s' : Sim K π} (h : Good cfg s) (h' : Good cfg s') (hs : SamePhase cfg s s') (hW : s.time + 1 < W)
    (hW' : s'.time + 1 < W) (o : Op K) : (exec cfg o s).1 = (exec cfg o s').1 ∧ SamePhase cfg (exec cfg o s).2 (exec cfg o s').2 := by
  cases o with
  | step =>
    obtain ⟨a, b⟩ := same_step h h' hs hW hW'
    exact ⟨by simp only [exec, a], b⟩
  | insert vs =>
    refine ⟨rfl, ?_⟩
    have hf : (insertFrom s.g s.g.nLayers 0 s.flps vs).1 = (insertFrom s'.g s'.g.nLayers 0 s'.flps vs).1 := by rw [hs.g, hs.flps]
    exact ⟨hs.g, hf, hs.plug, hs.temps, hs.phase, hs.sources⟩
  | reset => exact ⟨rfl, ⟨hs.g, hs.flps, hs.plug, rfl, hs.phase, hs.sources⟩⟩
  | flow f =>
    refine ⟨rfl, ?_⟩
    simp only [exec, updateFlow, hs.g]
    split
    · exact ⟨rfl, hs.flps, hs.plug, hs.temps, hs.phase, fun h0 => by show channelFrom _ _ _ _ _ s.sources = _; rw [hs.sources h0]⟩
    · exact ⟨rfl, hs.flps, hs.plug, hs.temps, hs.phase, hs.sources⟩

theorem time_le {cfg : Cfg K π} {s : Sim K π} (h : Ready s) (o : Op K) (hW : s.time + 1 < W) : (exec cfg o s).2.time ≤ s.time + 1 := by
  cases o with
  | step =>
    obtain ⟨-, -, -, hc⟩ := step_spec (cfg := cfg) h
    simp only [exec]
    rcases hc with ⟨-, -, h2⟩ | ⟨-, -, -, -, h2, -⟩ | ⟨-, -, -, h2 | h2⟩
    · rw [h2]; omega
    · omega
    · omega
    · rw [h2.2.1, Nat.mod_eq_of_lt hW]
  | insert vs => obtain ⟨fs, e, -⟩ := insert_spec h vs; simp only [exec, e]; omega
  | reset => exact Nat.le_succ _
  | flow f => rw [exec, (updateFlow_keeps cfg s f).2.1]; omega

theorem same_run {cfg : Cfg K π} (ops : List (Op K)) {s s' : Sim K π} (h : Good cfg s) (h' : Good cfg s') (hs : SamePhase cfg s s')
    (hW : s.time + ops.length < W) (hW' : s'.time + ops.length < W) : observe cfg ops s = observe cfg ops s' := by
  induction ops generalizing s s' with
  | nil => rfl
  | cons o os ih =>
    simp only [List.length_cons] at hW hW'
    obtain ⟨a, b⟩ := same_exec h h' hs (by omega) (by omega) o
    have t1 := time_le (cfg := cfg) h.ready o (by omega)
    have t2 := time_le (cfg := cfg) h'.ready o (by omega)
    rw [observe, observe, a, b.temps, ih (good_exec h o) (good_exec h' o) b (by omega) (by omega)]

/-- **C41** After a reset the trajectory does not depend on what happened before, beyond the remaining powers, the phase in the slot,
the flow rate, and, inside a slot, the powers of the slot: for two simulations of the same stack at the same phase with the same remaining
powers, whatever their temperatures and however many steps they have simulated, the same calls after a reset return the same results and
the same temperatures, call by call. -/
theorem C41_trajectory_after_reset {cfg : Cfg K π} {s s' : Sim K π} (h : Reachable cfg s) (h' : Reachable cfg s') (hg : s.g = s'.g)
    (hf : s.flps = s'.flps) (hp : s.plug = s'.plug) (hph : s.time % cfg.an.slotLength = s'.time % cfg.an.slotLength)
    (hsrc : s.time % cfg.an.slotLength ≠ 0 → s.sources = s'.sources) (ops : List (Op K)) (hW : s.time + ops.length < 2 ^ 32)
    (hW' : s'.time + ops.length < 2 ^ 32) : observe cfg ops (reset cfg s) = observe cfg ops (reset cfg s') := by
  refine same_run ops (good_exec (reachable_good h) .reset) (good_exec (reachable_good h') .reset) ?_ (by rw [W_eq]; exact hW)
    (by rw [W_eq]; exact hW')
  exact ⟨hg, hf, hp, rfl, hph, hsrc⟩

/-- In particular, after a reset at a slot boundary a simulation without pluggable sink state behaves as a freshly built one with the
remaining powers. -/
theorem C41_reset_as_fresh {cfg : Cfg K π} {rs rs' : List (Raw K (List (FlpEl K)))} {s0 s0' : Sim K π} (h : Started cfg rs s0)
    (h' : Started cfg rs' s0') (pre ops : List (Op K)) (hg : (run cfg pre s0).2.g = s0'.g) (hf : (run cfg pre s0).2.flps = s0'.flps)
    (hp : (run cfg pre s0).2.plug = s0'.plug) (hb : cfg.an.slotLength ∣ (run cfg pre s0).2.time)
    (hW : (run cfg pre s0).2.time + ops.length < 2 ^ 32) :
    observe cfg ops (reset cfg (run cfg pre s0).2) = observe cfg ops s0' := by
  have ht := (started_spec h').2.2.1
  have e : s0' = reset cfg s0' := by
    have := (started_spec h').2.2.2.1
    unfold reset; rw [← this]
  have hm := Nat.dvd_iff_mod_eq_zero.mp hb
  rw [e]
  exact C41_trajectory_after_reset (s' := s0') ⟨rs, s0, pre, h, rfl⟩ ⟨rs', s0', [], h', rfl⟩ hg hf hp (by rw [hm, ht, Nat.zero_mod])
    (fun h0 => absurd hm h0) ops hW (by rw [ht]; omega)

/-- Non-vacuity: the example chip after a whole slot and a reset behaves as the chip built with the rest of the powers. -/
example (e1 e2 : FlpEl ℚ) (h1 : e1.powers = [1, 2]) (h2 : e2.powers = [4, 5]) (ops : List (Op ℚ)) (ho : ops.length < 1000) :
    observe (chipCfg .transient 2) ops (reset (chipCfg .transient 2) (run (chipCfg .transient 2) [.step, .step] (chipSim .transient 2 [] [e1, e2])).2) =
      observe (chipCfg .transient 2) ops (chipSim .transient 2 [] [pop e1, pop e2]) := by
  have hr := chip_reachable .transient 2 [] [e1, e2]
  have hpw : ∀ e ∈ elements (chipSim .transient 2 [] [e1, e2]), e.powers ≠ [] := by
    rw [chip_elements]; intro e he; simp at he; rcases he with rfl | rfl
    · rw [h1]; simp
    · rw [h2]; simp
  have hok := chip_slot (reachable_good hr) rfl (Nat.dvd_zero 2) (by simp [chipSim]) hpw
  obtain ⟨ht, -⟩ := steps_time (reachable_good hr) 2 hok (by rw [W_eq]; simp [chipSim])
  have e0 : (run (chipCfg .transient 2) [.step, .step] (chipSim .transient 2 [] [e1, e2])).2 =
    (steps (chipCfg .transient 2) 2 (chipSim .transient 2 [] [e1, e2])).2 := rfl
  have ht0 : (chipSim .transient 2 [] [e1, e2]).time = 0 := rfl
  have hf : (run (chipCfg .transient 2) [.step, .step] (chipSim .transient 2 [] [e1, e2])).2.flps =
      (chipSim .transient 2 [] [pop e1, pop e2]).flps := by
    have hs1 := hok (emulateStep (chipCfg .transient 2) (chipSim .transient 2 [] [e1, e2])).1 (by exact List.mem_cons_self)
    have s1 := step_start' (cfg := chipCfg .transient 2) (reachable_ready hr) rfl (Nat.zero_mod 2) hpw
    have f1 := finishStep_cases (chipCfg .transient 2) (slotStart (chipCfg .transient 2) (chipSim .transient 2 [] [e1, e2]))
    have t1 : (emulateStep (chipCfg .transient 2) (chipSim .transient 2 [] [e1, e2])).2.time = 1 := by
      rw [s1]
      rcases f1.2.2.2 with h | h
      · rw [s1, h.1] at hs1; simp [Succeeded] at hs1
      · rw [h.2.1, (slotStart_fields _ _).2.2.2.2.1, ht0]; exact Nat.mod_eq_of_lt (by rw [W_eq]; norm_num)
    show (emulateStep (chipCfg .transient 2) (emulateStep (chipCfg .transient 2) (chipSim .transient 2 [] [e1, e2])).2).2.flps = _
    rw [step_inside (cfg := chipCfg .transient 2) rfl (by rw [t1]; exact (by decide : 1 % 2 ≠ 0)), (finishStep_cases _ _).1, s1, f1.1,
      (slotStart_fields _ _).2.2.2.2.2]
    rfl
  refine C41_reset_as_fresh (chip_started .transient 2 [] [e1, e2]) (chip_started .transient 2 [] [pop e1, pop e2]) [.step, .step] ops ?_ hf rfl ?_ ?_
  · rw [grid_run _ (reachable_ready hr)]; rfl
  · rw [e0, ht, ht0]; exact ⟨1, rfl⟩
  · rw [e0, ht, ht0]; omega

end Verif.Emu
