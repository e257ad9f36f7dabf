import Verif.Props.Simulate

/-! C09–C12, C35, C41, C50: slots, power traces, resets. -/

set_option linter.unusedSectionVars false
set_option linter.unusedSimpArgs false
set_option linter.unusedVariables false

namespace Verif.Emu
open Verif.Dim Verif.TG Verif.SM Verif.Flp Verif.Stk

variable {K : Type} [Field K] [LinearOrder K] [IsStrictOrderedRing K] {π : Type}

/-! ### One slot -/

/-- What a call of `emulate_slot` does, for a transient analysis. -/
theorem slotRun_spec {cfg : Cfg K π} (ht : cfg.an.type = .transient) (hL : 0 < cfg.an.slotLength) {s s' : Sim K π} {r : SimResult}
    (hrun : SlotRun cfg s r s') (h : Ready s) (hW : (s.time / cfg.an.slotLength + 1) * cfg.an.slotLength < W) :
    Ready s' ∧
    ((r = .endOfSimulation ∧ s.time % cfg.an.slotLength = 0 ∧ (∃ e ∈ elements s, e.powers = []) ∧ s'.time = s.time ∧ s'.temps = s.temps ∧
        elements s' = popStart (elements s)) ∨
     ((s.time % cfg.an.slotLength = 0 → ∀ e ∈ elements s, e.powers ≠ []) ∧
        elements s' = (if s.time % cfg.an.slotLength = 0 then (elements s).map pop else elements s) ∧
        (r = .solverError ∨ (r = .slotDone ∧ s'.time = (s.time / cfg.an.slotLength + 1) * cfg.an.slotLength)))) := by
  have hdm := Nat.div_add_mod
  induction hrun with
  | @stop s r s' he hne =>
    obtain ⟨h1, -, -, hc⟩ := step_spec (cfg := cfg) h
    rw [he] at h1 hc
    simp only at h1 hc
    refine ⟨h1, ?_⟩
    rcases hc with ⟨-, h2, -⟩ | ⟨a, -, b, c, d, e, f⟩ | ⟨-, a, b, c | ⟨c1, c2, c3⟩⟩
    · exact absurd ht h2
    · exact Or.inl ⟨a, b, c, d, e, f⟩
    · exact Or.inr ⟨a, b, Or.inl c.1⟩
    · refine Or.inr ⟨a, b, Or.inr ?_⟩
      have hr : r = .slotDone := by rcases c1 with c1 | c1 <;> [exact absurd c1 hne; exact c1]
      refine ⟨hr, ?_⟩
      have e1 := hdm s.time cfg.an.slotLength
      have e2 := Nat.mod_lt s.time hL
      have e3 : (s.time / cfg.an.slotLength + 1) * cfg.an.slotLength = cfg.an.slotLength * (s.time / cfg.an.slotLength) + cfg.an.slotLength := by ring
      have hlt : s.time + 1 < W := by omega
      rw [Nat.mod_eq_of_lt hlt] at c2 c3
      rw [c2, e3]
      have h4 := c3.mp hr
      have e4 := hdm (s.time + 1) cfg.an.slotLength
      rw [h4] at e4
      have : cfg.an.slotLength * (s.time / cfg.an.slotLength) < cfg.an.slotLength * ((s.time + 1) / cfg.an.slotLength) := by omega
      have := Nat.lt_of_mul_lt_mul_left this
      have := Nat.mul_le_mul_left cfg.an.slotLength (show s.time / cfg.an.slotLength + 1 ≤ (s.time + 1) / cfg.an.slotLength by omega)
      rw [Nat.mul_add, Nat.mul_one] at this
      omega
  | @again s s1 r s' he _ ih =>
    obtain ⟨h1, -, -, hc⟩ := step_spec (cfg := cfg) h
    rw [he] at h1 hc
    simp only at h1 hc
    rcases hc with ⟨h2, -⟩ | ⟨h2, -⟩ | ⟨-, a, b, c | ⟨c1, c2, c3⟩⟩
    · simp at h2
    · simp at h2
    · simp at c
    · have e1 := hdm s.time cfg.an.slotLength
      have e2 := Nat.mod_lt s.time hL
      have e3 : (s.time / cfg.an.slotLength + 1) * cfg.an.slotLength = cfg.an.slotLength * (s.time / cfg.an.slotLength) + cfg.an.slotLength := by ring
      have hlt : s.time + 1 < W := by omega
      rw [Nat.mod_eq_of_lt hlt] at c2 c3
      have hnz : (s.time + 1) % cfg.an.slotLength ≠ 0 := by
        intro h0; exact absurd (c3.mpr h0) (by simp)
      have hdiv : (s.time + 1) / cfg.an.slotLength = s.time / cfg.an.slotLength := by
        have e4 := hdm (s.time + 1) cfg.an.slotLength
        have e5 := Nat.mod_lt (s.time + 1) hL
        apply Nat.le_antisymm
        · by_contra hh
          have := Nat.mul_le_mul_left cfg.an.slotLength (show s.time / cfg.an.slotLength + 1 ≤ (s.time + 1) / cfg.an.slotLength by omega)
          rw [Nat.mul_add, Nat.mul_one] at this
          omega
        · exact Nat.div_le_div_right (by omega)
      obtain ⟨i1, i2⟩ := ih h1 (by rw [c2, hdiv]; exact hW)
      refine ⟨i1, Or.inr ?_⟩
      rw [c2] at i2
      rcases i2 with ⟨-, i2, -⟩ | ⟨-, i3, i4⟩
      · exact absurd i2 hnz
      · rw [if_neg hnz] at i3
        rw [hdiv] at i4
        exact ⟨a, i3.trans b, i4⟩

/-! ### C11, C12 -/

/-- **C11** On an analysis of the wrong type the simulation functions return WRONG_CONFIG and change nothing. -/
theorem C11_wrong_config (cfg : Cfg K π) (s : Sim K π) :
    (cfg.an.type ≠ .transient → emulateStep cfg s = (.wrongConfig, s) ∧ (∀ r s', SlotRun cfg s r s' ↔ r = .wrongConfig ∧ s' = s)) ∧
    (cfg.an.type ≠ .steady → emulateSteady cfg s = (.wrongConfig, s)) := by
  constructor
  · intro ht
    have he : emulateStep cfg s = (.wrongConfig, s) := by simp [emulateStep, ht]
    refine ⟨he, fun r s' => ⟨fun h => ?_, ?_⟩⟩
    · cases h with
      | stop h1 h2 => rw [he] at h1; simp only [Prod.mk.injEq] at h1; exact ⟨h1.1.symm, h1.2.symm⟩
      | again h1 _ => rw [he] at h1; simp at h1
    · rintro ⟨rfl, rfl⟩; exact .stop he (by simp)
  · intro ht; simp [emulateSteady, ht]

theorem slot_deterministic {cfg : Cfg K π} {s s1 s2 : Sim K π} {r1 r2 : SimResult} (h1 : SlotRun cfg s r1 s1) (h2 : SlotRun cfg s r2 s2) :
    r1 = r2 ∧ s1 = s2 := by
  induction h1 generalizing r2 s2 with
  | stop he hne =>
    cases h2 with
    | stop he' _ => rw [he] at he'; simp only [Prod.mk.injEq] at he'; exact ⟨he'.1, he'.2⟩
    | again he' _ => rw [he] at he'; simp only [Prod.mk.injEq] at he'; exact absurd he'.1 hne
  | again he _ ih =>
    cases h2 with
    | stop he' hne => rw [he] at he'; simp only [Prod.mk.injEq] at he'; exact absurd he'.1.symm hne
    | again he' h2 =>
      rw [he] at he'; simp only [Prod.mk.injEq] at he'
      obtain ⟨-, rfl⟩ := he'
      exact ih h2

theorem time_lt_run {cfg : Cfg K π} (ops : List (Op K)) {s : Sim K π} (h : Ready s) (hW : s.time < W) : (run cfg ops s).2.time < W := by
  induction ops generalizing s with
  | nil => exact hW
  | cons o os ih =>
    refine ih (ready_exec h o) ?_
    cases o with
    | step =>
      obtain ⟨-, -, -, hc⟩ := step_spec (cfg := cfg) h
      simp only [exec]
      rcases hc with ⟨-, -, h2⟩ | ⟨-, -, -, -, h2, -⟩ | ⟨-, -, -, h1 | h1⟩
      · rw [h2]; exact hW
      · rw [h2]; exact hW
      · rw [h1.2]; exact hW
      · rw [h1.2.1]; exact Nat.mod_lt _ (by rw [W_eq]; norm_num)
    | insert vs =>
      obtain ⟨fs, e1, -⟩ := insert_spec h vs
      simp only [exec, e1]; exact hW
    | reset => exact hW
    | flow f =>
      obtain ⟨-, e2, -⟩ := updateFlow_keeps cfg s f
      simp only [exec, e2]; exact hW

/-- **C11** `emulate_slot` always returns, with one outcome, whatever the solver does: the slot length of an accepted stack is positive (C37). -/
theorem C11_slot_terminates {cfg : Cfg K π} (hL : 0 < cfg.an.slotLength) {s : Sim K π} (h : Reachable cfg s) :
    ∃ r s', SlotRun cfg s r s' ∧ r ≠ .stepDone ∧ ∀ r' s'', SlotRun cfg s r' s'' → r' = r ∧ s'' = s' := by
  have hr := reachable_ready h
  have hlt : s.time < W := by
    obtain ⟨rs, s0, ops, h1, h2⟩ := h
    obtain ⟨a, -, b, -⟩ := started_spec h1
    rw [← h2]; exact time_lt_run ops a (by rw [b, W_eq]; norm_num)
  have key : ∀ (n : Nat) (s : Sim K π), Ready s → s.time < W → cfg.an.slotLength - s.time % cfg.an.slotLength ≤ n → ∃ r s', SlotRun cfg s r s' ∧ r ≠ .stepDone := by
    intro n
    induction n with
    | zero =>
      intro s _ _ hn
      have := Nat.mod_lt s.time hL
      omega
    | succ n ih =>
      intro s hs hlt hn
      by_cases hd : (emulateStep cfg s).1 = .stepDone
      · obtain ⟨h1, -, -, hc⟩ := step_spec (cfg := cfg) hs
        rcases hc with ⟨h2, -⟩ | ⟨h2, -⟩ | ⟨-, -, -, h2 | ⟨-, c2, c3⟩⟩
        · rw [h2] at hd; simp at hd
        · rw [h2] at hd; simp at hd
        · rw [h2.1] at hd; simp at hd
        · have hnz : (s.time + 1) % W % cfg.an.slotLength ≠ 0 := fun h0 => by rw [c3.mpr h0] at hd; simp at hd
          have hlt' : s.time + 1 < W := by
            by_contra hh
            have : s.time + 1 = W := by omega
            rw [this, Nat.mod_self, Nat.zero_mod] at hnz
            exact hnz rfl
          rw [Nat.mod_eq_of_lt hlt'] at c2 hnz
          have hm : (s.time + 1) % cfg.an.slotLength = s.time % cfg.an.slotLength + 1 := by
            rw [Nat.add_mod] at hnz ⊢
            by_cases h1' : cfg.an.slotLength = 1
            · rw [h1', Nat.mod_one] at hnz; exact absurd rfl hnz
            · rw [Nat.mod_eq_of_lt (show 1 < cfg.an.slotLength by omega)] at hnz ⊢
              have := Nat.mod_lt s.time hL
              rcases Nat.lt_or_ge (s.time % cfg.an.slotLength + 1) cfg.an.slotLength with hh | hh
              · exact Nat.mod_eq_of_lt hh
              · have e : s.time % cfg.an.slotLength + 1 = cfg.an.slotLength := by omega
                rw [e, Nat.mod_self] at hnz
                exact absurd rfl hnz
          obtain ⟨r, s', h3, h4⟩ := ih (emulateStep cfg s).2 h1 (by rw [c2]; exact hlt') (by rw [c2, hm]; omega)
          exact ⟨r, s', .again (by rw [← hd]) h3, h4⟩
      · exact ⟨_, _, .stop rfl hd, hd⟩
  obtain ⟨r, s', h1, h2⟩ := key _ s hr hlt le_rfl
  exact ⟨r, s', h1, h2, fun r' s'' h3 => slot_deterministic h3 h1⟩

/-- **C12** A successful `emulate_slot` stops at the next multiple of the slot length, having taken one value of each element if it began at a
slot boundary and none otherwise. (Times stay below 2^32, see C08.) -/
theorem C12_slot_ends_at_boundary {cfg : Cfg K π} (hL : 0 < cfg.an.slotLength) {s s' : Sim K π} {r : SimResult} (h : Reachable cfg s)
    (hrun : SlotRun cfg s r s') (hr : Succeeded r) (hW : s.time + cfg.an.slotLength < 2 ^ 32) :
    r = .slotDone ∧ cfg.an.slotLength ∣ s'.time ∧ s.time < s'.time ∧ s'.time ≤ s.time + cfg.an.slotLength ∧
      traces s' = if cfg.an.slotLength ∣ s.time then (traces s).map List.tail else traces s := by
  have ht : cfg.an.type = .transient := by
    by_contra hc
    have := (((C11_wrong_config cfg s).1 hc).2 r s').mp hrun
    rw [this.1] at hr; simp [Succeeded] at hr
  have hdm := Nat.div_add_mod s.time cfg.an.slotLength
  have hml := Nat.mod_lt s.time hL
  have e3 : (s.time / cfg.an.slotLength + 1) * cfg.an.slotLength = cfg.an.slotLength * (s.time / cfg.an.slotLength) + cfg.an.slotLength := by ring
  obtain ⟨-, hc⟩ := slotRun_spec ht hL hrun (reachable_ready h) (by rw [W_eq]; omega)
  rcases hc with ⟨h1, -⟩ | ⟨-, h2, h3 | ⟨h3, h4⟩⟩
  · rw [h1] at hr; simp [Succeeded] at hr
  · rw [h3] at hr; simp [Succeeded] at hr
  · refine ⟨h3, ?_, by omega, by omega, ?_⟩
    · rw [h4]; exact Dvd.intro_left _ rfl
    · unfold traces
      rw [h2]
      by_cases hd : s.time % cfg.an.slotLength = 0
      · rw [if_pos hd, if_pos (Nat.dvd_iff_mod_eq_zero.mpr hd)]; simp [pop, Function.comp_def]
      · rw [if_neg hd, if_neg (fun h => hd (Nat.dvd_iff_mod_eq_zero.mp h))]

/-- Non-vacuity: a slot of two steps. -/
example : ∃ s', SlotRun (demoCfg .transient 2) (demoSim .transient 2 [1, 2] [4]) .slotDone s' ∧ traces s' = [[2], []] ∧ s'.time = 2 := by
  obtain ⟨r, s', h1, h2, -⟩ := C11_slot_terminates (cfg := demoCfg .transient 2) (by decide) (demo_reachable .transient 2 [1, 2] [4])
  have hne : r = .slotDone := by
    have hr : ∀ (s : Sim ℚ Unit) r s', SlotRun (demoCfg .transient 2) s r s' → Ready s → r ≠ .solverError := by
      intro s r s' h
      induction h with
      | stop he _ => intro hs hh; exact step_healthy (demo_healthy .transient 2) hs (by rw [he]; exact hh)
      | again he _ ih => intro hs; exact ih (by have := (step_spec (cfg := demoCfg .transient 2) hs).1; rwa [he] at this)
    obtain ⟨-, hc⟩ := slotRun_spec (cfg := demoCfg .transient 2) rfl (by decide) h1 (started_spec (demo_started .transient 2 [1, 2] [4])).1
      (by rw [W_eq]; simp [demoSim, demoCfg])
    rcases hc with ⟨-, -, ⟨e, he, h3⟩, -⟩ | ⟨-, -, h3 | ⟨h3, -⟩⟩
    · rw [demo_elements] at he
      fin_cases he <;> simp [demoEl] at h3
    · exact absurd h3 (hr _ _ _ h1 (started_spec (demo_started .transient 2 [1, 2] [4])).1)
    · exact h3
  subst hne
  obtain ⟨-, h3, h4, h5, h6⟩ := C12_slot_ends_at_boundary (cfg := demoCfg .transient 2) (by decide) (demo_reachable .transient 2 [1, 2] [4]) h1
    (by simp [Succeeded]) (by simp [demoSim, demoCfg])
  refine ⟨s', h1, h6, ?_⟩
  have e1 : (demoSim .transient 2 [1, 2] [4]).time = 0 := rfl
  have e2 : (demoCfg .transient 2).an.slotLength = 2 := rfl
  rw [e1] at h4 h5
  rw [e2] at h5 h3
  omega

/-! ### C09, C10 -/

/-- Consecutive calls of `emulate_slot`. -/
inductive Slots (cfg : Cfg K π) : Sim K π → List SimResult → Sim K π → Prop
  | nil (s) : Slots cfg s [] s
  | cons {s s1 s' r rs} : SlotRun cfg s r s1 → Slots cfg s1 rs s' → Slots cfg s (r :: rs) s'

theorem reachable_slot {cfg : Cfg K π} {s s' : Sim K π} {r : SimResult} (h : SlotRun cfg s r s') (hs : Reachable cfg s) : Reachable cfg s' := by
  induction h with
  | stop he _ => have := hs.exec .step; simp only [exec, he] at this; exact this
  | again he _ ih => refine ih ?_; have := hs.exec .step; simp only [exec, he] at this; exact this

/-- **C09** Starting at a slot boundary, as long as every element has values left, each slot takes exactly one value of each element
and lasts the slot length. (Times stay below 2^32, see C08; the solver does not fail.) -/
theorem C09_one_value_per_slot {cfg : Cfg K π} (ht : cfg.an.type = .transient) (hL : 0 < cfg.an.slotLength) {s s' : Sim K π}
    (h : Reachable cfg s) (hb : cfg.an.slotLength ∣ s.time) {rs : List SimResult} (hrun : Slots cfg s rs s')
    (hok : ∀ r ∈ rs, r ≠ .solverError) (hlen : ∀ t ∈ traces s, rs.length ≤ t.length)
    (hW : s.time + rs.length * cfg.an.slotLength < 2 ^ 32) :
    rs = List.replicate rs.length .slotDone ∧ traces s' = (traces s).map (List.drop rs.length) ∧
      s'.time = s.time + rs.length * cfg.an.slotLength ∧ Reachable cfg s' := by
  induction hrun with
  | nil s => exact ⟨rfl, by simp [show (List.drop 0 : List K → List K) = id from rfl], by simp, h⟩
  | @cons s s1 s' r rs h1 h2 ih =>
    have hr := reachable_ready h
    have hdm := Nat.div_add_mod s.time cfg.an.slotLength
    have hm := Nat.dvd_iff_mod_eq_zero.mp hb
    have e3 : (s.time / cfg.an.slotLength + 1) * cfg.an.slotLength = s.time + cfg.an.slotLength := by
      rw [Nat.add_mul, Nat.one_mul, Nat.mul_comm]; omega
    rw [List.length_cons] at hlen hW
    have e4 : (rs.length + 1) * cfg.an.slotLength = rs.length * cfg.an.slotLength + cfg.an.slotLength := by ring
    rw [e4] at hW
    have hall : ∀ e ∈ elements s, e.powers ≠ [] := by
      intro e he hh
      have := hlen e.powers (List.mem_map.mpr ⟨e, he, rfl⟩)
      rw [hh] at this; simp at this
    obtain ⟨-, hc⟩ := slotRun_spec ht hL h1 hr (by rw [e3, W_eq]; omega)
    rcases hc with ⟨-, -, ⟨e, he, h3⟩, -⟩ | ⟨-, h3, h4 | ⟨h4, h5⟩⟩
    · exact absurd h3 (hall e he)
    · exact absurd h4 (hok r (by simp))
    · rw [if_pos hm] at h3
      rw [e3] at h5
      have htr : traces s1 = (traces s).map List.tail := by unfold traces; rw [h3]; simp [pop, Function.comp_def]
      obtain ⟨i1, i2, i3, i4⟩ := ih (reachable_slot h1 h) (by rw [h5]; exact Nat.dvd_add hb (dvd_refl _)) (fun r hr => hok r (by simp [hr]))
        (by
          rw [htr]
          intro t ht
          obtain ⟨u, hu, rfl⟩ := List.mem_map.mp ht
          have := hlen u hu
          rw [List.length_tail]; omega)
        (by rw [h5]; omega)
      refine ⟨?_, ?_, ?_, i4⟩
      · rw [List.length_cons, List.replicate_succ, ← i1, h4]
      · rw [i2, htr, List.map_map, List.length_cons]
        congr 1; funext t; cases t <;> simp
      · rw [i3, h5, List.length_cons, e4]; omega

/-- **C09** The simulation ends exactly when the shortest trace is used up: after as many slots as it has values, the next slot reports the end
of the simulation, and neither time nor temperatures change. -/
theorem C09_ends_with_shortest_trace {cfg : Cfg K π} (ht : cfg.an.type = .transient) (hL : 0 < cfg.an.slotLength) {s s' s'' : Sim K π}
    (h : Reachable cfg s) (hb : cfg.an.slotLength ∣ s.time) {rs : List SimResult} (hrun : Slots cfg s rs s')
    (hok : ∀ r ∈ rs, r ≠ .solverError) (hlen : ∀ t ∈ traces s, rs.length ≤ t.length) (hmin : ∃ t ∈ traces s, t.length = rs.length)
    (hW : s.time + (rs.length + 1) * cfg.an.slotLength < 2 ^ 32) {r : SimResult} (hr : SlotRun cfg s' r s'') :
    r = .endOfSimulation ∧ s''.time = s'.time ∧ s''.temps = s'.temps := by
  have e4 : (rs.length + 1) * cfg.an.slotLength = rs.length * cfg.an.slotLength + cfg.an.slotLength := by ring
  rw [e4] at hW
  obtain ⟨-, h1, h2, h3⟩ := C09_one_value_per_slot ht hL h hb hrun hok hlen (by omega)
  have hb' : cfg.an.slotLength ∣ s'.time := by rw [h2]; exact Nat.dvd_add hb (Dvd.intro_left _ rfl)
  have hm := Nat.dvd_iff_mod_eq_zero.mp hb'
  have hdm := Nat.div_add_mod s'.time cfg.an.slotLength
  have e3 : (s'.time / cfg.an.slotLength + 1) * cfg.an.slotLength = s'.time + cfg.an.slotLength := by
    rw [Nat.add_mul, Nat.one_mul, Nat.mul_comm]; omega
  obtain ⟨-, hc⟩ := slotRun_spec ht hL hr (reachable_ready h3) (by rw [e3, h2, W_eq]; omega)
  rcases hc with ⟨a, -, -, b, c, -⟩ | ⟨a, -⟩
  · exact ⟨a, b, c⟩
  · exfalso
    obtain ⟨t, ht, hl⟩ := hmin
    have hmem : ([] : List K) ∈ traces s' := by
      rw [h1]
      exact List.mem_map.mpr ⟨t, ht, by rw [← hl, List.drop_length]⟩
    obtain ⟨e, he, h0⟩ := List.mem_map.mp hmem
    exact a hm e he h0

/-- Non-vacuity: traces of two and of one value: one slot, then the end. -/
example : ∃ s' s'', SlotRun (demoCfg .transient 2) (demoSim .transient 2 [1, 2] [4]) .slotDone s' ∧
    SlotRun (demoCfg .transient 2) s' .endOfSimulation s'' ∧ s''.time = s'.time := by
  obtain ⟨r, s', h1, h2, -⟩ := C11_slot_terminates (cfg := demoCfg .transient 2) (by decide) (demo_reachable .transient 2 [1, 2] [4])
  obtain ⟨r', s'', h3, h4, -⟩ := C11_slot_terminates (cfg := demoCfg .transient 2) (by decide) (reachable_slot h1 (demo_reachable .transient 2 [1, 2] [4]))
  have hne : r ≠ .solverError := by
    have hr : ∀ (s : Sim ℚ Unit) r s', SlotRun (demoCfg .transient 2) s r s' → Ready s → r ≠ .solverError := by
      intro s r s' h
      induction h with
      | stop he _ => intro hs hh; exact step_healthy (demo_healthy .transient 2) hs (by rw [he]; exact hh)
      | again he _ ih => intro hs; exact ih (by have := (step_spec (cfg := demoCfg .transient 2) hs).1; rwa [he] at this)
    exact hr _ _ _ h1 (started_spec (demo_started .transient 2 [1, 2] [4])).1
  have hS : Slots (demoCfg .transient 2) (demoSim .transient 2 [1, 2] [4]) [r] s' := .cons h1 (.nil _)
  have hl : ∀ t ∈ traces (demoSim .transient 2 [1, 2] [4]), [r].length ≤ t.length := by
    intro t ht; simp [traces, demo_elements, demoEl] at ht; rcases ht with rfl | rfl <;> simp
  have a := C09_one_value_per_slot (cfg := demoCfg .transient 2) rfl (by decide) (demo_reachable .transient 2 [1, 2] [4]) (by exact Nat.dvd_zero _) hS
    (by simpa using hne) hl (by simp [demoSim, demoCfg])
  have b := C09_ends_with_shortest_trace (cfg := demoCfg .transient 2) rfl (by decide) (demo_reachable .transient 2 [1, 2] [4]) (by exact Nat.dvd_zero _) hS
    (by simpa using hne) hl ⟨[4], by simp [traces, demo_elements, demoEl], rfl⟩ (by simp [demoSim, demoCfg]) h3
  have hr : r = .slotDone := by simpa using a.1
  subst hr
  rw [b.1] at h3
  exact ⟨s', s'', h1, h3, b.2.1⟩

/-- **C10** What a slot that cannot start takes away: one value from each element that precedes, bottom-up, the first one without
values. -/
theorem C10_what_is_lost {cfg : Cfg K π} {s : Sim K π} (h : Reachable cfg s) (he : (emulateStep cfg s).1 = .endOfSimulation) :
    ∃ before first after, traces s = before ++ first :: after ∧ (∀ t ∈ before, t ≠ []) ∧ first = [] ∧
      traces (emulateStep cfg s).2 = before.map List.tail ++ first :: after := by
  obtain ⟨-, -, -, hc⟩ := step_spec (cfg := cfg) (reachable_ready h)
  rw [he] at hc
  rcases hc with ⟨h2, -⟩ | ⟨-, -, -, hp, -, -, hel⟩ | ⟨-, -, -, c | ⟨c1, -⟩⟩
  · simp at h2
  · unfold traces
    rw [hel]
    generalize elements s = L at hp
    clear hel he
    induction L with
    | nil => simp at hp
    | cons e L ih =>
      by_cases h0 : e.powers = []
      · exact ⟨[], e.powers, L.map (·.powers), by simp, by simp, h0, by rw [popStart_cons_empty h0]; simp⟩
      · obtain ⟨B, f, A, i1, i2, i3, i4⟩ := ih (by
          obtain ⟨e', he', h⟩ := hp
          rcases List.mem_cons.mp he' with rfl | he'
          · exact absurd h h0
          · exact ⟨e', he', h⟩)
        refine ⟨e.powers :: B, f, A, by simp [i1], ?_, i3, ?_⟩
        · intro t ht
          rcases List.mem_cons.mp ht with rfl | ht
          · exact h0
          · exact i2 t ht
        · rw [popStart_cons h0, List.map_cons, i4]; rfl
  · simp at c
  · simp [Succeeded] at c1

/-- **C10**, the part that holds: if all the elements have the same number of values left, a slot that cannot start takes none. -/
theorem C10_equal_traces_partial {cfg : Cfg K π} {s : Sim K π} (h : Reachable cfg s) (he : (emulateStep cfg s).1 = .endOfSimulation)
    (heq : ∀ t ∈ traces s, ∀ u ∈ traces s, t.length = u.length) : traces (emulateStep cfg s).2 = traces s := by
  obtain ⟨B, f, A, h1, h2, h3, h4⟩ := C10_what_is_lost h he
  cases B with
  | nil => rw [h4, h1]; rfl
  | cons b B =>
    have := heq b (by simp [h1]) f (by simp [h1])
    rw [h3] at this
    exact absurd (List.length_eq_zero_iff.mp this) (h2 b (by simp))

/-- **C10** is violated: with one value for the first element and none for the second, the step reports the end of the simulation and the
value of the first element is lost (sources/floorplan.c:273-284). -/
theorem C10_lost_value_violated : ∃ (cfg : Cfg ℚ Unit) (rs : List (Raw ℚ (List (FlpEl ℚ)))) (s : Sim ℚ Unit), Started cfg rs s ∧
    (emulateStep cfg s).1 = .endOfSimulation ∧ traces s = [[7], []] ∧ traces (emulateStep cfg s).2 = [[], []] := by
  have hs := demo_started .transient 2 [7] []
  refine ⟨_, _, _, hs, ?_⟩
  obtain ⟨fs, x, e1, -, e3⟩ := step_end (cfg := demoCfg .transient 2) (started_spec hs).1 rfl rfl
    ⟨demoEl "b" [], by rw [demo_elements]; simp, rfl⟩
  rw [e1]
  refine ⟨rfl, rfl, ?_⟩
  unfold traces elements
  show (els fs).map _ = _
  rw [e3, demo_elements]
  simp [popStart, demoEl, pop]

/-- Non-vacuity of the partial statement: no values at all. -/
example : traces (emulateStep (demoCfg .transient 2) (demoSim .transient 2 [] [])).2 = [[], []] := by
  have hs := demo_started .transient 2 [] []
  obtain ⟨fs, x, e1, -, e3⟩ := step_end (cfg := demoCfg .transient 2) (started_spec hs).1 rfl rfl
    ⟨demoEl "b" [], by rw [demo_elements]; simp, rfl⟩
  refine C10_equal_traces_partial (demo_reachable .transient 2 [] []) (by rw [e1]) ?_
  intro t ht u hu
  simp [traces, demo_elements, demoEl] at ht hu
  rw [ht, hu]

/-! ### C35 -/

theorem pushEach_powers (es : List (FlpEl K)) (vs : List K) (h : es.length ≤ vs.length) :
    (pushEach es vs).map (·.powers) = List.zipWith (fun t v => t ++ [v]) (es.map (·.powers)) vs ∧
      (pushEach es vs).map (fun e => (e.name, e.area, e.ics)) = es.map fun e => (e.name, e.area, e.ics) := by
  induction es generalizing vs with
  | nil => simp [pushEach]
  | cons e es ih =>
    cases vs with
    | nil => simp at h
    | cons v vs =>
      obtain ⟨i1, i2⟩ := ih vs (by simpa using h)
      exact ⟨by simp [pushEach, i1], by simp [pushEach, i2]⟩

theorem pop_names (es : List (FlpEl K)) : (es.map pop).map (fun e => (e.name, e.area, e.ics)) = es.map fun e => (e.name, e.area, e.ics) := by
  simp [pop, Function.comp_def]

theorem popStart_names (es : List (FlpEl K)) : (popStart es).map (fun e => (e.name, e.area, e.ics)) = es.map fun e => (e.name, e.area, e.ics) := by
  unfold popStart
  rw [List.map_append, pop_names, ← List.map_append, List.takeWhile_append_dropWhile]

theorem pushEach_names (es : List (FlpEl K)) (vs : List K) :
    (pushEach es vs).map (fun e => (e.name, e.area, e.ics)) = es.map fun e => (e.name, e.area, e.ics) := by
  induction es generalizing vs with
  | nil => simp [pushEach]
  | cons e es ih => cases vs <;> simp [pushEach, ih]

/-- **C35** Whatever calls have been made, the elements are those of the stack file: from the bottom die upwards and, in each die, in the order of
its floorplan. -/
theorem C35_element_order {cfg : Cfg K π} {rs : List (Raw K (List (FlpEl K)))} {s0 : Sim K π} (h : Started cfg rs s0) (ops : List (Op K)) :
    (elements (run cfg ops s0).2).map (fun e => (e.name, e.area, e.ics)) = (fileElements rs).map fun e => (e.name, e.area, e.ics) := by
  obtain ⟨h1, h2, -⟩ := started_spec h
  rw [← h2]
  clear h2 h
  induction ops generalizing s0 with
  | nil => rfl
  | cons o os ih =>
    rw [run, ih (ready_exec h1 o)]
    cases o with
    | step =>
      obtain ⟨-, -, -, hc⟩ := step_spec (cfg := cfg) h1
      simp only [exec]
      rcases hc with ⟨-, -, h2⟩ | ⟨-, -, -, -, -, -, h2⟩ | ⟨-, -, h2, -⟩
      · rw [h2]
      · rw [h2, popStart_names]
      · rw [h2]; split
        · exact pop_names _
        · rfl
    | insert vs =>
      obtain ⟨fs, e1, -, e3⟩ := insert_spec h1 vs
      simp only [exec, e1]
      show (els fs).map _ = _
      rw [e3, pushEach_names]
    | reset => rfl
    | flow f =>
      obtain ⟨e1, -⟩ := updateFlow_keeps cfg s0 f
      simp only [exec, elements, e1]

/-- **C35** A request with at least as many values as elements succeeds and appends the i-th value to the trace of the i-th element; with fewer
values it fails. -/
theorem C35_inserted_in_order {cfg : Cfg K π} {s : Sim K π} (h : Reachable cfg s) (vs : List K) :
    ((elements s).length ≤ vs.length → (insertPowerValues s vs).2 = true ∧
      traces (insertPowerValues s vs).1 = List.zipWith (fun t v => t ++ [v]) (traces s) vs) ∧
    (vs.length < (elements s).length → (insertPowerValues s vs).2 = false) ∧
    (insertPowerValues s vs).1.temps = s.temps ∧ (insertPowerValues s vs).1.time = s.time ∧ (insertPowerValues s vs).1.sources = s.sources := by
  obtain ⟨fs, e1, -, e3⟩ := insert_spec (reachable_ready h) vs
  rw [e1]
  refine ⟨fun hl => ⟨by simp [hl], ?_⟩, fun hl => by simp; omega, rfl, rfl, rfl⟩
  unfold traces
  show (els fs).map _ = _
  rw [e3]
  exact (pushEach_powers _ vs hl).1

/-- Non-vacuity: one value for each of the two elements; one value is too few. -/
example : traces (insertPowerValues (demoSim .transient 2 [1, 2] [4]) [8, 9]).1 = [[1, 2, 8], [4, 9]] ∧
    (insertPowerValues (demoSim .transient 2 [1, 2] [4]) [8]).2 = false :=
  ⟨((C35_inserted_in_order (demo_reachable .transient 2 [1, 2] [4]) [8, 9]).1 (by simp [demo_elements])).2,
   (C35_inserted_in_order (demo_reachable .transient 2 [1, 2] [4]) [8]).2.1 (by simp [demo_elements])⟩

end Verif.Emu
