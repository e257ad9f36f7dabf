import Verif.Lemmas.NuSim

/-! # C60: steps, slots, power traces on non-uniform grids -/

set_option linter.unusedSectionVars false
set_option linter.unusedSimpArgs false
set_option linter.unusedVariables false

namespace Verif.NU
open Verif.Dim Verif.TG Verif.Stk Verif.SM
open Verif.Emu (SimResult Succeeded)

variable {K : Type} [Field K] [LinearOrder K] [IsStrictOrderedRing K] {π : Type}
variable {d0 : Dims K} {decl : Option (Channel K)} {rs : List (Raw K (List (FEl K)))} {ns : List (NElem K)} {G : Grid K}

theorem NU_W : W = 4294967296 := by unfold W; norm_num

/-! ## One slot -/

/-- What a call of `emulate_slot` does, for a transient analysis. -/
theorem slotRun_spec {cfg : NCfg K π} (ht : cfg.an.type = .transient) (hL : 0 < cfg.an.slotLength) {s s' : NSim K π} {r : SimResult}
    (hrun : SlotNU cfg s r s') (h : Valid cfg d0 decl rs ns s) (hW : (s.time / cfg.an.slotLength + 1) * cfg.an.slotLength < W) :
    Valid cfg d0 decl rs ns s' ∧
    ((r = .endOfSimulation ∧ s.time % cfg.an.slotLength = 0 ∧ (∃ e ∈ elements s, e.powers = []) ∧ s'.time = s.time ∧ s'.temps = s.temps ∧
        elements s' = popFront (elements s)) ∨
     ((s.time % cfg.an.slotLength = 0 → ∀ e ∈ elements s, e.powers ≠ []) ∧
        elements s' = (if s.time % cfg.an.slotLength = 0 then (elements s).map popEl else elements s) ∧
        (r = .solverError ∨ (r = .slotDone ∧ s'.time = (s.time / cfg.an.slotLength + 1) * cfg.an.slotLength)))) := by
  have hdm := Nat.div_add_mod
  induction hrun with
  | @stop s r s' he hne =>
    obtain ⟨h1, -, -, hc⟩ := step_spec (cfg := cfg) h
    rw [he] at h1 hc
    simp only at h1 hc
    refine ⟨h1, ?_⟩
    rcases hc with ⟨-, h2, -⟩ | ⟨a, -, b, c, d, e, f⟩ | ⟨-, a, b, c | ⟨c1, c2, c3⟩⟩
    · exact absurd ht h2
    · exact Or.inl ⟨a, b, c, d, e, f⟩
    · exact Or.inr ⟨a, b, Or.inl c.1⟩
    · refine Or.inr ⟨a, b, Or.inr ?_⟩
      have hr : r = .slotDone := by rcases c1 with c1 | c1 <;> [exact absurd c1 hne; exact c1]
      refine ⟨hr, ?_⟩
      have e1 := hdm s.time cfg.an.slotLength
      have e2 := Nat.mod_lt s.time hL
      have e3 : (s.time / cfg.an.slotLength + 1) * cfg.an.slotLength = cfg.an.slotLength * (s.time / cfg.an.slotLength) + cfg.an.slotLength := by ring
      have hlt : s.time + 1 < W := by omega
      rw [Nat.mod_eq_of_lt hlt] at c2 c3
      rw [c2, e3]
      have h4 := c3.mp hr
      have e4 := hdm (s.time + 1) cfg.an.slotLength
      rw [h4] at e4
      have : cfg.an.slotLength * (s.time / cfg.an.slotLength) < cfg.an.slotLength * ((s.time + 1) / cfg.an.slotLength) := by omega
      have := Nat.lt_of_mul_lt_mul_left this
      have := Nat.mul_le_mul_left cfg.an.slotLength (show s.time / cfg.an.slotLength + 1 ≤ (s.time + 1) / cfg.an.slotLength by omega)
      rw [Nat.mul_add, Nat.mul_one] at this
      omega
  | @again s s1 r s' he _ ih =>
    obtain ⟨h1, -, -, hc⟩ := step_spec (cfg := cfg) h
    rw [he] at h1 hc
    simp only at h1 hc
    rcases hc with ⟨h2, -⟩ | ⟨h2, -⟩ | ⟨-, a, b, c | ⟨c1, c2, c3⟩⟩
    · simp at h2
    · simp at h2
    · simp at c
    · have e1 := hdm s.time cfg.an.slotLength
      have e2 := Nat.mod_lt s.time hL
      have e3 : (s.time / cfg.an.slotLength + 1) * cfg.an.slotLength = cfg.an.slotLength * (s.time / cfg.an.slotLength) + cfg.an.slotLength := by ring
      have hlt : s.time + 1 < W := by omega
      rw [Nat.mod_eq_of_lt hlt] at c2 c3
      have hnz : (s.time + 1) % cfg.an.slotLength ≠ 0 := by
        intro h0; exact absurd (c3.mpr h0) (by simp)
      have hdiv : (s.time + 1) / cfg.an.slotLength = s.time / cfg.an.slotLength := by
        have e4 := hdm (s.time + 1) cfg.an.slotLength
        have e5 := Nat.mod_lt (s.time + 1) hL
        apply Nat.le_antisymm
        · by_contra hh
          have := Nat.mul_le_mul_left cfg.an.slotLength (show s.time / cfg.an.slotLength + 1 ≤ (s.time + 1) / cfg.an.slotLength by omega)
          rw [Nat.mul_add, Nat.mul_one] at this
          omega
        · exact Nat.div_le_div_right (by omega)
      obtain ⟨i1, i2⟩ := ih h1 (by rw [c2, hdiv]; exact hW)
      refine ⟨i1, Or.inr ?_⟩
      rw [c2] at i2
      rcases i2 with ⟨-, i2, -⟩ | ⟨-, i3, i4⟩
      · exact absurd i2 hnz
      · rw [if_neg hnz] at i3
        rw [hdiv] at i4
        exact ⟨a, i3.trans b, i4⟩

/-- **C60** On an analysis of the wrong type the simulation functions return WRONG_CONFIG and change nothing. -/
theorem C60_wrong_config (cfg : NCfg K π) (s : NSim K π) :
    (cfg.an.type ≠ .transient → stepNU cfg s = (.wrongConfig, s) ∧ (∀ r s', SlotNU cfg s r s' ↔ r = .wrongConfig ∧ s' = s)) ∧
    (cfg.an.type ≠ .steady → steadyNU cfg s = (.wrongConfig, s)) := by
  constructor
  · intro ht
    have he : stepNU cfg s = (.wrongConfig, s) := by simp [stepNU, ht]
    refine ⟨he, fun r s' => ⟨fun h => ?_, ?_⟩⟩
    · cases h with
      | stop h1 h2 => rw [he] at h1; simp only [Prod.mk.injEq] at h1; exact ⟨h1.1.symm, h1.2.symm⟩
      | again h1 _ => rw [he] at h1; simp at h1
    · rintro ⟨rfl, rfl⟩; exact .stop he (by simp)
  · intro ht; simp [steadyNU, ht]

theorem slot_deterministic {cfg : NCfg K π} {s s1 s2 : NSim K π} {r1 r2 : SimResult} (h1 : SlotNU cfg s r1 s1) (h2 : SlotNU cfg s r2 s2) :
    r1 = r2 ∧ s1 = s2 := by
  induction h1 generalizing r2 s2 with
  | stop he hne =>
    cases h2 with
    | stop he' _ => rw [he] at he'; simp only [Prod.mk.injEq] at he'; exact ⟨he'.1, he'.2⟩
    | again he' _ => rw [he] at he'; simp only [Prod.mk.injEq] at he'; exact absurd he'.1 hne
  | again he _ ih =>
    cases h2 with
    | stop he' hne => rw [he] at he'; simp only [Prod.mk.injEq] at he'; exact absurd he'.1.symm hne
    | again he' h2 =>
      rw [he] at he'; simp only [Prod.mk.injEq] at he'
      obtain ⟨-, rfl⟩ := he'
      exact ih h2

/-- **C60** `emulate_slot` always returns, with one outcome, whatever the solver does: the slot length of an accepted stack is positive (C37). -/
theorem C60_slot_terminates {cfg : NCfg K π} (hL : 0 < cfg.an.slotLength) {s : NSim K π} (h : ReachableNU cfg d0 decl rs ns s) :
    ∃ r s', SlotNU cfg s r s' ∧ r ≠ .stepDone ∧ ∀ r' s'', SlotNU cfg s r' s'' → r' = r ∧ s'' = s' := by
  have hr := reachable_valid h
  have hlt : s.time < W := hr.time
  have key : ∀ (n : Nat) (s : NSim K π), Valid cfg d0 decl rs ns s → s.time < W → cfg.an.slotLength - s.time % cfg.an.slotLength ≤ n → ∃ r s', SlotNU cfg s r s' ∧ r ≠ .stepDone := by
    intro n
    induction n with
    | zero =>
      intro s _ _ hn
      have := Nat.mod_lt s.time hL
      omega
    | succ n ih =>
      intro s hs hlt hn
      by_cases hd : (stepNU cfg s).1 = .stepDone
      · obtain ⟨h1, -, -, hc⟩ := step_spec (cfg := cfg) hs
        rcases hc with ⟨h2, -⟩ | ⟨h2, -⟩ | ⟨-, -, -, h2 | ⟨-, c2, c3⟩⟩
        · rw [h2] at hd; simp at hd
        · rw [h2] at hd; simp at hd
        · rw [h2.1] at hd; simp at hd
        · have hnz : (s.time + 1) % W % cfg.an.slotLength ≠ 0 := fun h0 => by rw [c3.mpr h0] at hd; simp at hd
          have hlt' : s.time + 1 < W := by
            by_contra hh
            have : s.time + 1 = W := by omega
            rw [this, Nat.mod_self, Nat.zero_mod] at hnz
            exact hnz rfl
          rw [Nat.mod_eq_of_lt hlt'] at c2 hnz
          have hm : (s.time + 1) % cfg.an.slotLength = s.time % cfg.an.slotLength + 1 := by
            rw [Nat.add_mod] at hnz ⊢
            by_cases h1' : cfg.an.slotLength = 1
            · rw [h1', Nat.mod_one] at hnz; exact absurd rfl hnz
            · rw [Nat.mod_eq_of_lt (show 1 < cfg.an.slotLength by omega)] at hnz ⊢
              have := Nat.mod_lt s.time hL
              rcases Nat.lt_or_ge (s.time % cfg.an.slotLength + 1) cfg.an.slotLength with hh | hh
              · exact Nat.mod_eq_of_lt hh
              · have e : s.time % cfg.an.slotLength + 1 = cfg.an.slotLength := by omega
                rw [e, Nat.mod_self] at hnz
                exact absurd rfl hnz
          obtain ⟨r, s', h3, h4⟩ := ih (stepNU cfg s).2 h1 (by rw [c2]; exact hlt') (by rw [c2, hm]; omega)
          exact ⟨r, s', .again (by rw [← hd]) h3, h4⟩
      · exact ⟨_, _, .stop rfl hd, hd⟩
  obtain ⟨r, s', h1, h2⟩ := key _ s hr hlt le_rfl
  exact ⟨r, s', h1, h2, fun r' s'' h3 => slot_deterministic h3 h1⟩

/-- **C60** A successful `emulate_slot` stops at the next multiple of the slot length, having taken one value of each element if it began at a
slot boundary and none otherwise. (Times stay below 2^32, see C08.) -/
theorem C60_slot_ends_at_boundary {cfg : NCfg K π} (hL : 0 < cfg.an.slotLength) {s s' : NSim K π} {r : SimResult} (h : ReachableNU cfg d0 decl rs ns s)
    (hrun : SlotNU cfg s r s') (hr : Succeeded r) (hW : s.time + cfg.an.slotLength < 2 ^ 32) :
    r = .slotDone ∧ cfg.an.slotLength ∣ s'.time ∧ s.time < s'.time ∧ s'.time ≤ s.time + cfg.an.slotLength ∧
      traces s' = if cfg.an.slotLength ∣ s.time then (traces s).map List.tail else traces s := by
  have ht : cfg.an.type = .transient := by
    by_contra hc
    have := (((C60_wrong_config cfg s).1 hc).2 r s').mp hrun
    rw [this.1] at hr; simp [Succeeded] at hr
  have hdm := Nat.div_add_mod s.time cfg.an.slotLength
  have hml := Nat.mod_lt s.time hL
  have e3 : (s.time / cfg.an.slotLength + 1) * cfg.an.slotLength = cfg.an.slotLength * (s.time / cfg.an.slotLength) + cfg.an.slotLength := by ring
  obtain ⟨-, hc⟩ := slotRun_spec ht hL hrun (reachable_valid h) (by rw [NU_W]; omega)
  rcases hc with ⟨h1, -⟩ | ⟨-, h2, h3 | ⟨h3, h4⟩⟩
  · rw [h1] at hr; simp [Succeeded] at hr
  · rw [h3] at hr; simp [Succeeded] at hr
  · refine ⟨h3, ?_, by omega, by omega, ?_⟩
    · rw [h4]; exact Dvd.intro_left _ rfl
    · unfold traces
      rw [h2]
      by_cases hd : s.time % cfg.an.slotLength = 0
      · rw [if_pos hd, if_pos (Nat.dvd_iff_mod_eq_zero.mpr hd)]; simp [popEl, Function.comp_def]
      · rw [if_neg hd, if_neg (fun h => hd (Nat.dvd_iff_mod_eq_zero.mp h))]

/-- Consecutive calls of `emulate_slot`. -/
inductive SlotsNU (cfg : NCfg K π) : NSim K π → List SimResult → NSim K π → Prop
  | nil (s) : SlotsNU cfg s [] s
  | cons {s s1 s' r qs} : SlotNU cfg s r s1 → SlotsNU cfg s1 qs s' → SlotsNU cfg s (r :: qs) s'

theorem reachable_slot {cfg : NCfg K π} {s s' : NSim K π} {r : SimResult} (h : SlotNU cfg s r s') (hs : ReachableNU cfg d0 decl rs ns s) : ReachableNU cfg d0 decl rs ns s' := by
  induction h with
  | stop he _ => have := hs.exec .step; simp only [exec, he] at this; exact this
  | again he _ ih => refine ih ?_; have := hs.exec .step; simp only [exec, he] at this; exact this

/-- **C60** Starting at a slot boundary, as long as every element has values left, each slot takes exactly one value of each element
and lasts the slot length. (Times stay below 2^32, see C08; the solver does not fail.) -/
theorem C60_one_value_per_slot {cfg : NCfg K π} (ht : cfg.an.type = .transient) (hL : 0 < cfg.an.slotLength) {s s' : NSim K π}
    (h : ReachableNU cfg d0 decl rs ns s) (hb : cfg.an.slotLength ∣ s.time) {qs : List SimResult} (hrun : SlotsNU cfg s qs s')
    (hok : ∀ r ∈ qs, r ≠ .solverError) (hlen : ∀ t ∈ traces s, qs.length ≤ t.length)
    (hW : s.time + qs.length * cfg.an.slotLength < 2 ^ 32) :
    qs = List.replicate qs.length .slotDone ∧ traces s' = (traces s).map (List.drop qs.length) ∧
      s'.time = s.time + qs.length * cfg.an.slotLength ∧ ReachableNU cfg d0 decl rs ns s' := by
  induction hrun with
  | nil s => exact ⟨rfl, by simp [show (List.drop 0 : List K → List K) = id from rfl], by simp, h⟩
  | @cons s s1 s' r qs h1 h2 ih =>
    have hr := reachable_valid h
    have hdm := Nat.div_add_mod s.time cfg.an.slotLength
    have hm := Nat.dvd_iff_mod_eq_zero.mp hb
    have e3 : (s.time / cfg.an.slotLength + 1) * cfg.an.slotLength = s.time + cfg.an.slotLength := by
      rw [Nat.add_mul, Nat.one_mul, Nat.mul_comm]; omega
    rw [List.length_cons] at hlen hW
    have e4 : (qs.length + 1) * cfg.an.slotLength = qs.length * cfg.an.slotLength + cfg.an.slotLength := by ring
    rw [e4] at hW
    have hall : ∀ e ∈ elements s, e.powers ≠ [] := by
      intro e he hh
      have := hlen e.powers (List.mem_map.mpr ⟨e, he, rfl⟩)
      rw [hh] at this; simp at this
    obtain ⟨-, hc⟩ := slotRun_spec ht hL h1 hr (by rw [e3, NU_W]; omega)
    rcases hc with ⟨-, -, ⟨e, he, h3⟩, -⟩ | ⟨-, h3, h4 | ⟨h4, h5⟩⟩
    · exact absurd h3 (hall e he)
    · exact absurd h4 (hok r (by simp))
    · rw [if_pos hm] at h3
      rw [e3] at h5
      have htr : traces s1 = (traces s).map List.tail := by unfold traces; rw [h3]; simp [popEl, Function.comp_def]
      obtain ⟨i1, i2, i3, i4⟩ := ih (reachable_slot h1 h) (by rw [h5]; exact Nat.dvd_add hb (dvd_refl _)) (fun r hr => hok r (by simp [hr]))
        (by
          rw [htr]
          intro t ht
          obtain ⟨u, hu, rfl⟩ := List.mem_map.mp ht
          have := hlen u hu
          rw [List.length_tail]; omega)
        (by rw [h5]; omega)
      refine ⟨?_, ?_, ?_, i4⟩
      · rw [List.length_cons, List.replicate_succ, ← i1, h4]
      · rw [i2, htr, List.map_map, List.length_cons]
        congr 1; funext t; cases t <;> simp
      · rw [i3, h5, List.length_cons, e4]; omega

/-- **C60** The simulation ends exactly when the shortest trace is used up: after as many slots as it has values, the next slot reports the end
of the simulation, and neither time nor temperatures change. -/
theorem C60_ends_with_shortest_trace {cfg : NCfg K π} (ht : cfg.an.type = .transient) (hL : 0 < cfg.an.slotLength) {s s' s'' : NSim K π}
    (h : ReachableNU cfg d0 decl rs ns s) (hb : cfg.an.slotLength ∣ s.time) {qs : List SimResult} (hrun : SlotsNU cfg s qs s')
    (hok : ∀ r ∈ qs, r ≠ .solverError) (hlen : ∀ t ∈ traces s, qs.length ≤ t.length) (hmin : ∃ t ∈ traces s, t.length = qs.length)
    (hW : s.time + (qs.length + 1) * cfg.an.slotLength < 2 ^ 32) {r : SimResult} (hr : SlotNU cfg s' r s'') :
    r = .endOfSimulation ∧ s''.time = s'.time ∧ s''.temps = s'.temps := by
  have e4 : (qs.length + 1) * cfg.an.slotLength = qs.length * cfg.an.slotLength + cfg.an.slotLength := by ring
  rw [e4] at hW
  obtain ⟨-, h1, h2, h3⟩ := C60_one_value_per_slot ht hL h hb hrun hok hlen (by omega)
  have hb' : cfg.an.slotLength ∣ s'.time := by rw [h2]; exact Nat.dvd_add hb (Dvd.intro_left _ rfl)
  have hm := Nat.dvd_iff_mod_eq_zero.mp hb'
  have hdm := Nat.div_add_mod s'.time cfg.an.slotLength
  have e3 : (s'.time / cfg.an.slotLength + 1) * cfg.an.slotLength = s'.time + cfg.an.slotLength := by
    rw [Nat.add_mul, Nat.one_mul, Nat.mul_comm]; omega
  obtain ⟨-, hc⟩ := slotRun_spec ht hL hr (reachable_valid h3) (by rw [e3, h2, NU_W]; omega)
  rcases hc with ⟨a, -, -, b, c, -⟩ | ⟨a, -⟩
  · exact ⟨a, b, c⟩
  · exfalso
    obtain ⟨t, ht, hl⟩ := hmin
    have hmem : ([] : List K) ∈ traces s' := by
      rw [h1]
      exact List.mem_map.mpr ⟨t, ht, by rw [← hl, List.drop_length]⟩
    obtain ⟨e, he, h0⟩ := List.mem_map.mp hmem
    exact a hm e he h0

/-- **C60** What a slot that cannot start takes away: one value from each element that precedes, bottom-up, the first one without
values. -/
theorem C60_what_is_lost {cfg : NCfg K π} {s : NSim K π} (h : ReachableNU cfg d0 decl rs ns s) (he : (stepNU cfg s).1 = .endOfSimulation) :
    ∃ before first after, traces s = before ++ first :: after ∧ (∀ t ∈ before, t ≠ []) ∧ first = [] ∧
      traces (stepNU cfg s).2 = before.map List.tail ++ first :: after := by
  obtain ⟨-, -, -, hc⟩ := step_spec (cfg := cfg) (reachable_valid h)
  rw [he] at hc
  rcases hc with ⟨h2, -⟩ | ⟨-, -, -, hp, -, -, hel⟩ | ⟨-, -, -, c | ⟨c1, -⟩⟩
  · simp at h2
  · unfold traces
    rw [hel]
    generalize elements s = L at hp
    clear hel he
    induction L with
    | nil => simp at hp
    | cons e L ih =>
      by_cases h0 : e.powers = []
      · exact ⟨[], e.powers, L.map (·.powers), by simp, by simp, h0, by rw [popFront_cons_empty h0]; simp⟩
      · obtain ⟨B, f, A, i1, i2, i3, i4⟩ := ih (by
          obtain ⟨e', he', h⟩ := hp
          rcases List.mem_cons.mp he' with rfl | he'
          · exact absurd h h0
          · exact ⟨e', he', h⟩)
        refine ⟨e.powers :: B, f, A, by simp [i1], ?_, i3, ?_⟩
        · intro t ht
          rcases List.mem_cons.mp ht with rfl | ht
          · exact h0
          · exact i2 t ht
        · rw [popFront_cons h0, List.map_cons, i4]; rfl
  · simp at c
  · simp [Succeeded] at c1

/-- **C60**, the part that holds: if all the elements have the same number of values left, a slot that cannot start takes none. -/
theorem C60_equal_traces_partial {cfg : NCfg K π} {s : NSim K π} (h : ReachableNU cfg d0 decl rs ns s) (he : (stepNU cfg s).1 = .endOfSimulation)
    (heq : ∀ t ∈ traces s, ∀ u ∈ traces s, t.length = u.length) : traces (stepNU cfg s).2 = traces s := by
  obtain ⟨B, f, A, h1, h2, h3, h4⟩ := C60_what_is_lost h he
  cases B with
  | nil => rw [h4, h1]; rfl
  | cons b B =>
    have := heq b (by simp [h1]) f (by simp [h1])
    rw [h3] at this
    exact absurd (List.length_eq_zero_iff.mp this) (h2 b (by simp))

/-! ## Powers inserted -/

theorem pushFront_powers (es : List (FEl K)) (vs : List K) (h : es.length ≤ vs.length) :
    (pushFront es vs).map (·.powers) = List.zipWith (fun t v => t ++ [v]) (es.map (·.powers)) vs := by
  induction es generalizing vs with
  | nil => simp [pushFront]
  | cons e es ih =>
    cases vs with
    | nil => simp at h
    | cons v vs => simp [pushFront, ih vs (by simpa using h)]

/-- **C60** A request with at least as many values as elements succeeds and appends the i-th value to the trace of the i-th element (from the
bottom die upwards); with fewer values it fails. Temperatures, time and sources stay. -/
theorem C60_inserted_in_order {cfg : NCfg K π} {s : NSim K π} (h : ReachableNU cfg d0 decl rs ns s) (vs : List K) :
    ((elements s).length ≤ vs.length → (insertSim s vs).2 = true ∧
      traces (insertSim s vs).1 = List.zipWith (fun t v => t ++ [v]) (traces s) vs) ∧
    (vs.length < (elements s).length → (insertSim s vs).2 = false) ∧
    (insertSim s vs).1.temps = s.temps ∧ (insertSim s vs).1.time = s.time ∧ (insertSim s vs).1.sources = s.sources := by
  obtain ⟨fl, e1, -, e3⟩ := insert_spec (reachable_valid h) vs
  rw [e1]
  refine ⟨fun hl => ⟨by simp [hl], ?_⟩, fun hl => by simp; omega, rfl, rfl, rfl⟩
  unfold traces
  show (elsOf fl).map _ = _
  rw [e3]
  exact pushFront_powers _ vs hl

/-- The floorplan elements of the stack file, from the bottom die upwards. -/
def fileElements (rs : List (Raw K (List (FEl K)))) : List (FEl K) :=
  rs.reverse.flatMap fun r => match r.body with | .die x => x.flp | _ => []

/-- The rectangles and the material of an element. -/
def shape (e : FEl K) : Rect K × List (Rect K) × Option (Material K) := (e.rect, e.others, e.mat)

theorem elsOf_shape {fl fl' : List (Option (List (FEl K)))} (h : bare fl = bare fl') : (elsOf fl).map shape = (elsOf fl').map shape := by
  have key : ∀ fl : List (Option (List (FEl K))), (elsOf fl).map shape = (elsOf (bare fl)).map shape := by
    intro fl
    induction fl with
    | nil => rfl
    | cons o fl ih =>
      have e1 : elsOf (o :: fl) = o.getD [] ++ elsOf fl := rfl
      have e2 : elsOf (bare (o :: fl)) = (o.map fun es => es.map fun e => { e with powers := [] }).getD [] ++ elsOf (bare fl) := rfl
      rw [e1, e2, List.map_append, List.map_append, ih]
      congr 1
      cases o <;> simp [shape, Function.comp_def]
  rw [key fl, h, ← key fl']

theorem elsOf_append (A B : List (Option (List (FEl K)))) : elsOf (A ++ B) = elsOf A ++ elsOf B := by
  unfold elsOf; rw [List.flatMap_append]

theorem elsOf_set_none (n i : Nat) (es : List (FEl K)) (h : i < n) : elsOf ((List.replicate n none).set i (some es)) = es := by
  have hz : ∀ n, elsOf (List.replicate n (none : Option (List (FEl K)))) = [] := by
    intro n; induction n with
    | zero => rfl
    | succ n ih => rw [List.replicate_succ]; exact ih
  have e : (List.replicate n (none : Option (List (FEl K)))).set i (some es) = List.replicate i none ++ some es :: List.replicate (n - i - 1) none := by
    apply List.ext_getElem?
    intro k
    rw [List.getElem?_set]
    rcases Nat.lt_trichotomy k i with hk | hk | hk
    · rw [if_neg (by omega), List.getElem?_append_left (by simpa using hk), List.getElem?_replicate, List.getElem?_replicate,
        if_pos hk, if_pos (by omega)]
    · subst hk
      rw [if_pos rfl, List.getElem?_append_right (by simp)]; simp [h]
    · rw [if_neg (by omega), List.getElem?_append_right (by simp; omega), List.length_replicate]
      obtain ⟨j, rfl⟩ : ∃ j, k = i + (j + 1) := ⟨k - i - 1, by omega⟩
      rw [show i + (j + 1) - i = j + 1 by omega, List.getElem?_cons_succ, List.getElem?_replicate, List.getElem?_replicate]
      by_cases hj : i + (j + 1) < n
      · rw [if_pos hj, if_pos (by omega)]
      · rw [if_neg hj, if_neg (by omega)]
  rw [e, elsOf_append, hz]
  show [] ++ (es ++ elsOf (List.replicate (n - i - 1) none)) = es
  rw [hz]; simp

/-- The floorplan of an element of the stack. -/
def dieFlp (b : Body K (List (FEl K))) : List (FEl K) := match b with | .die x => x.flp | _ => []

theorem elsOf_block {n : NElem K} (h : ElemOk n.elem) {α : Type} (f : FEl K → α) (hfx : ∀ e, f (fixEl n e) = f e) :
    (elsOf (blockFlp (fixDiscr n).elem.body)).map f = (dieFlp n.elem.body).map f := by
  unfold fixDiscr dieFlp
  unfold ElemOk at h
  have hz : ∀ n, elsOf (List.replicate n (none : Option (List (FEl K)))) = [] := by
    intro n; induction n with
    | zero => rfl
    | succ n ih => rw [List.replicate_succ]; exact ih
  cases hb : n.elem.body with
  | die b =>
    rw [hb] at h
    simp only at h ⊢
    rw [blockFlp, elsOf_set_none _ _ _ h, List.map_map]
    exact List.map_congr_left fun e _ => hfx e
  | layer b => simp only [hb]; rfl
  | channel ch => simp only [hb, blockFlp, hz]

/-- The elements of a simulation just built are those of the file. -/
theorem begun_elements {cfg : NCfg K π} {s : NSim K π} (h : Begun cfg d0 decl rs ns s) {α : Type} (f : FEl K → α) (hfx : ∀ n e, f (fixEl n e) = f e) :
    (elements s).map f = (fileElements rs).map f := by
  have hf : FromStack d0 decl rs ns s.G := .fresh h.grid
  obtain ⟨p, g, hb, he, hG⟩ := h.grid
  have hfl : s.G.flps = (ns.map fixDiscr).flatMap fun n => blockFlp n.elem.body := by
    rw [← hf.filledFlps]
    unfold buildNU at hG
    simp only [Option.bind_eq_some_iff, Option.map_eq_some_iff] at hG
    obtain ⟨n, -, g', -, hGe⟩ := hG
    rw [← hGe]
  obtain ⟨es, m, hfa, -, -, -, -, -, hel, -⟩ := parseStack_spec hb.parse
  have h1 : (elements s).map f = (ns.flatMap fun n => dieFlp n.elem.body).map f := by
    show (elsOf s.G.flps).map f = _
    rw [hfl]
    have : ∀ ms : List (NElem K), (∀ n ∈ ms, n ∈ ns) →
        (elsOf ((ms.map fixDiscr).flatMap fun n => blockFlp n.elem.body)).map f = (ms.flatMap fun n => dieFlp n.elem.body).map f := by
      intro ms
      induction ms with
      | nil => intro _; rfl
      | cons n ms ih =>
        intro hms
        rw [List.map_cons, List.flatMap_cons, List.flatMap_cons, elsOf_append, List.map_append, List.map_append,
          ih (fun x hx => hms x (by simp [hx])), elsOf_block (hf.elemOk (hms n (by simp))) f (hfx n)]
    exact this ns fun _ h => h
  have h2 : (ns.flatMap fun n => dieFlp n.elem.body) = p.elems.flatMap fun e => dieFlp e.body := by rw [← he, List.flatMap_map]
  have h3 : ∀ (xs : List (SElem K (List (FEl K)))) (k : Nat), ((assignOffsets k xs).flatMap fun e => dieFlp e.body) = xs.flatMap fun e => dieFlp e.body := by
    intro xs
    induction xs with
    | nil => intro k; rfl
    | cons x xs ih => intro k; rw [assignOffsets, List.flatMap_cons, List.flatMap_cons, ih]
  have h4 : ∀ (as : List (Raw K (List (FEl K)))) (bs : List (SElem K (List (FEl K)))), List.Forall₂ (fun r e => resolve decl r = some e) as bs →
      (bs.flatMap fun e => dieFlp e.body) = as.flatMap fun r => match r.body with | .die x => x.flp | _ => [] := by
    intro as bs hab
    induction hab with
    | nil => rfl
    | @cons a b as bs h1 _ ih =>
      rw [List.flatMap_cons, List.flatMap_cons, ih]
      congr 1
      unfold resolve at h1
      cases hb : a.body with
      | die d => rw [hb] at h1; simp only [Option.some.injEq] at h1; rw [← h1]; rfl
      | layer d => rw [hb] at h1; simp only [Option.some.injEq] at h1; rw [← h1]; rfl
      | channel =>
        rw [hb] at h1; simp only [Option.map_eq_some_iff] at h1
        obtain ⟨ch, -, h1⟩ := h1
        rw [← h1]; rfl
  rw [h1, h2, hel, h3, h4 _ _ (forall₂_reverse hfa)]
  rfl

/-- **C60** Whatever calls have been made, the elements are those of the stack file: from the bottom die upwards and, in each die, in the
order of its floorplan. Before the first call their traces are those of the file. -/
theorem C60_element_order {cfg : NCfg K π} {s0 : NSim K π} (h : Begun cfg d0 decl rs ns s0) (ops : List (NOp K)) :
    (elements (run cfg ops s0).2).map shape = (fileElements rs).map shape ∧ traces s0 = (fileElements rs).map (·.powers) := by
  refine ⟨?_, begun_elements h _ fun n e => by unfold fixEl; split_ifs <;> rfl⟩
  rw [← begun_elements h shape fun n e => by unfold fixEl; split_ifs <;> rfl]
  have hv := (begun_valid h).1
  clear h
  induction ops generalizing s0 with
  | nil => rfl
  | cons o os ih =>
    rw [run, ih (valid_exec hv o)]
    cases o with
    | step =>
      obtain ⟨-, -, ⟨fl, e1, e2⟩, -⟩ := step_spec (cfg := cfg) hv
      simp only [exec, elements, e2]
      exact elsOf_shape e1
    | insert vs =>
      obtain ⟨fl, e1, e2, -⟩ := insert_spec hv vs
      simp only [exec, e1, elements]
      exact elsOf_shape e2
    | reset => rfl

/-! ## Schedules -/

theorem updateSources_conns (s : NSim K π) (L : List (Conn K)) :
    updateSources { s with conns := L } = ({ (updateSources s).1 with conns := L }, (updateSources s).2) := rfl

theorem pluggable_conns (cfg : NCfg K π) (s : NSim K π) (L : List (Conn K)) :
    pluggableNU cfg { s with conns := L } = ({ (pluggableNU cfg s).1 with conns := L }, (pluggableNU cfg s).2) := by
  have key : ∀ o n (r : π × Option (List K)), plugged { s with conns := L } o n r = ({ (plugged s o n r).1 with conns := L }, (plugged s o n r).2) := by
    rintro o n ⟨p, q⟩
    cases q <;> rfl
  unfold pluggableNU
  simp only
  split
  · exact key _ _ _
  · rfl

theorem finish_conns (cfg : NCfg K π) (s : NSim K π) (L : List (Conn K)) :
    finishNU cfg { s with conns := L } = ((finishNU cfg s).1, { (finishNU cfg s).2 with conns := L }) := by
  have hp := pluggable_conns cfg s L
  cases hpl : pluggableNU cfg s with
  | mk s1 ok =>
    rw [hpl] at hp
    simp only at hp
    cases ok with
    | false => rw [finish_plugin hp, finish_plugin hpl]
    | true =>
      have hvec : vectorNU cfg { s1 with conns := L } = vectorNU cfg s1 := rfl
      cases hs : cfg.solve s1.mat (vectorNU cfg s1) with
      | none =>
        unfold finishNU
        simp only [hp, hpl, if_true, hvec, hs]
      | some x => rw [finish_ok hp (by rw [hvec]; exact hs), finish_ok hpl hs]; rfl

theorem step_conns (cfg : NCfg K π) (s : NSim K π) (L : List (Conn K)) :
    stepNU cfg { s with conns := L } = ((stepNU cfg s).1, { (stepNU cfg s).2 with conns := L }) := by
  unfold stepNU
  have hd : slotDoneNU cfg.an { s with conns := L } = slotDoneNU cfg.an s := rfl
  simp only [updateSources_conns, hd, finish_conns]
  split_ifs <;> rfl

theorem exec_conns (cfg : NCfg K π) (o : NOp K) (s : NSim K π) (L : List (Conn K)) :
    exec cfg o { s with conns := L } = ((exec cfg o s).1, { (exec cfg o s).2 with conns := L }) := by
  cases o with
  | step => simp only [exec, step_conns]
  | insert vs => rfl
  | reset => rfl

theorem run_conns (cfg : NCfg K π) (ops : List (NOp K)) (s : NSim K π) (L : List (Conn K)) :
    run cfg ops { s with conns := L } = ((run cfg ops s).1, { (run cfg ops s).2 with conns := L }) := by
  induction ops generalizing s with
  | nil => rfl
  | cons o os ih => simp only [run, exec_conns, ih]

/-- **C60** The threads that compute the connections do not influence a simulation: if two schedules both give a simulation of the same grid,
any sequence of calls returns the same results in both and leaves the same temperatures, sources, capacities, time, queues and matrix. -/
theorem C60_schedule_independent {cfg : NCfg K π} {G : Grid K} {L L' : List (Conn K)} {q : π} {s s' : NSim K π}
    (hL : Runs (regions G.d.nLayers G.ty G.ls) L) (hL' : Runs (regions G.d.nLayers G.ty G.ls) L') (h : buildSim cfg G L q = some s)
    (h' : buildSim cfg G L' q = some s') (ops : List (NOp K)) :
    (run cfg ops s').1 = (run cfg ops s).1 ∧ (run cfg ops s').2 = { (run cfg ops s).2 with conns := (run cfg ops s').2.conns } := by
  have hm := C44_schedule_independent (a := cfg.an.ana) ⟨L, hL, rfl⟩ ⟨L', hL', rfl⟩
  have hs : s' = { s with conns := L' } := by
    unfold buildSim at h h'
    simp only [← hm] at h h'
    split_ifs at h h' with hc
    simp only [Option.some.injEq] at h h'
    rw [← h, ← h']
  rw [hs, run_conns]
  exact ⟨rfl, rfl⟩

/-- **C60** All the schedules or none of them give a simulation. -/
theorem C60_schedule_builds {cfg : NCfg K π} {G : Grid K} {L L' : List (Conn K)} {q : π}
    (hL : Runs (regions G.d.nLayers G.ty G.ls) L) (hL' : Runs (regions G.d.nLayers G.ty G.ls) L') :
    (buildSim cfg G L q).isSome = (buildSim cfg G L' q).isSome := by
  have hm := C44_schedule_independent (a := cfg.an.ana) ⟨L, hL, rfl⟩ ⟨L', hL', rfl⟩
  unfold buildSim
  simp only [← hm]
  split_ifs <;> rfl

end Verif.NU
