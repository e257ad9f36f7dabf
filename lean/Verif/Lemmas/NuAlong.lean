import Verif.Props.NuSlots

/-! Time, results and remaining powers along a simulation of a non-uniform grid. -/

set_option linter.unusedSectionVars false
set_option linter.unusedSimpArgs false
set_option linter.unusedVariables false

namespace Verif.NU
open Verif.Dim Verif.TG Verif.Stk Verif.SM
open Verif.Emu (SimResult Succeeded)

variable {K : Type} [Field K] [LinearOrder K] [IsStrictOrderedRing K] {π : Type}
variable {d0 : Dims K} {decl : Option (Channel K)} {rs : List (Raw K (List (FEl K)))} {ns : List (NElem K)} {G : Grid K}

/-- The state after `k` simulation steps. -/
def afterSteps (cfg : NCfg K π) (s : NSim K π) : Nat → NSim K π
  | 0 => s
  | k + 1 => (stepNU cfg (afterSteps cfg s k)).2

theorem afterSteps_first (cfg : NCfg K π) (s : NSim K π) : ∀ k, afterSteps cfg s (k + 1) = afterSteps cfg (stepNU cfg s).2 k
  | 0 => rfl
  | k + 1 => by
    show (stepNU cfg (afterSteps cfg s (k + 1))).2 = (stepNU cfg (afterSteps cfg (stepNU cfg s).2 k)).2
    rw [afterSteps_first cfg s k]

theorem afterSteps_run (cfg : NCfg K π) : ∀ (k : Nat) (s : NSim K π), afterSteps cfg s k = (run cfg (List.replicate k .step) s).2
  | 0, s => rfl
  | k + 1, s => by
    rw [afterSteps_first, afterSteps_run cfg k]
    rfl

/-- The slots that have begun before step `n`. -/
theorem slots_succ {L : Nat} (hL : 0 < L) (n : Nat) : (n + 1 + L - 1) / L = (n + L - 1) / L + if n % L = 0 then 1 else 0 := by
  have h1 := Nat.div_add_mod n L
  have h2 := Nat.mod_lt n hL
  rw [show n + 1 + L - 1 = n + L by omega, Nat.add_div_right _ hL]
  by_cases hz : n % L = 0
  · rw [if_pos hz]
    have : n + L - 1 = L * (n / L) + (L - 1) := by omega
    rw [this, Nat.mul_add_div hL, Nat.div_eq_of_lt (show L - 1 < L by omega)]
  · rw [if_neg hz]
    have : n + L - 1 = L * (n / L + 1) + (n % L - 1) := by rw [Nat.mul_add]; omega
    rw [this, Nat.mul_add_div hL, Nat.div_eq_of_lt (show n % L - 1 < L by omega)]

theorem steps_along {cfg : NCfg K π} {s : NSim K π} (ht : cfg.an.type = .transient) (hL : 0 < cfg.an.slotLength)
    (hr : Valid cfg d0 decl rs ns s) (h0 : s.time = 0) :
    ∀ n, n < W → (∀ k, k < n → Succeeded (stepNU cfg (afterSteps cfg s k)).1) →
      Valid cfg d0 decl rs ns (afterSteps cfg s n) ∧ (afterSteps cfg s n).time = n ∧
      (∀ k, k < n → ((stepNU cfg (afterSteps cfg s k)).1 = .slotDone ↔ cfg.an.slotLength ∣ k + 1)) ∧
      traces (afterSteps cfg s n) = (traces s).map (List.drop ((n + cfg.an.slotLength - 1) / cfg.an.slotLength)) ∧
      ∃ fl, bare fl = bare s.G.flps ∧ (afterSteps cfg s n).G = { s.G with flps := fl } := by
  intro n
  induction n with
  | zero =>
    intro _ _
    refine ⟨hr, h0, by simp, ?_, ⟨_, rfl, rfl⟩⟩
    rw [Nat.zero_add, Nat.div_eq_of_lt (by omega)]
    simp [afterSteps, show (List.drop 0 : List K → List K) = id from rfl]
  | succ n ih =>
    intro hn hok
    obtain ⟨i1, i2, i3, i4, fl, i5, i6⟩ := ih (by omega) (fun k hk => hok k (by omega))
    have hs := hok n (by omega)
    show Valid cfg d0 decl rs ns (stepNU cfg (afterSteps cfg s n)).2 ∧ (stepNU cfg (afterSteps cfg s n)).2.time = n + 1 ∧ _ ∧
      traces (stepNU cfg (afterSteps cfg s n)).2 = _ ∧ _
    obtain ⟨a1, -, ⟨fl', a2, a3⟩, hc⟩ := step_spec (cfg := cfg) i1
    have hG : ∃ fl, bare fl = bare s.G.flps ∧ (stepNU cfg (afterSteps cfg s n)).2.G = { s.G with flps := fl } := by
      refine ⟨fl', ?_, ?_⟩
      · rw [a2, i6]; exact i5
      · rw [a3, i6]
    rcases hc with ⟨-, h5, -⟩ | ⟨h5, -⟩ | ⟨-, -, h4, ⟨h5, -⟩ | ⟨h5, h6, h7⟩⟩
    · exact absurd ht h5
    · rw [h5] at hs; simp [Succeeded] at hs
    · rw [h5] at hs; simp [Succeeded] at hs
    · rw [i2, Nat.mod_eq_of_lt hn] at h6 h7
      refine ⟨a1, h6, ?_, ?_, hG⟩
      · intro k hk
        rcases Nat.lt_or_ge k n with hk' | hk'
        · exact i3 k hk'
        · have : k = n := by omega
          subst this
          rw [h7, Nat.dvd_iff_mod_eq_zero]
      · rw [i2] at h4
        have htr : traces (stepNU cfg (afterSteps cfg s n)).2 =
            if n % cfg.an.slotLength = 0 then (traces (afterSteps cfg s n)).map List.tail else traces (afterSteps cfg s n) := by
          unfold traces
          rw [h4]
          by_cases hz : n % cfg.an.slotLength = 0
          · simp [hz, popEl, Function.comp_def]
          · simp [hz]
        rw [htr, i4, slots_succ hL]
        by_cases hz : n % cfg.an.slotLength = 0
        · simp [hz, Function.comp_def, List.tail_drop]
        · simp [hz]

/-- If some trace has `m` values, at most `m` slots are simulated. -/
theorem run_bound {cfg : NCfg K π} {s : NSim K π} (ht : cfg.an.type = .transient) (hL : 0 < cfg.an.slotLength) (hr : Valid cfg d0 decl rs ns s)
    (h0 : s.time = 0) {n : Nat} (hok : ∀ k, k < n → Succeeded (stepNU cfg (afterSteps cfg s k)).1) {t : List K} (htr : t ∈ traces s)
    (hW : t.length * cfg.an.slotLength < W) : n ≤ t.length * cfg.an.slotLength := by
  by_contra hn
  have hk : t.length * cfg.an.slotLength < n := by omega
  obtain ⟨h1, h2, -, h4, -⟩ := steps_along ht hL hr h0 _ hW (fun k hk' => hok k (by omega))
  have hs := hok _ hk
  generalize afterSteps cfg s (t.length * cfg.an.slotLength) = s1 at *
  have hd : (t.length * cfg.an.slotLength + cfg.an.slotLength - 1) / cfg.an.slotLength = t.length := by
    rw [show t.length * cfg.an.slotLength + cfg.an.slotLength - 1 = cfg.an.slotLength * t.length + (cfg.an.slotLength - 1) by
      rw [Nat.mul_comm]; omega, Nat.mul_add_div hL, Nat.div_eq_of_lt (by omega)]; rfl
  rw [hd] at h4
  have hmem : ([] : List K) ∈ traces s1 := by
    rw [h4]; exact List.mem_map.mpr ⟨t, htr, List.drop_length⟩
  obtain ⟨e, he, h5⟩ := List.mem_map.mp hmem
  have hm : s1.time % cfg.an.slotLength = 0 := by rw [h2, Nat.mul_mod_left]
  obtain ⟨-, -, -, hc⟩ := step_spec (cfg := cfg) h1
  rcases hc with ⟨-, h6, -⟩ | ⟨h6, -⟩ | ⟨-, h6, -⟩
  · exact absurd ht h6
  · rw [h6] at hs; simp [Succeeded] at hs
  · exact h6 hm e he h5

/-- The run lasts the slots of the shortest trace. -/
theorem run_length {cfg : NCfg K π} {s : NSim K π} (ht : cfg.an.type = .transient) (hL : 0 < cfg.an.slotLength) (hr : Valid cfg d0 decl rs ns s)
    (h0 : s.time = 0) (hW : ∃ t ∈ traces s, t.length * cfg.an.slotLength < 2 ^ 32) {n : Nat}
    (hok : ∀ k, k < n → Succeeded (stepNU cfg (afterSteps cfg s k)).1) (hend : (stepNU cfg (afterSteps cfg s n)).1 = .endOfSimulation) :
    (∃ t ∈ traces s, n = t.length * cfg.an.slotLength) ∧ ∀ t ∈ traces s, n ≤ t.length * cfg.an.slotLength := by
  obtain ⟨t, htr, hWt⟩ := hW
  have hWt' : t.length * cfg.an.slotLength < W := by unfold W; omega
  have hn : n < W := lt_of_le_of_lt (run_bound ht hL hr h0 hok htr hWt') hWt'
  have hle : ∀ t ∈ traces s, n ≤ t.length * cfg.an.slotLength := by
    intro u hu
    by_cases hc : u.length * cfg.an.slotLength < W
    · exact run_bound ht hL hr h0 hok hu hc
    · omega
  refine ⟨?_, hle⟩
  obtain ⟨g1, g2, -, g4, -⟩ := steps_along ht hL hr h0 n hn hok
  obtain ⟨-, -, -, hc⟩ := step_spec (cfg := cfg) g1
  rcases hc with ⟨h5, -⟩ | ⟨-, -, h5, ⟨e, he, h6⟩, -⟩ | ⟨-, -, -, ⟨h5, -⟩ | ⟨h5, -⟩⟩
  · rw [h5] at hend; simp at hend
  · rw [g2] at h5
    have hmem : ([] : List K) ∈ traces (afterSteps cfg s n) := List.mem_map.mpr ⟨e, he, h6⟩
    rw [g4] at hmem
    obtain ⟨u, hu, h7⟩ := List.mem_map.mp hmem
    refine ⟨u, hu, le_antisymm (hle u hu) ?_⟩
    have hdiv : (n + cfg.an.slotLength - 1) / cfg.an.slotLength * cfg.an.slotLength = n := by
      have h1 := Nat.div_add_mod n cfg.an.slotLength
      have : n + cfg.an.slotLength - 1 = cfg.an.slotLength * (n / cfg.an.slotLength) + (cfg.an.slotLength - 1) := by omega
      rw [this, Nat.mul_add_div hL, Nat.div_eq_of_lt (show cfg.an.slotLength - 1 < cfg.an.slotLength by omega), Nat.add_zero, Nat.mul_comm]
      omega
    have := List.drop_eq_nil_iff.mp h7
    calc u.length * cfg.an.slotLength ≤ _ * cfg.an.slotLength := Nat.mul_le_mul_right _ this
      _ = n := hdiv
  · rw [h5] at hend; simp at hend
  · rw [hend] at h5; simp [Succeeded] at h5

end Verif.NU
