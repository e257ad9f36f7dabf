import Verif.Props.Energy

/-! # C23: thermal equilibrium is preserved -/

set_option linter.unusedSectionVars false
set_option linter.unusedSimpArgs false
set_option linter.unusedVariables false

namespace Verif.Emu
open Verif.Dim Verif.TG Verif.SM Verif.Flp Verif.Stk

variable {K : Type} [Field K] [LinearOrder K] [IsStrictOrderedRing K] {π : Type}

/-! ### Specification -/

/-- The ambient of both sinks and the inlet of the coolant are at temperature `T`. -/
structure Surroundings (g : TGrid K) (T : K) : Prop where
  top : ∀ sk, g.top = some (.ambient sk) → sk.tAmb = T
  bottom : ∀ sk, g.bottom = some sk → sk.tAmb = T
  inlet : ∀ ch, g.channel = some ch → ch.coolant.tIn = T

/-- Every cell, of the stack and of the spreader, is at temperature `T`. -/
def Uniform (d : Dims K) (s : Sim K π) (T : K) : Prop := ∀ i, i < d.nCells → s.temps.getD i 0 = T

/-- A pluggable heat sink at the temperature of the spreader extracts nothing. -/
def Silent (cfg : Cfg K π) (T : K) : Prop :=
  ∀ st temps prev p q, (∀ t ∈ temps, t = T) → cfg.plugin st temps prev = (p, some q) → ∀ x ∈ q, x = 0

/-- Calls that bring in no power and, if the temperatures are reset, reset them to `T`. -/
def Quiet (cfg : Cfg K π) (T : K) : Op K → Prop
  | .step => True
  | .insert vs => ∀ v ∈ vs, v = 0
  | .reset => cfg.an.initTemp = T
  | .flow _ => False

/-! ### Proofs -/

/-- No coolant, or channels with more than one row of cells. -/
def GoodRows (d : Dims K) (g : TGrid K) : Prop := d.nRows ≠ 1 ∨ ∀ l c, l < d.nLayers → ¬ IsCoolant g l c

theorem sink_uniform {g : TGrid K} {d : Dims K} (wf : WF g d) {T : K} (h : Surroundings g T) {l : Nat} (hl : l < d.nLayers) (r c : Nat) :
    sinkTerm g d l r c = ambientTerm g d l r c * T := by
  have ha := wf.amb l hl
  have hb := wf.pcb l hl
  have e1 : (typeAt g l = .solidAmb ∨ typeAt g l = .sourceAmb) → topAmb g = T := by
    intro h0; obtain ⟨-, sk, e⟩ := ha h0; simp only [topAmb, e]; exact h.top sk e
  have e2 : (typeAt g l = .solidPcb ∨ typeAt g l = .sourcePcb) → botAmb g = T := by
    intro h0; obtain ⟨-, sk, e⟩ := hb h0; simp only [botAmb, e]; exact h.bottom sk e
  unfold sinkTerm ambientTerm
  revert e1 e2
  cases typeAt g l <;> intro e1 e2 <;> first
    | (simp only [e1 (Or.inl rfl)]; ring)
    | (simp only [e1 (Or.inr rfl)]; ring)
    | (simp only [e2 (Or.inl rfl)]; ring)
    | (simp only [e2 (Or.inr rfl)]; ring)
    | simp only [zero_mul]

theorem inlet_uniform {g : TGrid K} {d : Dims K} (wf : WF g d) {T : K} (h : Surroundings g T) (hR : GoodRows d g) {l : Nat} (hl : l < d.nLayers) (r c : Nat) :
    inletTerm g d l r c = inletG g d l r c * T := by
  unfold inletTerm inletG
  by_cases hco : IsCoolant g l c
  · by_cases h0 : r = 0
    · rw [if_pos ⟨h0, hco⟩, if_pos ⟨hco, h0⟩]
      have hR' : d.nRows ≠ 1 := by
        rcases hR with h | h
        · exact h
        · exact absurd hco (h l c hl)
      rw [if_neg hR']
      congr 1
      cases hch : g.channel with
      | none =>
        have hs := (coolant_iff wf hl).mp hco
        have : solidish (typeAt g l) = false := by
          have := hs.1; revert this; cases typeAt g l <;> simp [isCh, solidish]
        obtain ⟨ch, h1, -⟩ := channel_some wf hl this
        rw [hch] at h1; cases h1
      | some ch => simp [chan, hch, h.inlet ch hch]
    · rw [if_neg (fun h => h0 h.1), if_neg (fun h => h0 h.2), zero_mul]
  · rw [if_neg (fun h => hco h.2), if_neg (fun h => hco h.1), zero_mul]

/-- The equations of a step at equilibrium: the right-hand side is the row sum times `T`. -/
theorem balanced_any {g : TGrid K} {d : Dims K} (wf : WF g d) (ph : Physical g d) (a : Ana K) {T : K}
    (h : Surroundings g T) (hR : GoodRows d g) {S : Nat → K}
    (hbox : ∀ l r c, l < d.nLayers → r < d.nRows → c < d.nCols → S (offInStack d l r c) = sinkTerm g d l r c + inletTerm g d l r c)
    (hspr : ∀ k, k < spreaderCells (spreaderOf g) → S (chip d + k) = 0) :
    Solves d.nCells (fillMatrix g a d).entry (fun _ => T) (fun i => S i + storage a ((capList g d).getD i 0) * T) := by
  intro i hi
  obtain ⟨p, hp, rfl⟩ := exists_cell wf hi
  rw [← Finset.sum_mul, row_sum wf ph a hp]
  simp only
  rw [caps_getD wf hp]
  cases p with
  | box l r c =>
    rw [box_offset, hbox l r c hp.1 hp.2.1 hp.2.2, sink_uniform wf h hp.1, inlet_uniform wf h hR hp.1]
    ring
  | spr r c =>
    have hk : ∃ k, k < spreaderCells (spreaderOf g) ∧ offset d (spreaderOf g) (.spr r c) = chip d + k := by
      obtain ⟨s, m, ht, hr, hc⟩ := hp
      have hso : spreaderOf g = some s := by simp [spreaderOf, ht]
      have hin : r * s.nCols + c < s.nRows * s.nCols := by
        have : (r + 1) * s.nCols ≤ s.nRows * s.nCols := Nat.mul_le_mul_right _ hr
        have e : (r + 1) * s.nCols = r * s.nCols + s.nCols := by ring
        omega
      refine ⟨r * s.nCols + c, by rw [hso]; exact hin, ?_⟩
      obtain ⟨h1, h2, h3⟩ := wf_chip wf
      rw [hso] at h2 ⊢
      show spreaderOffset d s r c = _
      unfold spreaderOffset
      have hsc : spreaderCells (some s) = s.nRows * s.nCols := rfl
      rw [Nat.mod_eq_of_lt]
      · unfold chip; rw [Nat.mul_assoc, Nat.add_assoc]
      · unfold chip at *; rw [Nat.mul_assoc]; omega
    obtain ⟨k, hk, ho⟩ := hk
    rw [ho, hspr k hk]
    ring

theorem balanced {g : TGrid K} {d : Dims K} (wf : WF g d) (ph : Physical g d) {a : Ana K} (hat : a.transient = true) {T : K}
    (h : Surroundings g T) (hR : GoodRows d g) {S : Nat → K}
    (hbox : ∀ l r c, l < d.nLayers → r < d.nRows → c < d.nCols → S (offInStack d l r c) = sinkTerm g d l r c + inletTerm g d l r c)
    (hspr : ∀ k, k < spreaderCells (spreaderOf g) → S (chip d + k) = 0) :
    Solves d.nCells (fillMatrix g a d).entry (fun _ => T) (fun i => S i + ((capList g d).getD i 0 / a.stepTime) * T) := by
  have := balanced_any wf ph a h hR hbox hspr
  simp only [storage_transient hat] at this
  exact this

/-- The invariant of a simulation at equilibrium. -/
structure Eq23 (cfg : Cfg K π) (raws : Nat → List (RawEl K)) (T : K) (s : Sim K π) : Prop where
  good : Good cfg s
  read : ReadFrom cfg.d raws s
  phys : Physical s.g cfg.d
  sur : Surroundings s.g T
  rows : GoodRows cfg.d s.g
  uni : Uniform cfg.d s T
  len : s.temps.length = cfg.d.nCells
  zero : Powers (· = 0) s
  src : s.time % cfg.an.slotLength ≠ 0 → ∀ l r c, l < cfg.d.nLayers → r < cfg.d.nRows → c < cfg.d.nCols →
    sourceAt cfg.d s l r c = sinkTerm s.g cfg.d l r c + inletTerm s.g cfg.d l r c

theorem eq23_success {cfg : Cfg K π} {raws : Nat → List (RawEl K)} {T : K} {s : Sim K π} (h : Eq23 cfg raws T s) (hc : Correct cfg)
    (hdt : 0 < cfg.an.stepTime) (hsil : Silent cfg T) (hs : Succeeded (emulateStep cfg s).1) : Eq23 cfg raws T (emulateStep cfg s).2 := by
  obtain ⟨ht, hlen, heq, hex⟩ := step_eq h.good hc hs
  have hgr : (emulateStep cfg s).2.g = s.g := (step_spec (cfg := cfg) h.good.ready).2.1
  have hgood := good_step h.good
  have hread := readFrom_step h.read
  have hzero := powers_step h.good h.zero
  have hbox : ∀ l r c, l < cfg.d.nLayers → r < cfg.d.nRows → c < cfg.d.nCols →
      (emulateStep cfg s).2.sources.getD (offInStack cfg.d l r c) 0 = sinkTerm s.g cfg.d l r c + inletTerm s.g cfg.d l r c := by
    intro l r c hl hr hc
    rw [step_sources h.good hs (wf_off h.good.wf hl hr hc).2.2.2]
    by_cases hb : s.time % cfg.an.slotLength = 0
    · rw [if_pos hb, slot_at h.good h.read hl hr hc,
        powerIn_zero _ _ (powers_next (P := fun x : K => x = 0) rfl h.zero l), zero_add]
    · rw [if_neg hb]
      exact h.src hb l r c hl hr hc
  generalize (emulateStep cfg s).2 = s' at *
  have hat : cfg.an.ana.transient = true := by simp [Analysis.ana, ht]
  have hspr : ∀ k, k < spreaderCells (spreaderOf s.g) → s'.sources.getD (chip cfg.d + k) 0 = 0 := by
    intro k hk
    obtain ⟨r, c, hv, -⟩ := spr_cell h.good.wf hk
    obtain ⟨sp, m, htop, -, -⟩ := hv
    obtain ⟨prev, p, q, e1, e2⟩ := hex.flows sp m htop
    have hsc : spreaderCells (spreaderOf s.g) = sp.nRows * sp.nCols := by simp [spreaderOf, htop, spreaderCells]
    rw [e2 k (by omega)]
    have hz := hsil _ _ _ _ _ (by
      intro t htm
      have := List.mem_of_mem_drop htm
      obtain ⟨i, hi, rfl⟩ := List.mem_iff_getElem.mp this
      have := h.uni i (by rw [← h.len]; exact hi)
      rw [List.getD_eq_getElem?_getD, List.getElem?_eq_getElem hi] at this
      exact this) e1
    rw [neg_eq_zero, List.getD_eq_getElem?_getD]
    cases hq : q[k]? with
    | none => rfl
    | some x => exact hz x (List.mem_of_getElem? hq)
  have hsol := balanced h.good.wf h.phys hat h.sur h.rows (S := fun i => s'.sources.getD i 0) hbox hspr
  have huni : Uniform cfg.d s' T := by
    obtain ⟨x, hx, hu⟩ := step_unique_wf h.good.wf h.phys cfg.an.ana hat hdt
      (fun i => s'.sources.getD i 0 + (s.caps.getD i 0 / cfg.an.stepTime) * s.temps.getD i 0)
    intro i hi
    have h1 := hu _ heq i hi
    have h2 := hu (fun _ => T) (by
      intro j hj
      have := hsol j hj
      rw [this]
      simp only
      rw [h.good.caps, h.uni j hj]
      rfl) i hi
    rw [h1, ← h2]
  refine ⟨hgood, hread, by rw [hgr]; exact h.phys, by rw [hgr]; exact h.sur, by rw [hgr]; exact h.rows, huni, hlen, hzero, ?_⟩
  intro _ l r c hl hr hc
  unfold sourceAt
  rw [hbox l r c hl hr hc, hgr]

theorem eq23_exec {cfg : Cfg K π} {raws : Nat → List (RawEl K)} {T : K} {s : Sim K π} (h : Eq23 cfg raws T s) (hc : Correct cfg)
    (hdt : 0 < cfg.an.stepTime) (hsil : Silent cfg T) (o : Op K) (hq : Quiet cfg T o) (hne : .solverError ∉ (exec cfg o s).1) :
    Eq23 cfg raws T (exec cfg o s).2 := by
  cases o with
  | step =>
    simp only [exec] at hne ⊢
    by_cases hs : Succeeded (emulateStep cfg s).1
    · exact eq23_success h hc hdt hsil hs
    · have hsp := step_spec (cfg := cfg) h.good.ready
      obtain ⟨-, h0, -, hc2⟩ := hsp
      rcases hc2 with ⟨-, -, e⟩ | ⟨-, -, hb, -, e1, e2, -⟩ | ⟨-, -, -, e | e⟩
      · rw [e]; exact h
      · have hgood := good_step h.good
        have hread := readFrom_step (cfg := cfg) h.read
        have hzero := powers_step h.good h.zero
        generalize (emulateStep cfg s).2 = s' at *
        refine ⟨hgood, hread, by rw [h0]; exact h.phys, by rw [h0]; exact h.sur, by rw [h0]; exact h.rows, ?_, by rw [e2]; exact h.len, hzero, ?_⟩
        · intro i hi; rw [e2]; exact h.uni i hi
        · intro hb'; rw [e1] at hb'; exact absurd hb hb'
      · exact absurd (by rw [e.1]; simp) hne
      · exact absurd e.1 hs
  | insert vs =>
    obtain ⟨fs, e1, e2, e3⟩ := insert_spec h.good.ready vs
    have hgood := good_exec h.good (.insert vs)
    have hread : ReadFrom cfg.d raws (exec cfg (.insert vs) s).2 := readFrom_geom h.read (geom_exec cfg _ s).symm
    have hx : (exec cfg (.insert vs) s).2 = { s with flps := fs } := by simp only [exec, e1]
    rw [hx] at hgood hread ⊢
    refine ⟨hgood, hread, h.phys, h.sur, h.rows, h.uni, h.len, ?_, h.src⟩
    intro e he v hv
    have : elements { s with flps := fs } = pushEach (elements s) vs := e3
    rw [this] at he
    exact powers_pushEach _ vs h.zero hq e he v hv
  | reset =>
    refine ⟨good_exec h.good .reset, ⟨h.read.grid, h.read.from_, h.read.inGrid⟩, h.phys, h.sur, h.rows, ?_, ?_, h.zero, h.src⟩
    · intro i hi
      simp only [exec, reset]
      rw [List.getD_eq_getElem?_getD, List.getElem?_replicate, if_pos hi]
      exact hq
    · simp [exec, reset]
  | flow f => exact absurd hq (by simp [Quiet])

/-- **C23** At a slot boundary of any reachable state in which every cell is at temperature `T`, with the ambient of both sinks and the
coolant inlet at `T`, no power left to dissipate and a pluggable sink that extracts nothing at equilibrium: after any number of further
calls that bring in no power (steps, insertions of zeros, resets to `T`) none of which reports a solver error, every cell is still at
`T`. Channels must have more than one row of cells: see `C23_single_row_violated`. -/
theorem C23_equilibrium_preserved_partial {cfg : Cfg K π} {s : Sim K π} (h : Reachable cfg s) (hb : cfg.an.slotLength ∣ s.time) (hc : Correct cfg)
    (hdt : 0 < cfg.an.stepTime) (hp : Physical s.g cfg.d) {raws : Nat → List (RawEl K)} (hf : ReadFrom cfg.d raws s) {T : K}
    (hsur : Surroundings s.g T) (hlen : s.temps.length = cfg.d.nCells) (huni : Uniform cfg.d s T) (hz : ∀ tr ∈ traces s, ∀ v ∈ tr, v = 0)
    (hsil : Silent cfg T) (hR : cfg.d.nRows ≠ 1 ∨ ∀ l c, l < cfg.d.nLayers → ¬ IsCoolant s.g l c)
    (ops : List (Op K)) (hq : ∀ o ∈ ops, Quiet cfg T o) (hne : .solverError ∉ (run cfg ops s).1) :
    Uniform cfg.d (run cfg ops s).2 T := by
  have h0 : Eq23 cfg raws T s := by
    refine ⟨reachable_good h, hf, hp, hsur, hR, huni, hlen, ?_, ?_⟩
    · intro e he v hv
      exact hz e.powers (List.mem_map.mpr ⟨e, he, rfl⟩) v hv
    · intro hn; exact absurd (Nat.dvd_iff_mod_eq_zero.mp hb) hn
  have key : ∀ (ops : List (Op K)) (s : Sim K π), Eq23 cfg raws T s → (∀ o ∈ ops, Quiet cfg T o) → .solverError ∉ (run cfg ops s).1 →
      Eq23 cfg raws T (run cfg ops s).2 := by
    intro ops
    induction ops with
    | nil => intro s h _ _; exact h
    | cons o os ih =>
      intro s h hq hne
      rw [run] at hne ⊢
      simp only [List.mem_append, not_or] at hne
      exact ih _ (eq23_exec h hc hdt hsil o (hq o (by simp)) hne.1) (fun o ho => hq o (by simp [ho])) hne.2
  exact (key ops s h0 hq hne).uni

/-- **C23, steady analysis** The equations that `emulate_steady` solves when the surroundings are at `T` and no power is dissipated are
solved by the uniform temperature `T`. -/
theorem C23_steady_partial {cfg : Cfg K π} {s : Sim K π} (h : Reachable cfg s) (hc : Correct cfg) (hp : Physical s.g cfg.d)
    {raws : Nat → List (RawEl K)} (hf : ReadFrom cfg.d raws s) {T : K} (hsur : Surroundings s.g T) (hz : ∀ tr ∈ traces s, tr ≠ [] ∧ ∀ v ∈ tr, v = 0)
    (hR : cfg.d.nRows ≠ 1 ∨ ∀ l c, l < cfg.d.nLayers → ¬ IsCoolant s.g l c) (hs : (emulateSteady cfg s).1 = .endOfSimulation) :
    ∃ b, Solves cfg.d.nCells s.mat.entry (fun i => (emulateSteady cfg s).2.temps.getD i 0) b ∧
      Solves cfg.d.nCells s.mat.entry (fun _ => T) b := by
  have hg := reachable_good h
  obtain ⟨ht, hno, -, -, heq⟩ := steady_eq hg hc (fun e he => (hz e.powers (List.mem_map.mpr ⟨e, he, rfl⟩)).1) hs
  refine ⟨_, by rw [hg.mat]; exact heq, ?_⟩
  rw [hg.mat]
  have hz0 : Powers (fun x : K => x = 0) s := fun e he v hv => (hz e.powers (List.mem_map.mpr ⟨e, he, rfl⟩)).2 v hv
  have := balanced_any hg.wf hp cfg.an.ana hsur hR (S := fun i => (slotSources cfg.d s).getD i 0)
    (fun l r c hl hr hc => by
      rw [slot_at hg hf hl hr hc, powerIn_zero _ _ (powers_next (P := fun x : K => x = 0) rfl hz0 l), zero_add])
    (fun k hk => by rw [hno] at hk; simp [spreaderCells] at hk)
  intro i hi
  rw [this i hi]
  have hat : cfg.an.ana.transient = false := by simp [Analysis.ana, ht]
  simp [storage, hat]

/-- **C23 fails for channels with a single row of cells**: with everything at `T`, no power and a coolant cell, any successful step
leaves the equilibrium. -/
theorem C23_single_row_violated {cfg : Cfg K π} {s : Sim K π} (h : Reachable cfg s) (hb : cfg.an.slotLength ∣ s.time) (hc : Correct cfg)
    (hp : Physical s.g cfg.d) {raws : Nat → List (RawEl K)} (hf : ReadFrom cfg.d raws s) {T : K}
    (hsur : Surroundings s.g T) (huni : Uniform cfg.d s T) (hz : ∀ tr ∈ traces s, ∀ v ∈ tr, v = 0)
    (hR : cfg.d.nRows = 1) {l c : Nat} (hl : l < cfg.d.nLayers) (hcl : c < cfg.d.nCols) (hco : IsCoolant s.g l c)
    (hflow : convective s.g cfg.d l c ≠ 0) (hT : T ≠ 0) (hs : Succeeded (emulateStep cfg s).1) :
    ¬ Uniform cfg.d (emulateStep cfg s).2 T := by
  intro hu
  have hg := reachable_good h
  obtain ⟨ht, hlen, heq, -⟩ := step_eq hg hc hs
  have hz0 : Powers (fun x : K => x = 0) s := fun e he v hv => hz e.powers (List.mem_map.mpr ⟨e, he, rfl⟩) v hv
  obtain ⟨-, -, -, hlt⟩ := wf_off hg.wf hl (r := 0) (by omega) hcl
  have hi : offInStack cfg.d l 0 c < cfg.d.nCells := lt_of_lt_of_le hlt (wf_chip hg.wf).1
  have hv : Valid s.g cfg.d (.box l 0 c) := ⟨hl, by omega, hcl⟩
  have e := heq _ hi
  simp only at e
  rw [step_sources hg hs hlt, if_pos (Nat.dvd_iff_mod_eq_zero.mp hb), slot_at hg hf hl (by omega) hcl,
    powerIn_zero _ _ (powers_next (P := fun x : K => x = 0) rfl hz0 l), zero_add, huni _ hi, hg.caps, sink_uniform hg.wf hsur hl] at e
  have e2 : ∀ j ∈ Finset.range cfg.d.nCells, (fillMatrix s.g cfg.an.ana cfg.d).entry (offInStack cfg.d l 0 c) j * (emulateStep cfg s).2.temps.getD j 0 =
      (fillMatrix s.g cfg.an.ana cfg.d).entry (offInStack cfg.d l 0 c) j * T := by
    intro j hj; rw [hu j (Finset.mem_range.mp hj)]
  rw [Finset.sum_congr rfl e2, ← Finset.sum_mul] at e
  have rs := row_sum hg.wf hp cfg.an.ana hv
  have cg := caps_getD hg.wf hv
  rw [box_offset] at rs cg
  rw [rs, cg, storage_transient (by simp [Analysis.ana, ht])] at e
  simp only [inletG, inletTerm, hco, hR, and_self, if_true] at e
  have hti : chan s.g (·.coolant.tIn) = T := by
    cases hch : s.g.channel with
    | none =>
      have hs := (coolant_iff hg.wf hl).mp hco
      have : solidish (typeAt s.g l) = false := by
        have := hs.1; revert this; cases typeAt s.g l <;> simp [isCh, solidish]
      obtain ⟨ch, h1, -⟩ := channel_some hg.wf hl this
      rw [hch] at h1; cases h1
    | some ch => simp [chan, hch, hsur.inlet ch hch]
  rw [hti] at e
  have hst : cfg.an.ana.stepTime = cfg.an.stepTime := rfl
  rw [hst] at e
  have : convective s.g cfg.d l c * T = 0 := by linear_combination -e
  exact (mul_ne_zero hflow hT) this

/-! ### Non-vacuity -/

theorem chip_surroundings (t : AType) (L : Nat) (top bottom : List (FlpEl ℚ)) : Surroundings (chipSim t L top bottom).g 300 := by
  refine ⟨?_, ?_, ?_⟩
  · intro sk h; simp [chipSim, chipG] at h; subst h; rfl
  · intro sk h; simp [chipSim, chipG] at h; subst h; rfl
  · intro ch h; simp [chipSim, chipG] at h; subst h; rfl

/-- The liquid-cooled example with idle elements, everything at 300: still at 300 after any number of steps that do not fail, and the two
steps of the first slot do not fail. -/
example : ∃ e1 e2 : FlpEl ℚ, (∀ ops, (∀ o ∈ ops, o = .step) → .solverError ∉ (run (chipCfg .transient 2) ops (chipSim .transient 2 [] [e1, e2])).1 →
      Uniform chipD (run (chipCfg .transient 2) ops (chipSim .transient 2 [] [e1, e2])).2 300) ∧
    ∀ r ∈ (steps (chipCfg .transient 2) 2 (chipSim .transient 2 [] [e1, e2])).1, Succeeded r := by
  obtain ⟨e1, e2, h, p1, p2, -⟩ := chip_parse [0, 0] [0]
  have hr := chip_reachable .transient 2 [] [e1, e2]
  refine ⟨e1, e2, fun ops ho hne => ?_, chip_slot (reachable_good hr) rfl (Nat.dvd_zero 2) (by simp [chipSim]) (by
    rw [chip_elements]; intro e he; simp at he; rcases he with rfl | rfl
    · rw [p1]; simp
    · rw [p2]; simp)⟩
  refine C23_equilibrium_preserved_partial hr (Nat.dvd_zero 2) (chip_correct _ _) (by norm_num [chipCfg]) chipPhysical (chip_readFrom h 2)
    (chip_surroundings _ _ _ _) (by simp [chipSim, chipCfg]) ?_ ?_ ?_ (Or.inl (by decide : chipD.nRows ≠ 1)) ops ?_ hne
  · intro i hi
    have hi : i < chipD.nCells := hi
    show (List.replicate chipD.nCells (300 : ℚ)).getD i 0 = 300
    rw [List.getD_eq_getElem?_getD, List.getElem?_replicate, if_pos hi]; rfl
  · intro tr htr v hv
    unfold traces at htr
    rw [chip_elements] at htr
    simp [p1, p2] at htr
    rcases htr with rfl | rfl <;> simpa using hv
  · intro st temps prev p q _ hq x hx
    simp [chipCfg] at hq
    rw [hq] at hx; simp at hx
  · intro o hm; rw [ho o hm]; trivial

/-- The example with a single row of cells and no elements. -/
def rowD : Dims ℚ := { chipD with nRows := 1, nCells := 25, chipWidth := 10 }
noncomputable def rowCfg : Cfg ℚ Unit :=
  { d := rowD, an := ⟨.transient, 1 / 100, 2, 300⟩, solve := exactSolve 25, factor := fun _ => true, plugin := fun u _ _ => (u, some []) }
noncomputable def rowSim : Sim ℚ Unit :=
  { g := chipG, mat := fillMatrix chipG rowCfg.an.ana rowD, temps := List.replicate rowD.nCells 300,
    sources := List.replicate rowD.nCells 0, caps := capList chipG rowD, topTcs := topList chipG rowD,
    botTcs := botList chipG rowD, flps := [some [], none, none, some [], none], time := 0, plug := () }

theorem row_builtFrom : ∃ p, BuiltFrom { okDims with nRows := 1, chipWidth := 10 } (some (exChannel .mc4rm)) (chipRaw [] []) p chipG ∧
    p.dims = rowD ∧ fillFloorplans p.dims.nLayers p.elems = [some [], none, none, some [], none] := by
  refine ⟨⟨[⟨"bottom", .die ⟨[exLayer 20, exLayer 5], 0, []⟩, 0⟩, ⟨"ch", .channel (exChannel .mc4rm), 2⟩,
    ⟨"top", .die ⟨[exLayer 20, exLayer 5], 0, []⟩, 3⟩], rowD,
    SM.numConnections { okDims with nRows := 1, chipWidth := 10, nLayers := 5, heights := [5, 20, 100, 5, 20] } .mc4rm 1 none⟩, ⟨?_, ?_, ?_, ?_, ?_, ?_⟩, rfl, rfl⟩
  · exact (by decide : 1 ≤ rowD.nRows)
  · exact (by decide : 1 ≤ rowD.nCols)
  · intro s h; simp [spreaderOf, chipG] at h
  · rintro ch h; simp only [Option.some.injEq] at h; subst h; simp [exChannel]
  · rfl
  · rfl

theorem row_reachable : Reachable rowCfg rowSim := by
  obtain ⟨p, h1, h2, h3⟩ := row_builtFrom
  refine ⟨_, _, [], ⟨_, _, p, (), h1, h2.symm, ?_⟩, rfl⟩
  unfold build; rw [if_pos (by rfl), h3]; rfl

theorem row_physical : Physical chipG rowD := by
  have := chipPhysical
  exact ⟨this.dim, this.wid, this.hts, this.mat, this.top, this.bot, this.spr, this.chn⟩

/-- The hypotheses of `C23_single_row_violated` hold: after one step of the idle single-row example the temperatures are not uniform. -/
example : Succeeded (emulateStep rowCfg rowSim).1 ∧ ¬ Uniform rowD (emulateStep rowCfg rowSim).2 300 := by
  have hg := reachable_good row_reachable
  have hs : Sized rowD := ⟨by simp [rowD, chipD, okDims, exDims, W], by simp [rowD, chipD, okDims, exDims, W]⟩
  have hel : elements rowSim = [] := rfl
  have hok : Succeeded (emulateStep rowCfg rowSim).1 := by
    rw [step_start (cfg := rowCfg) hg.ready rfl rfl (by rw [hel]; simp)]
    have hpl : ∀ x, pluggable rowCfg { rowSim with flps := x, sources := slotSources rowCfg.d rowSim } =
        ({ rowSim with flps := x, sources := slotSources rowCfg.d rowSim }, true) := fun x => rfl
    obtain ⟨p, h1, h2, h3⟩ := row_builtFrom
    obtain ⟨x, hx⟩ := exactSolve_some (n := 25) (A := rowSim.mat)
      (b := fillSystemVector rowCfg { rowSim with flps := rowSim.flps.map (Option.map (List.map pop)), sources := slotSources rowCfg.d rowSim })
      (C22_coolant_step_unique (h2 ▸ h1.built) row_physical ⟨true, 1 / 100⟩ rfl (by norm_num) _)
    rw [finish_ok (hpl _) hx]
    simp only
    generalize slotCompleted _ _ = b
    cases b
    · exact Or.inl rfl
    · exact Or.inr rfl
  refine ⟨hok, ?_⟩
  refine C23_single_row_violated row_reachable (Nat.dvd_zero 2) (fun A b x h => exactSolve_correct h) row_physical
    (raws := fun _ => []) ⟨⟨hs, by norm_num [rowCfg, rowD, chipD, okDims, exDims], by norm_num [rowCfg, rowD, chipD, okDims, exDims],
      (covers_4rm hs 1 rfl).mpr (by norm_num [rowD, chipD, okDims, exDims])⟩, ?_, by simp⟩ (chip_surroundings .transient 2 [] []) ?_ ?_ rfl
    (l := 2) (c := 1) (by decide : 2 < rowD.nLayers) (by decide : 1 < rowD.nCols) ?_ ?_ (by norm_num) hok
  · intro l hl
    have hl : l < 5 := hl
    interval_cases l <;> exact .nil
  · intro i hi
    have hi : i < rowD.nCells := hi
    show (List.replicate rowD.nCells (300 : ℚ)).getD i 0 = 300
    rw [List.getD_eq_getElem?_getD, List.getElem?_replicate, if_pos hi]; rfl
  · intro tr htr; simp [traces, hel] at htr
  · simp [IsCoolant, rowSim, typeAt, chipG]
  · simp [convective, rowSim, rowCfg, typeAt, chipG, chan, exChannel, exCoolant, rowD, chipD, okDims, exDims]

end Verif.Emu
