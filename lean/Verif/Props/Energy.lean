import Verif.Lemmas.Heat
import Verif.Props.Flow

/-! # C24: energy is conserved at each step -/

set_option linter.unusedSectionVars false
set_option linter.unusedSimpArgs false
set_option linter.unusedVariables false

namespace Verif.Emu
open Verif.Dim Verif.TG Verif.SM Verif.Flp Verif.Stk

variable {K : Type} [Field K] [LinearOrder K] [IsStrictOrderedRing K] {π : Type}

/-! ### Specification -/

/-- Temperature of a cell of the stack. -/
def tempIn (d : Dims K) (s : Sim K π) (l r c : Nat) : K := s.temps.getD (offInStack d l r c) 0
/-- Temperature of the `k`-th cell of the heat spreader. -/
def sprTemp (d : Dims K) (s : Sim K π) (k : Nat) : K := s.temps.getD (chip d + k) 0

/-- Sum over the cells of the stack. -/
def overCells (d : Dims K) (f : Nat → Nat → Nat → K) : K :=
  ∑ l ∈ Finset.range d.nLayers, ∑ r ∈ Finset.range d.nRows, ∑ c ∈ Finset.range d.nCols, f l r c
/-- Sum over the cells of the spreader; 0 without a spreader. -/
def overSpreader (g : TGrid K) (f : Nat → K) : K := ∑ k ∈ Finset.range (spreaderCells (spreaderOf g)), f k

/-- Heat capacity of a cell of the spreader. -/
def spreaderCap (g : TGrid K) : K :=
  match g.top with
  | some (.pluggable s m) => sprCapacity s m
  | _ => 0

/-- Heat stored per unit of time when the temperatures change from those of `s` to those of `s'` in a step of length `dt`. -/
def storedRate (g : TGrid K) (d : Dims K) (dt : K) (s s' : Sim K π) : K :=
  overCells d (fun l r c => capacity g d l r c * (tempIn d s' l r c - tempIn d s l r c) / dt) +
  overSpreader g (fun k => spreaderCap g * (sprTemp d s' k - sprTemp d s k) / dt)

/-- Heat flowing from a cell at temperature `T` into the ambient through the top sink or through the board: conductance times difference. -/
def toAmbient (g : TGrid K) (d : Dims K) (l r c : Nat) (T : K) : K :=
  match typeAt g l with
  | .solidAmb | .sourceAmb => gTop g d l r c * (T - topAmb g)
  | .solidPcb | .sourcePcb => gBottom g d l r c * (T - botAmb g)
  | _ => 0

open Classical in
/-- Heat carried in by the coolant minus heat carried out: for each channel cell of the outlet row, (heat capacity flow) times (inlet
temperature minus outlet temperature). -/
noncomputable def byCoolant (g : TGrid K) (d : Dims K) (s : Sim K π) : K :=
  ∑ l ∈ Finset.range d.nLayers, ∑ c ∈ Finset.range d.nCols,
    if IsCoolant g l c then 2 * convective g d l c * (chan g (·.coolant.tIn) - tempIn d s l (d.nRows - 1) c) else 0

/-- The power dissipated in a slot that starts in `s`. -/
def totalPower (s : Sim K π) : K := ((elements s).map next).sum

/-! ### Proofs -/

theorem sum_floorplans {s : Sim K π} {n : Nat} (h : s.flps.length = n) :
    ∑ l ∈ Finset.range n, ((floorplan s l).map next).sum = totalPower s := by
  unfold totalPower elements floorplan
  subst h
  generalize s.flps = L
  induction L with
  | nil => simp
  | cons a L ih =>
    rw [List.length_cons, Finset.sum_range_succ', List.flatMap_cons, List.map_append, List.sum_append, ← ih]
    simp only [List.getD_cons_succ, List.getD_cons_zero]
    rw [add_comm]

theorem storage_transient {a : Ana K} (h : a.transient = true) (x : K) : storage a x = x / a.stepTime := by simp [storage, h]

/-- The sum of the equations of a step: what is stored, lost to the ambient and carried out by the coolant is what the sources give. -/
theorem energy_raw {cfg : Cfg K π} {s : Sim K π} (hg : Good cfg s) (hc : Correct cfg) (hs : Succeeded (emulateStep cfg s).1) :
    storedRate s.g cfg.d cfg.an.stepTime s (emulateStep cfg s).2 =
      (∑ i ∈ Finset.range cfg.d.nCells, (emulateStep cfg s).2.sources.getD i 0) -
      overCells cfg.d (fun l r c => (ambientTerm s.g cfg.d l r c + outletG s.g cfg.d l r c) * tempIn cfg.d (emulateStep cfg s).2 l r c) := by
  obtain ⟨ht, -, heq, -⟩ := step_eq hg hc hs
  unfold storedRate overCells overSpreader tempIn sprTemp
  generalize (emulateStep cfg s).2.temps = T' at *
  generalize (emulateStep cfg s).2.sources = S at *
  have hat : cfg.an.ana.transient = true := by simp [Analysis.ana, ht]
  have hst : ∀ x : K, storage cfg.an.ana x = x / cfg.an.stepTime := fun x => storage_transient hat x
  have h1 : ∑ i ∈ Finset.range cfg.d.nCells, ∑ j ∈ Finset.range cfg.d.nCells, (fillMatrix s.g cfg.an.ana cfg.d).entry i j * T'.getD j 0 =
      ∑ i ∈ Finset.range cfg.d.nCells, (S.getD i 0 + (s.caps.getD i 0 / cfg.an.stepTime) * s.temps.getD i 0) :=
    Finset.sum_congr rfl fun i hi => heq i (Finset.mem_range.mp hi)
  rw [Finset.sum_comm] at h1
  simp only [← Finset.sum_mul] at h1
  rw [Finset.sum_add_distrib, sum_cells hg.wf] at h1
  rw [sum_cells hg.wf (fun i => s.caps.getD i 0 / cfg.an.stepTime * s.temps.getD i 0)] at h1
  have hbox : ∀ l ∈ Finset.range cfg.d.nLayers, ∀ r ∈ Finset.range cfg.d.nRows, ∀ c ∈ Finset.range cfg.d.nCols,
      (∑ i ∈ Finset.range cfg.d.nCells, (fillMatrix s.g cfg.an.ana cfg.d).entry i (offInStack cfg.d l r c)) * T'.getD (offInStack cfg.d l r c) 0 =
      (capacity s.g cfg.d l r c / cfg.an.stepTime + (ambientTerm s.g cfg.d l r c + outletG s.g cfg.d l r c)) * T'.getD (offInStack cfg.d l r c) 0 := by
    intro l hl r hr c hc
    rw [Finset.mem_range] at hl hr hc
    have := col_sum hg.wf cfg.an.ana (p := .box l r c) ⟨hl, hr, hc⟩
    rw [box_offset] at this
    rw [this, hst]
    rfl
  have hcap : ∀ l ∈ Finset.range cfg.d.nLayers, ∀ r ∈ Finset.range cfg.d.nRows, ∀ c ∈ Finset.range cfg.d.nCols,
      s.caps.getD (offInStack cfg.d l r c) 0 = capacity s.g cfg.d l r c := by
    intro l hl r hr c hc
    rw [Finset.mem_range] at hl hr hc
    have := caps_getD hg.wf (p := .box l r c) ⟨hl, hr, hc⟩
    rw [box_offset] at this
    rw [hg.caps, this]
    rfl
  have hspr : ∀ k ∈ Finset.range (spreaderCells (spreaderOf s.g)), s.caps.getD (chip cfg.d + k) 0 = spreaderCap s.g ∧
      (∑ i ∈ Finset.range cfg.d.nCells, (fillMatrix s.g cfg.an.ana cfg.d).entry i (chip cfg.d + k)) = spreaderCap s.g / cfg.an.stepTime := by
    intro k hk
    rw [Finset.mem_range] at hk
    obtain ⟨r, c, hv, ho⟩ := spr_cell hg.wf hk
    have h1 := caps_getD hg.wf hv
    have h2 := col_sum hg.wf cfg.an.ana hv
    rw [ho] at h1 h2
    rw [hg.caps, h1, h2, hst]
    exact ⟨rfl, by simp only [add_zero]; rfl⟩
  rw [Finset.sum_congr rfl fun l hl => Finset.sum_congr rfl fun r hr => Finset.sum_congr rfl fun c hc => hbox l hl r hr c hc] at h1
  have h4 : ∑ k ∈ Finset.range (spreaderCells (spreaderOf s.g)),
      (∑ i ∈ Finset.range cfg.d.nCells, (fillMatrix s.g cfg.an.ana cfg.d).entry i (chip cfg.d + k)) * T'.getD (chip cfg.d + k) 0 =
      ∑ k ∈ Finset.range (spreaderCells (spreaderOf s.g)), spreaderCap s.g / cfg.an.stepTime * T'.getD (chip cfg.d + k) 0 :=
    Finset.sum_congr rfl fun k hk => by rw [(hspr k hk).2]
  have h2 : ∑ l ∈ Finset.range cfg.d.nLayers, ∑ r ∈ Finset.range cfg.d.nRows, ∑ c ∈ Finset.range cfg.d.nCols,
      s.caps.getD (offInStack cfg.d l r c) 0 / cfg.an.stepTime * s.temps.getD (offInStack cfg.d l r c) 0 =
      ∑ l ∈ Finset.range cfg.d.nLayers, ∑ r ∈ Finset.range cfg.d.nRows, ∑ c ∈ Finset.range cfg.d.nCols,
      capacity s.g cfg.d l r c / cfg.an.stepTime * s.temps.getD (offInStack cfg.d l r c) 0 :=
    Finset.sum_congr rfl fun l hl => Finset.sum_congr rfl fun r hr => Finset.sum_congr rfl fun c hc => by rw [hcap l hl r hr c hc]
  have h3 : ∑ k ∈ Finset.range (spreaderCells (spreaderOf s.g)), s.caps.getD (chip cfg.d + k) 0 / cfg.an.stepTime * s.temps.getD (chip cfg.d + k) 0 =
      ∑ k ∈ Finset.range (spreaderCells (spreaderOf s.g)), spreaderCap s.g / cfg.an.stepTime * s.temps.getD (chip cfg.d + k) 0 :=
    Finset.sum_congr rfl fun k hk => by rw [(hspr k hk).1]
  rw [h2, h3, h4] at h1
  simp only [mul_sub, sub_div, Finset.sum_sub_distrib, add_mul, Finset.sum_add_distrib, div_mul_eq_mul_div] at h1 ⊢
  linarith

/-- The sources of a slot, summed over the cells. -/
theorem sum_sources {cfg : Cfg K π} {s s' : Sim K π} (hg : Good cfg s) {raws : Nat → List (RawEl K)} (hf : ReadFrom cfg.d raws s)
    (hsrc : ∀ l r c, l < cfg.d.nLayers → r < cfg.d.nRows → c < cfg.d.nCols → sourceAt cfg.d s' l r c =
      powerIn cfg.d (raws l) (floorplan s l) r c + sinkTerm s.g cfg.d l r c + inletTerm s.g cfg.d l r c) :
    ∑ i ∈ Finset.range cfg.d.nCells, s'.sources.getD i 0 =
      totalPower s + overCells cfg.d (fun l r c => sinkTerm s.g cfg.d l r c + inletTerm s.g cfg.d l r c) +
      overSpreader s.g (fun k => s'.sources.getD (chip cfg.d + k) 0) := by
  rw [sum_cells hg.wf]
  unfold overSpreader overCells
  congr 1
  rw [← sum_floorplans (hg.ready.len.trans hg.wf.nl)]
  rw [← Finset.sum_add_distrib]
  refine Finset.sum_congr rfl fun l hl => ?_
  rw [Finset.mem_range] at hl
  rw [← sum_powerIn hf.grid (hf.from_ l hl) (hf.inGrid l hl), ← Finset.sum_add_distrib]
  refine Finset.sum_congr rfl fun r hr => ?_
  rw [← Finset.sum_add_distrib]
  refine Finset.sum_congr rfl fun c hc => ?_
  rw [Finset.mem_range] at hr hc
  have := hsrc l r c hl hr hc
  unfold sourceAt at this
  rw [this, add_assoc]

theorem inlet_outlet {cfg : Cfg K π} {g : TGrid K} (wf : WF g cfg.d) (s : Sim K π)
    (hR : cfg.d.nRows ≠ 1 ∨ ∀ l c, l < cfg.d.nLayers → ¬ IsCoolant g l c) :
    overCells cfg.d (fun l r c => inletTerm g cfg.d l r c) - overCells cfg.d (fun l r c => outletG g cfg.d l r c * tempIn cfg.d s l r c) =
      byCoolant g cfg.d s := by
  have hpos : 0 < cfg.d.nRows := wf.acc.rows
  unfold overCells byCoolant
  rw [← Finset.sum_sub_distrib]
  refine Finset.sum_congr rfl fun l hl => ?_
  rw [Finset.mem_range] at hl
  rw [Finset.sum_comm, Finset.sum_comm (s := Finset.range cfg.d.nRows) (f := fun r c => outletG g cfg.d l r c * _), ← Finset.sum_sub_distrib]
  refine Finset.sum_congr rfl fun c hc => ?_
  by_cases hco : IsCoolant g l c
  · have hR' : cfg.d.nRows ≠ 1 := by
      rcases hR with h | h
      · exact h
      · exact absurd hco (h l c hl)
    rw [if_pos hco]
    have e1 : ∑ r ∈ Finset.range cfg.d.nRows, inletTerm g cfg.d l r c = 2 * convective g cfg.d l c * chan g (·.coolant.tIn) := by
      rw [Finset.sum_eq_single_of_mem 0 (Finset.mem_range.mpr hpos)]
      · unfold inletTerm; rw [if_pos ⟨rfl, hco⟩]
      · intro r _ h0; unfold inletTerm; rw [if_neg (fun h => h0 h.1)]
    have e2 : ∑ r ∈ Finset.range cfg.d.nRows, outletG g cfg.d l r c * tempIn cfg.d s l r c =
        2 * convective g cfg.d l c * tempIn cfg.d s l (cfg.d.nRows - 1) c := by
      rw [Finset.sum_eq_single_of_mem (cfg.d.nRows - 1) (Finset.mem_range.mpr (by omega))]
      · unfold outletG; rw [if_pos ⟨hco, rfl⟩, if_neg hR']
      · intro r _ h0; unfold outletG; rw [if_neg (fun h => h0 h.2), zero_mul]
    rw [e1, e2]; ring
  · rw [if_neg hco]
    have e1 : ∀ r, inletTerm g cfg.d l r c = 0 := by intro r; unfold inletTerm; rw [if_neg (fun h => hco h.2)]
    have e2 : ∀ r, outletG g cfg.d l r c = 0 := by intro r; unfold outletG; rw [if_neg (fun h => hco h.1)]
    simp [e1, e2]

theorem ambient_split (g : TGrid K) (d : Dims K) (l r c : Nat) (T : K) :
    toAmbient g d l r c T = ambientTerm g d l r c * T - sinkTerm g d l r c := by
  unfold toAmbient ambientTerm sinkTerm
  cases typeAt g l <;> simp only [] <;> ring

/-- The state before and after the `k`-th step of a slot. -/
theorem grid_steps (cfg : Cfg K π) (k : Nat) {s : Sim K π} (hg : Good cfg s) : (steps cfg k s).2.g = s.g := by
  induction k with
  | zero => rfl
  | succ k ih =>
    rw [run_snoc_step]
    simp only
    rw [(step_spec (cfg := cfg) (steps_good hg k).ready).2.1, ih]

open Classical in
/-- The balance with the term of the coolant as the code has it. -/
theorem balance_raw {cfg : Cfg K π} {s : Sim K π} (h : Reachable cfg s) (hb : cfg.an.slotLength ∣ s.time) (hc : Correct cfg)
    {raws : Nat → List (RawEl K)} (hf : ReadFrom cfg.d raws s)
    (k : Nat) (hk : k < cfg.an.slotLength) (hW : s.time + k + 1 < 2 ^ 32) (hok : ∀ r ∈ (steps cfg (k + 1) s).1, Succeeded r) :
    ∃ q : Nat → K,
      (∀ sp m, s.g.top = some (.pluggable sp m) → ∃ prev p Q,
        cfg.plugin (steps cfg k s).2.plug ((steps cfg k s).2.temps.drop (chip cfg.d)) prev = (p, some Q) ∧
        ∀ i, i < sp.nRows * sp.nCols → q i = Q.getD i 0) ∧
      storedRate s.g cfg.d cfg.an.stepTime (steps cfg k s).2 (steps cfg (k + 1) s).2 =
        totalPower s - overCells cfg.d (fun l r c => toAmbient s.g cfg.d l r c (tempIn cfg.d (steps cfg (k + 1) s).2 l r c)) +
        (overCells cfg.d (fun l r c => inletTerm s.g cfg.d l r c) -
          overCells cfg.d (fun l r c => outletG s.g cfg.d l r c * tempIn cfg.d (steps cfg (k + 1) s).2 l r c)) - overSpreader s.g q := by
  have hg := reachable_good h
  have hsrc := fun l r c hl hr hc' => C42_sources_of_the_slot h hb hf (k + 1) (by omega) (by omega) (by omega) hok (l := l) (r := r) (c := c) hl hr hc'
  have hgk := steps_good hg k
  have hgr := grid_steps cfg k hg
  have hs : Succeeded (emulateStep cfg (steps cfg k s).2).1 := by
    apply hok; rw [run_snoc_step]; simp
  have hst : (steps cfg (k + 1) s).2 = (emulateStep cfg (steps cfg k s).2).2 := by rw [run_snoc_step]
  have hen := energy_raw hgk hc hs
  obtain ⟨-, -, -, hex⟩ := step_eq hgk hc hs
  rw [← hst] at hen hex
  have hss := sum_sources (s' := (steps cfg (k + 1) s).2) hg hf hsrc
  generalize (steps cfg (k + 1) s).2 = s2 at *
  generalize (steps cfg k s).2 = s1 at *
  rw [hgr] at hen
  refine ⟨fun i => - s2.sources.getD (chip cfg.d + i) 0, ?_, ?_⟩
  · intro sp m htop
    obtain ⟨prev, p, q, e1, e2⟩ := hex.flows sp m (by rw [hgr]; exact htop)
    refine ⟨prev, p, q, e1, fun i hi => ?_⟩
    simp only
    rw [e2 i hi, neg_neg]
  · rw [hen, hss]
    simp only [ambient_split]
    unfold overCells overSpreader
    simp only [Finset.sum_add_distrib, Finset.sum_sub_distrib, Finset.sum_neg_distrib, add_mul]
    ring

/-- **C24** In each step `k` of a slot that starts in any reachable state `s`: the heat stored during the step equals the power of the
floorplan elements for this slot, minus the heat leaving through the top sink and the board, plus inlet minus outlet enthalpy of the
coolant, minus the flows `q` that the pluggable heat sink returned for this step. All temperatures are those after the step (implicit
Euler). The channel must have more than one row of cells: see `C24_single_row_violated`. -/
theorem C24_energy_balance_partial {cfg : Cfg K π} {s : Sim K π} (h : Reachable cfg s) (hb : cfg.an.slotLength ∣ s.time) (hc : Correct cfg)
    {raws : Nat → List (RawEl K)} (hf : ReadFrom cfg.d raws s)
    (k : Nat) (hk : k < cfg.an.slotLength) (hW : s.time + k + 1 < 2 ^ 32) (hok : ∀ r ∈ (steps cfg (k + 1) s).1, Succeeded r)
    (hR : cfg.d.nRows ≠ 1 ∨ ∀ l c, l < cfg.d.nLayers → ¬ IsCoolant s.g l c) :
    ∃ q : Nat → K,
      (∀ sp m, s.g.top = some (.pluggable sp m) → ∃ prev p Q,
        cfg.plugin (steps cfg k s).2.plug ((steps cfg k s).2.temps.drop (chip cfg.d)) prev = (p, some Q) ∧
        ∀ i, i < sp.nRows * sp.nCols → q i = Q.getD i 0) ∧
      storedRate s.g cfg.d cfg.an.stepTime (steps cfg k s).2 (steps cfg (k + 1) s).2 =
        totalPower s - overCells cfg.d (fun l r c => toAmbient s.g cfg.d l r c (tempIn cfg.d (steps cfg (k + 1) s).2 l r c)) +
        byCoolant s.g cfg.d (steps cfg (k + 1) s).2 - overSpreader s.g q := by
  obtain ⟨q, h1, h2⟩ := balance_raw h hb hc hf k hk hW hok
  exact ⟨q, h1, by rw [h2, inlet_outlet (reachable_good h).wf _ hR]⟩

open Classical in
/-- **C24 fails for channels with a single row of cells**: the term of the coolant is then `C (2 Tin - T)` instead of `2 C (Tin - T)`, so
that the balance is off by `C T` for each coolant cell, whatever the state and the power. -/
theorem C24_single_row_violated {cfg : Cfg K π} {s : Sim K π} (h : Reachable cfg s) (hb : cfg.an.slotLength ∣ s.time) (hc : Correct cfg)
    {raws : Nat → List (RawEl K)} (hf : ReadFrom cfg.d raws s)
    (k : Nat) (hk : k < cfg.an.slotLength) (hW : s.time + k + 1 < 2 ^ 32) (hok : ∀ r ∈ (steps cfg (k + 1) s).1, Succeeded r)
    (hR : cfg.d.nRows = 1) :
    ∃ q : Nat → K,
      (∀ sp m, s.g.top = some (.pluggable sp m) → ∃ prev p Q,
        cfg.plugin (steps cfg k s).2.plug ((steps cfg k s).2.temps.drop (chip cfg.d)) prev = (p, some Q) ∧
        ∀ i, i < sp.nRows * sp.nCols → q i = Q.getD i 0) ∧
      storedRate s.g cfg.d cfg.an.stepTime (steps cfg k s).2 (steps cfg (k + 1) s).2 =
        (totalPower s - overCells cfg.d (fun l r c => toAmbient s.g cfg.d l r c (tempIn cfg.d (steps cfg (k + 1) s).2 l r c)) +
        byCoolant s.g cfg.d (steps cfg (k + 1) s).2 - overSpreader s.g q) +
        ∑ l ∈ Finset.range cfg.d.nLayers, ∑ c ∈ Finset.range cfg.d.nCols,
          (if IsCoolant s.g l c then convective s.g cfg.d l c * tempIn cfg.d (steps cfg (k + 1) s).2 l 0 c else 0) := by
  obtain ⟨q, h1, h2⟩ := balance_raw h hb hc hf k hk hW hok
  refine ⟨q, h1, ?_⟩
  rw [h2]
  have : overCells cfg.d (fun l r c => inletTerm s.g cfg.d l r c) -
      overCells cfg.d (fun l r c => outletG s.g cfg.d l r c * tempIn cfg.d (steps cfg (k + 1) s).2 l r c) =
      byCoolant s.g cfg.d (steps cfg (k + 1) s).2 + ∑ l ∈ Finset.range cfg.d.nLayers, ∑ c ∈ Finset.range cfg.d.nCols,
          (if IsCoolant s.g l c then convective s.g cfg.d l c * tempIn cfg.d (steps cfg (k + 1) s).2 l 0 c else 0) := by
    unfold overCells byCoolant
    rw [← Finset.sum_sub_distrib, ← Finset.sum_add_distrib]
    refine Finset.sum_congr rfl fun l _ => ?_
    rw [hR, Finset.sum_range_one, Finset.sum_range_one, ← Finset.sum_sub_distrib, ← Finset.sum_add_distrib]
    refine Finset.sum_congr rfl fun c _ => ?_
    unfold inletTerm outletG
    by_cases hco : IsCoolant s.g l c
    · simp only [hco, hR, and_self, if_true, Nat.sub_self]; ring
    · simp [hco]
  rw [this]; ring

/-- Non-vacuity: both steps of a slot of the liquid-cooled example with two elements that dissipate 1 and 4. -/
example : ∃ e1 e2 : FlpEl ℚ, ∀ k, k < 2 → totalPower (chipSim .transient 2 [] [e1, e2]) = 5 ∧
    storedRate chipG chipD (1 / 100) (steps (chipCfg .transient 2) k (chipSim .transient 2 [] [e1, e2])).2
        (steps (chipCfg .transient 2) (k + 1) (chipSim .transient 2 [] [e1, e2])).2 =
      5 - overCells chipD (fun l r c => toAmbient chipG chipD l r c
          (tempIn chipD (steps (chipCfg .transient 2) (k + 1) (chipSim .transient 2 [] [e1, e2])).2 l r c)) +
        byCoolant chipG chipD (steps (chipCfg .transient 2) (k + 1) (chipSim .transient 2 [] [e1, e2])).2 := by
  obtain ⟨e1, e2, h, p1, p2, -⟩ := chip_parse [1, 2] [4, 5]
  refine ⟨e1, e2, fun k hk => ?_⟩
  have hr := chip_reachable .transient 2 [] [e1, e2]
  have hok := chip_slot (reachable_good hr) rfl (Nat.dvd_zero 2) (by simp [chipSim]) (by
    rw [chip_elements]; intro e he; simp at he; rcases he with rfl | rfl
    · rw [p1]; simp
    · rw [p2]; simp)
  have htot : totalPower (chipSim .transient 2 [] [e1, e2]) = 5 := by
    unfold totalPower; rw [chip_elements]; simp [next, p1, p2]; norm_num
  refine ⟨htot, ?_⟩
  obtain ⟨q, -, h2⟩ := C24_energy_balance_partial hr (Nat.dvd_zero 2) (chip_correct _ _) (chip_readFrom h 2) k hk (by
      have : (chipSim .transient 2 [] [e1, e2]).time = 0 := rfl
      omega) (by
      interval_cases k
      · intro r hr; apply hok; rw [run_snoc_step _ 1]; simp [hr]
      · exact hok) (Or.inl (by decide : chipD.nRows ≠ 1))
  have h3 : overSpreader (chipSim .transient 2 [] [e1, e2]).g q = 0 := by
    unfold overSpreader; simp [chipSim, chipG, spreaderOf, spreaderCells]
  rw [htot, h3, sub_zero] at h2
  exact h2

end Verif.Emu
