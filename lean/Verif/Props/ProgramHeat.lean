import Verif.Props.Program

/-! # C68: the temperatures that the program computes, in terms of the description files -/

set_option linter.unusedSectionVars false
set_option linter.unusedSimpArgs false
set_option linter.unusedVariables false

namespace Verif.Prog
open Verif.Gram Verif.Dim Verif.TG Verif.SM Verif.Stk Verif.FE Verif.Out Verif.Emu Verif.Flp

variable {π : Type}

/-! ### Specification -/

/-- The power that the floorplan files give to cell `(l, r, c)` during slot `j`: value number `j` of every element of the layer, times the part
of the area of the element that lies in the cell. -/
def cellPower (files : Files) (s : StackD) (d : Dims ℚ) (j l r c : Nat) : ℚ :=
  ((rawsOf files s l).map fun raw => raw.powers.getD j 0 * share d raw.rects r c).sum

/-- One step of the implicit Euler method, from the temperatures `T` to `T'`: in every cell, what is stored plus what is conducted to the
other cells is what the floorplans, the ambient and the coolant bring. -/
def HeatStep (g : TGrid ℚ) (d : Dims ℚ) (step : ℚ) (P : Nat → Nat → Nat → ℚ) (T T' : List ℚ) : Prop :=
  ∀ l r c, l < d.nLayers → r < d.nRows → c < d.nCols →
    capacity g d l r c / step * (T'.getD (offInStack d l r c) 0 - T.getD (offInStack d l r c) 0) +
      ∑ i ∈ Finset.range d.nCells, (fillMatrix g ⟨false, 1⟩ d).entry (offInStack d l r c) i * T'.getD i 0 =
    P l r c + sinkTerm g d l r c + inletTerm g d l r c

/-! ### Proofs -/

section
variable {w : World π} {file : String} {s : StackD} {D : Desc Flps} {an : Analysis ℚ} {s0 s' : Sim ℚ π} {log : Log ℚ}

theorem geom_lengths {α β : Type} {A : List (Option (List (FlpEl ℚ)))} {B : List (Option (List (FlpEl ℚ)))} (h : geom A = geom B) :
    A.map (fun o => (o.getD []).length) = B.map (fun o => (o.getD []).length) := by
  have := congrArg (List.map List.length) h
  simpa [geom, Function.comp_def] using this

/-- The power values left in each layer after some steps. -/
theorem layer_powers {cfg : Cfg ℚ π} {x y : Sim ℚ π} {L : List (List (RawEl ℚ))} {m : Nat}
    (h0 : (x.flps.map fun o => (o.getD []).map (·.powers)) = L.map fun rs => rs.map (·.powers)) (hg : geom y.flps = geom x.flps)
    (ht : traces y = (traces x).map (List.drop m)) (l : Nat) :
    (floorplan y l).map (·.powers) = (L.getD l []).map fun r => r.powers.drop m := by
  have key : (y.flps.map fun o => (o.getD []).map (·.powers)) = L.map fun rs => rs.map fun r => r.powers.drop m := by
    rw [List.eq_iff_flatten_eq]
    constructor
    · have e1 : (y.flps.map fun o => (o.getD []).map (·.powers)).flatten = traces y := by
        unfold traces elements; rw [List.flatMap_def, List.map_flatten, List.map_map]; rfl
      have e2 : traces x = (L.map fun rs => rs.map (·.powers)).flatten := by
        rw [← h0]; unfold traces elements; rw [List.flatMap_def, List.map_flatten, List.map_map]; rfl
      rw [e1, ht, e2, List.map_flatten, List.map_map]
      simp [Function.comp_def]
    · have e1 := geom_lengths (α := Unit) (β := Unit) hg
      have e2 := congrArg (List.map List.length) h0
      simp only [List.map_map, Function.comp_def, List.length_map] at e2 ⊢
      rw [e1, e2]
  have := congrArg (fun X => X.getD l []) key
  simp only [List.getD_eq_getElem?_getD, List.getElem?_map] at this ⊢
  unfold floorplan
  rw [List.getD_eq_getElem?_getD]
  cases ha : y.flps[l]? <;> cases hb : L[l]? <;> rw [ha, hb] at this <;> simpa using this

theorem powerIn_eq {d : Dims ℚ} {raws : List (RawEl ℚ)} {els : List (FlpEl ℚ)} {m : Nat}
    (h : els.map (·.powers) = raws.map fun r => r.powers.drop m) (r c : Nat) :
    powerIn d raws els r c = (raws.map fun raw => raw.powers.getD m 0 * share d raw.rects r c).sum := by
  unfold powerIn
  congr 1
  induction raws generalizing els with
  | nil => simp
  | cons a raws ih =>
    cases els with
    | nil => simp at h
    | cons e els =>
      simp only [List.map_cons, List.cons.injEq] at h
      rw [List.zip_cons_cons, List.map_cons, List.map_cons, ih h.2]
      congr 2
      unfold Flp.next
      rw [h.1]
      simp [List.headD_eq_head?_getD, List.head?_drop, List.getD_eq_getElem?_getD]

theorem after_succ (cfg : Cfg ℚ π) (x : Sim ℚ π) (k : Nat) : after cfg x (k + 1) = (emulateStep cfg (after cfg x k)).2 := by
  unfold after; rw [run_snoc_step]

theorem after_add (cfg : Cfg ℚ π) (x : Sim ℚ π) (a b : Nat) : after cfg x (a + b) = (steps cfg b (after cfg x a)).2 := by
  induction b with
  | zero => rfl
  | succ b ih => rw [← Nat.add_assoc, after_succ, ih, run_snoc_step]

theorem steps_ok {cfg : Cfg ℚ π} {x : Sim ℚ π} {a b : Nat} (h : ∀ k, k < a + b → Succeeded (emulateStep cfg (after cfg x k)).1) :
    ∀ r ∈ (steps cfg b (after cfg x a)).1, Succeeded r := by
  induction b with
  | zero => intro r hr; simp [steps, run] at hr
  | succ b ih =>
    intro r hr
    rw [run_snoc_step] at hr
    rcases List.mem_append.mp hr with hr | hr
    · exact ih (fun k hk => h k (by omega)) r hr
    · rw [List.mem_singleton] at hr
      rw [hr, ← after_add]
      exact h (a + b) (by omega)

theorem after_grid {cfg : Cfg ℚ π} {rs : List (Raw ℚ Flps)} {x : Sim ℚ π} (h : Started cfg rs x) (k : Nat) : (after cfg x k).g = x.g := by
  induction k with
  | zero => rfl
  | succ k ih => rw [after_succ]; exact ((step_spec (cfg := cfg) (reachable_good (after_reachable h k)).ready).2.1).trans ih

/-- The sources of step number `k`, in terms of the files. -/
theorem sources_along (h : Session w file s D an s0 log s') (hs : Sensible w.eff (filesOf w.read) s) (hm : ∀ x, w.mul10 x = x * 10)
    {step slot : ℚ} (ht : s.solver.kind = some (step, slot)) {n : Nat} (hn : n < 2 ^ 32)
    (hok : ∀ k, k < n → Succeeded (emulateStep (config w D an) (after (config w D an) s0 k)).1) {k : Nat} (hk : k < n) {l r c : Nat}
    (hl : l < D.parsed.dims.nLayers) (hr : r < D.parsed.dims.nRows) (hc : c < D.parsed.dims.nCols) :
    (after (config w D an) s0 (k + 1)).sources.getD (offInStack D.parsed.dims l r c) 0 =
      cellPower (filesOf w.read) s D.parsed.dims (k / an.slotLength) l r c + sinkTerm s0.g D.parsed.dims l r c + inletTerm s0.g D.parsed.dims l r c := by
  obtain ⟨raws, g1, g2, g3, g4, -, -, -, g5⟩ := h.good hs
  obtain ⟨t1, t2, t3, t4⟩ := times_good hm h.times
  have htr : an.type = .transient := by
    rcases t4 with ⟨t4, -⟩ | ⟨sl, t4, t5⟩
    · rw [h.means.times.1, ht] at t4; cases t4
    · exact t5
  have hsp := started_spec g1
  generalize hcfg : config w D an = cfg at *
  have hL : cfg.an.slotLength = an.slotLength := by rw [← hcfg]; rfl
  have hd : cfg.d = D.parsed.dims := by rw [← hcfg]; rfl
  have hty : cfg.an.type = .transient := by rw [← hcfg]; exact htr
  rw [← hd] at hl hr hc ⊢
  have hdm := Nat.div_add_mod k an.slotLength
  have hlt := Nat.mod_lt k t3
  set j := k / an.slotLength with hj
  set a := an.slotLength * j with ha
  set b := k % an.slotLength with hb
  have hal := steps_along hty (by rw [hL]; exact t3) hsp.1 hsp.2.2.1 a (by rw [W_eq]; omega) (fun i hi => hok i (by omega))
  have hR : Reachable cfg (after cfg s0 a) := after_reachable g1 a
  have hgood := reachable_good hR
  have hrf : ReadFrom cfg.d (rawsOf (filesOf w.read) s) (after cfg s0 a) := by
    rw [← hd] at g3
    exact readFrom_run g3 _
  have hsrc := sources_in_slot hgood (by rw [hal.2.1, hL]; exact ⟨j, ha⟩) b (by rw [hL]; omega) (by rw [hal.2.1, W_eq]; omega)
    (steps_ok (a := a) (b := b + 1) fun i hi => hok i (by omega)) (offInStack cfg.d l r c) (wf_off hgood.wf hl hr hc).2.2.2
  rw [← after_add] at hsrc
  have e : a + (b + 1) = k + 1 := by omega
  rw [e] at hsrc
  rw [hsrc, slot_at hgood hrf hl hr hc, after_grid g1]
  congr 2
  refine powerIn_eq ?_ r c
  refine layer_powers (cfg := cfg) g5 (geom_run cfg _ s0) ?_ l
  show traces (after cfg s0 a) = _
  rw [hal.2.2.2, hL]
  congr 2
  rw [ha]
  have : an.slotLength * j + an.slotLength - 1 = an.slotLength * j + (an.slotLength - 1) := by omega
  rw [this, Nat.mul_add_div t3, Nat.div_eq_of_lt (show an.slotLength - 1 < an.slotLength by omega), Nat.add_zero]

/-- **C68** Step number `k` of a transient simulation of sensible files, with an exact solver: whatever the sinks and the channels, the
temperatures after the step satisfy the heat equation of the files, with the power values of slot `k / L`. -/
theorem C68_heat_equation (h : Session w file s D an s0 log s') (hs : Sensible w.eff (filesOf w.read) s) (hm : ∀ x, w.mul10 x = x * 10)
    {step slot : ℚ} (ht : s.solver.kind = some (step, slot)) (hcor : Correct (config w D an)) {n : Nat} (hn : n < 2 ^ 32)
    (hok : ∀ k, k < n → Succeeded (emulateStep (config w D an) (after (config w D an) s0 k)).1) {k : Nat} (hk : k < n) :
    HeatStep s0.g D.parsed.dims step (cellPower (filesOf w.read) s D.parsed.dims (k / an.slotLength))
      (after (config w D an) s0 k).temps (after (config w D an) s0 (k + 1)).temps := by
  intro l r c hl hr hc
  have hsrc := sources_along h hs hm ht hn hok hk hl hr hc
  obtain ⟨raws, g1, g2, g3, g4, -, -, -, g5⟩ := h.good hs
  obtain ⟨t1, t2, t3, t4⟩ := times_good hm h.times
  have htr : an.type = .transient ∧ an.stepTime = step := by
    rcases t4 with ⟨t4, -⟩ | ⟨sl, t4, t5⟩
    · rw [h.means.times.1, ht] at t4; cases t4
    · rw [h.means.times.1, ht] at t4
      simp only [Option.some.injEq, Prod.mk.injEq] at t4
      exact ⟨t5, t4.1.symm⟩
  have hgood := reachable_good (after_reachable g1 k)
  obtain ⟨-, -, heq, -⟩ := step_eq hgood hcor (hok k hk)
  rw [← after_succ, after_grid g1] at heq
  have hwf : WF s0.g D.parsed.dims := by have := hgood.wf; rw [after_grid g1] at this; exact this
  obtain ⟨-, -, -, o4⟩ := wf_off hwf hl hr hc
  have hoff : offInStack D.parsed.dims l r c < D.parsed.dims.nCells := by
    have := (wf_chip hwf).2.1; omega
  have h1 := heq _ hoff
  simp only at h1
  rw [hsrc, hgood.caps, after_grid g1] at h1
  have hat : (config w D an).an.ana.transient = true := by
    show (Analysis.ana an).transient = true
    simp [Analysis.ana, htr.1]
  have hcap : (capList s0.g (config w D an).d).getD (offInStack D.parsed.dims l r c) 0 = capacity s0.g D.parsed.dims l r c :=
    caps_getD hwf (p := .box l r c) ⟨hl, hr, hc⟩
  have hst : (config w D an).an.ana.stepTime = step := htr.2
  have hst' : (config w D an).an.stepTime = step := htr.2
  have hdd : (config w D an).d = D.parsed.dims := rfl
  rw [hdd] at hcap h1
  rw [hst', hcap] at h1
  have e2 : ∀ j ∈ Finset.range D.parsed.dims.nCells,
      (fillMatrix s0.g (config w D an).an.ana D.parsed.dims).entry (offInStack D.parsed.dims l r c) j * (after (config w D an) s0 (k + 1)).temps.getD j 0 =
      (fillMatrix s0.g ⟨false, 1⟩ D.parsed.dims).entry (offInStack D.parsed.dims l r c) j * (after (config w D an) s0 (k + 1)).temps.getD j 0 +
      (if offInStack D.parsed.dims l r c = j then capacity s0.g D.parsed.dims l r c / step * (after (config w D an) s0 (k + 1)).temps.getD j 0 else 0) := by
    intro j hj
    rw [transient_entry hwf _ hat hoff (Finset.mem_range.mp hj), hst, hcap, steady_step _ _ step 1]
    split_ifs <;> ring
  rw [Finset.sum_congr rfl e2, Finset.sum_add_distrib, Finset.sum_ite_eq, if_pos (Finset.mem_range.mpr hoff)] at h1
  linarith

/-! #### What the document says about the sinks and the channel -/

theorem top_conv {eff : Bool → ℚ → ℚ} {files : Files} (M : Means uniformReader eff files s D) {sk : Sink ℚ} (h : D.top = some (.ambient sk)) :
    ∃ x, s.top = some (.conv x) ∧ sk = ⟨x.htc, x.temp⟩ := by
  obtain ⟨walls, d, spr, -, -, -, -, ht, -⟩ := M.stack
  rw [h] at ht
  cases hx : s.top with
  | none => rw [hx] at ht; exact ht.elim
  | some y =>
    rw [hx] at ht
    cases y with
    | conv x =>
      have ht' : TopSink.ambient sk = .ambient ⟨x.htc, x.temp⟩ := ht
      injection ht' with e
      exact ⟨x, rfl, e⟩
    | plug p => obtain ⟨a, b, -, -, e⟩ := ht; cases e

theorem top_plug {eff : Bool → ℚ → ℚ} {files : Files} (M : Means uniformReader eff files s D) {a : Spreader ℚ} {m : Material ℚ}
    (h : D.top = some (.pluggable a m)) : ∃ p, s.top = some (.plug p) := by
  obtain ⟨walls, d, spr, -, -, -, -, ht, -⟩ := M.stack
  rw [h] at ht
  cases hx : s.top with
  | none => rw [hx] at ht; exact ht.elim
  | some y =>
    rw [hx] at ht
    cases y with
    | conv x => have ht' : TopSink.pluggable a m = .ambient ⟨x.htc, x.temp⟩ := ht; cases ht'
    | plug p => exact ⟨p, rfl⟩

theorem chan_none {eff : Bool → ℚ → ℚ} {files : Files} (M : Means uniformReader eff files s D) (h : s.chan = none) : D.chan = none := by
  obtain ⟨walls, d, spr, -, -, -, hc, -⟩ := M.stack
  rw [h] at hc
  cases hx : D.chan with
  | none => rfl
  | some y => rw [hx] at hc; exact hc.elim

/-- The temperature of the coolant at the inlet. -/
def inletOf : ChanD → ℚ
  | .rm4 _ _ _ _ _ _ _ _ _ i => i
  | .rm2 _ _ _ _ _ _ _ i => i
  | .pin _ _ _ _ _ _ _ i => i

theorem chan_inlet {eff : Bool → ℚ → ℚ} {files : Files} (M : Means uniformReader eff files s D) {c : Channel ℚ} (h : D.chan = some c) :
    ∃ x, s.chan = some x ∧ c.coolant.tIn = inletOf x := by
  obtain ⟨walls, d, spr, -, -, -, hc, -⟩ := M.stack
  rw [h] at hc
  cases hx : s.chan with
  | none => rw [hx] at hc; exact hc.elim
  | some y =>
    rw [hx] at hc
    refine ⟨y, rfl, ?_⟩
    obtain ⟨-, -, hc⟩ := hc
    cases y with
    | rm4 => exact hc.2.2.2.2.2.2.2.1
    | rm2 => exact hc.2.2.2.2.2.2.2.1
    | pin => exact hc.2.2.2.2.2.2.2.1

theorem no_coolant {g : TGrid ℚ} {d : Dims ℚ} (wf : WF g d) (h : g.channel = none) : ∀ l c, l < d.nLayers → ¬ IsCoolant g l c := by
  intro l c hl hc
  have : solidish (typeAt g l) = false := by
    rcases hc with hc | hc | hc | ⟨hc, -⟩ <;> rw [hc] <;> rfl
  obtain ⟨ch, h1, -⟩ := channel_some wf hl this
  rw [h] at h1; cases h1

theorem no_spreader (h : Session w file s D an s0 log s') (hs : Sensible w.eff (filesOf w.read) s) (hp : ∀ p, s.top ≠ some (.plug p)) :
    spreaderOf s0.g = none := by
  obtain ⟨raws, -, -, -, -, g5, -⟩ := h.good hs
  unfold spreaderOf
  rw [g5]
  cases ht : D.top with
  | none => rfl
  | some x =>
    cases x with
    | ambient sk => rfl
    | pluggable a m => obtain ⟨p, hp'⟩ := top_plug h.means ht; exact absurd hp' (hp p)

/-! #### The temperatures are determined -/

/-- **C68** At the beginning every cell has the initial temperature of the file. -/
theorem C68_initial (h : Session w file s D an s0 log s') (hs : Sensible w.eff (filesOf w.read) s) (hm : ∀ x, w.mul10 x = x * 10) :
    s0.temps = List.replicate D.parsed.dims.nCells s.solver.init := by
  obtain ⟨raws, g1, -⟩ := h.good hs
  rw [(started_spec g1).2.2.2.1]
  show List.replicate _ an.initTemp = _
  rw [(times_good hm h.times).1, h.means.init]
  rfl

theorem heatStep_solves {g : TGrid ℚ} {d : Dims ℚ} (wf : WF g d) (hsp : spreaderOf g = none) {a : Ana ℚ} (hat : a.transient = true)
    {P : Nat → Nat → Nat → ℚ} {T T' : List ℚ} {b : Nat → ℚ}
    (hb : ∀ l r c, l < d.nLayers → r < d.nRows → c < d.nCols → b (offInStack d l r c) = P l r c + sinkTerm g d l r c + inletTerm g d l r c) :
    HeatStep g d a.stepTime P T T' ↔ Solves d.nCells (fillMatrix g a d).entry (fun i => T'.getD i 0)
      (fun i => b i + ((capList g d).getD i 0 / a.stepTime) * T.getD i 0) := by
  have hsum : ∀ i, i < d.nCells → ∑ j ∈ Finset.range d.nCells, (fillMatrix g a d).entry i j * T'.getD j 0 =
      (∑ j ∈ Finset.range d.nCells, (fillMatrix g ⟨false, 1⟩ d).entry i j * T'.getD j 0) + ((capList g d).getD i 0 / a.stepTime) * T'.getD i 0 := by
    intro i hi
    have e : ∀ j ∈ Finset.range d.nCells, (fillMatrix g a d).entry i j * T'.getD j 0 =
        (fillMatrix g ⟨false, 1⟩ d).entry i j * T'.getD j 0 + (if i = j then ((capList g d).getD i 0 / a.stepTime) * T'.getD j 0 else 0) := by
      intro j hj
      rw [transient_entry wf a hat hi (Finset.mem_range.mp hj), steady_step g d a.stepTime 1]
      split_ifs <;> ring
    rw [Finset.sum_congr rfl e, Finset.sum_add_distrib, Finset.sum_ite_eq, if_pos (Finset.mem_range.mpr hi)]
  constructor
  · intro h i hi
    obtain ⟨p, hp, rfl⟩ := exists_cell wf hi
    cases p with
    | spr r c => obtain ⟨s, m, ht, -⟩ := hp; simp [spreaderOf, ht] at hsp
    | box l r c =>
      have h1 := h l r c hp.1 hp.2.1 hp.2.2
      have hcap := caps_getD wf hp
      rw [box_offset] at hi hcap ⊢
      have h2 := hsum _ hi
      simp only at h2 ⊢
      rw [h2, hcap, hb l r c hp.1 hp.2.1 hp.2.2]
      show _ + capacity g d l r c / a.stepTime * _ = _ + capacity g d l r c / a.stepTime * _
      linarith
  · intro h l r c hl hr hc
    obtain ⟨-, -, h3, h4⟩ := wf_off wf hl hr hc
    have hi : offInStack d l r c < d.nCells := by have := (wf_chip wf).2.1; omega
    have h1 := h _ hi
    have hcap := caps_getD wf (p := .box l r c) ⟨hl, hr, hc⟩
    rw [box_offset] at hcap
    have h2 := hsum _ hi
    simp only at h1 h2
    rw [h2, hcap, hb l r c hl hr hc] at h1
    have e : capOf g d (.box l r c) = capacity g d l r c := rfl
    rw [e] at h1
    linarith

theorem heatStep_congr {g : TGrid ℚ} {d : Dims ℚ} (wf : WF g d) {step : ℚ} {P : Nat → Nat → Nat → ℚ} {T U T' : List ℚ} (h : SameTemps d T U)
    (hT : HeatStep g d step P T T') : HeatStep g d step P U T' := by
  intro l r c hl hr hc
  obtain ⟨-, -, h3, h4⟩ := wf_off wf hl hr hc
  rw [← h _ (by have := (wf_chip wf).2.1; omega)]
  exact hT l r c hl hr hc

/-- **C68** Without a pluggable sink, the temperatures after a step are the only ones that satisfy the heat equation of the files. -/
theorem C68_only_solution (h : Session w file s D an s0 log s') (hs : Sensible w.eff (filesOf w.read) s) (hm : ∀ x, w.mul10 x = x * 10)
    {step slot : ℚ} (ht : s.solver.kind = some (step, slot)) (hcor : Correct (config w D an)) (hp : ∀ p, s.top ≠ some (.plug p)) {n : Nat}
    (hn : n < 2 ^ 32) (hok : ∀ k, k < n → Succeeded (emulateStep (config w D an) (after (config w D an) s0 k)).1) {k : Nat} (hk : k < n) {T : List ℚ}
    (hT : HeatStep s0.g D.parsed.dims step (cellPower (filesOf w.read) s D.parsed.dims (k / an.slotLength)) (after (config w D an) s0 k).temps T) :
    SameTemps D.parsed.dims T (after (config w D an) s0 (k + 1)).temps := by
  have h1 := C68_heat_equation h hs hm ht hcor hn hok hk
  have hsp := no_spreader h hs hp
  obtain ⟨raws, g1, g2, -⟩ := h.good hs
  obtain ⟨t1, t2, t3, t4⟩ := times_good hm h.times
  have htr : an.type = .transient ∧ an.stepTime = step := by
    rcases t4 with ⟨t4, -⟩ | ⟨sl, t4, t5⟩
    · rw [h.means.times.1, ht] at t4; cases t4
    · rw [h.means.times.1, ht] at t4
      simp only [Option.some.injEq, Prod.mk.injEq] at t4
      exact ⟨t5, t4.1.symm⟩
  have hwf : WF s0.g D.parsed.dims := (reachable_good (started_reachable g1)).wf
  have hb : ∃ b : Nat → ℚ, ∀ l r c, l < D.parsed.dims.nLayers → r < D.parsed.dims.nRows → c < D.parsed.dims.nCols →
      b (offInStack D.parsed.dims l r c) = cellPower (filesOf w.read) s D.parsed.dims (k / an.slotLength) l r c + sinkTerm s0.g D.parsed.dims l r c +
        inletTerm s0.g D.parsed.dims l r c := by
    exact ⟨fun i => (after (config w D an) s0 (k + 1)).sources.getD i 0, fun l r c hl hr hc => sources_along h hs hm ht hn hok hk hl hr hc⟩
  obtain ⟨b, hb⟩ := hb
  have hat : (⟨true, step⟩ : Ana ℚ).transient = true := rfl
  rw [heatStep_solves (a := ⟨true, step⟩) hwf hsp hat hb] at h1 hT
  obtain ⟨x, hx, hu⟩ := step_unique_wf hwf g2 ⟨true, step⟩ hat (by show 0 < step; rw [← htr.2]; exact t2)
    (fun i => b i + ((capList s0.g D.parsed.dims).getD i 0 / step) * (after (config w D an) s0 k).temps.getD i 0)
  intro i hi
  exact (hu _ hT i hi).trans (hu _ h1 i hi).symm

/-- **C68** Without a pluggable sink, the whole history of the temperatures is the solution of the heat equation of the files: any sequence
of temperatures that starts at the initial temperature and satisfies the equation of every step is the one that the program computes. -/
theorem C68_history (h : Session w file s D an s0 log s') (hs : Sensible w.eff (filesOf w.read) s) (hm : ∀ x, w.mul10 x = x * 10)
    {step slot : ℚ} (ht : s.solver.kind = some (step, slot)) (hcor : Correct (config w D an)) (hp : ∀ p, s.top ≠ some (.plug p)) {n : Nat}
    (hn : n < 2 ^ 32) (hok : ∀ k, k < n → Succeeded (emulateStep (config w D an) (after (config w D an) s0 k)).1) (X : Nat → List ℚ)
    (h0 : ∀ i, i < D.parsed.dims.nCells → (X 0).getD i 0 = s.solver.init)
    (hX : ∀ k, k < n → HeatStep s0.g D.parsed.dims step (cellPower (filesOf w.read) s D.parsed.dims (k / an.slotLength)) (X k) (X (k + 1))) :
    ∀ k, k ≤ n → SameTemps D.parsed.dims (X k) (after (config w D an) s0 k).temps := by
  obtain ⟨raws, g1, g2, -⟩ := h.good hs
  have hwf : WF s0.g D.parsed.dims := (reachable_good (started_reachable g1)).wf
  intro k
  induction k with
  | zero =>
    intro _ i hi
    show _ = s0.temps.getD i 0
    rw [h0 i hi, C68_initial h hs hm]
    simp [List.getD_eq_getElem?_getD, hi]
  | succ k ih =>
    intro hk
    exact C68_only_solution h hs hm ht hcor hp hn hok (by omega) (heatStep_congr hwf (ih (by omega)) (hX k (by omega)))

/-! #### Energy, bounds, equilibrium -/

/-- **C68** The energy balance of step `k`, in terms of the files: the heat stored per unit of time is the sum of the power values number
`k / L` of all floorplan elements, minus what leaves through the sinks, with the coolant and through the pluggable sink. -/
theorem C68_energy_balance (h : Session w file s D an s0 log s') (hs : Sensible w.eff (filesOf w.read) s) (hm : ∀ x, w.mul10 x = x * 10)
    {step slot : ℚ} (ht : s.solver.kind = some (step, slot)) (hcor : Correct (config w D an)) (hR : D.parsed.dims.nRows ≠ 1 ∨ s.chan = none) {n : Nat}
    (hn : n < 2 ^ 32) (hok : ∀ k, k < n → Succeeded (emulateStep (config w D an) (after (config w D an) s0 k)).1) {k : Nat} (hk : k < n) :
    ∃ q : Nat → ℚ,
      (∀ sp m, s0.g.top = some (.pluggable sp m) → ∃ prev p Q, w.plugin (after (config w D an) s0 k).plug
        ((after (config w D an) s0 k).temps.drop (chip D.parsed.dims)) prev = (p, some Q) ∧ ∀ i, i < sp.nRows * sp.nCols → q i = Q.getD i 0) ∧
      storedRate s0.g D.parsed.dims step (after (config w D an) s0 k) (after (config w D an) s0 (k + 1)) =
      ((filePowers (filesOf w.read) s).map fun t => t.getD (k / an.slotLength) 0).sum -
        overCells D.parsed.dims (fun l r c => toAmbient s0.g D.parsed.dims l r c (tempIn D.parsed.dims (after (config w D an) s0 (k + 1)) l r c)) +
        byCoolant s0.g D.parsed.dims (after (config w D an) s0 (k + 1)) - overSpreader s0.g q := by
  obtain ⟨raws, g1, g2, g3, g4, -, -, g6, g5⟩ := h.good hs
  obtain ⟨t1, t2, t3, t4⟩ := times_good hm h.times
  have htr : an.type = .transient ∧ an.stepTime = step := by
    rcases t4 with ⟨t4, -⟩ | ⟨sl, t4, t5⟩
    · rw [h.means.times.1, ht] at t4; cases t4
    · rw [h.means.times.1, ht] at t4
      simp only [Option.some.injEq, Prod.mk.injEq] at t4
      exact ⟨t5, t4.1.symm⟩
  have hwf : WF s0.g D.parsed.dims := (reachable_good (started_reachable g1)).wf
  have hR' : D.parsed.dims.nRows ≠ 1 ∨ ∀ l c, l < D.parsed.dims.nLayers → ¬ IsCoolant s0.g l c := by
    rcases hR with hR | hR
    · exact .inl hR
    · right
      refine no_coolant hwf ?_
      rcases g6 with g6 | g6
      · exact g6
      · rw [g6, chan_none h.means hR]
  have hsp := started_spec g1
  have hdm := Nat.div_add_mod k an.slotLength
  have hlt := Nat.mod_lt k t3
  set j := k / an.slotLength with hj
  set a := an.slotLength * j with ha
  set b := k % an.slotLength with hb
  have hal := steps_along (cfg := config w D an) htr.1 t3 hsp.1 hsp.2.2.1 a (by rw [W_eq]; omega) (fun i hi => hok i (by omega))
  obtain ⟨q, hq0, hq⟩ := C24_energy_balance_partial (after_reachable g1 a) (by rw [hal.2.1]; exact ⟨j, ha⟩) hcor (readFrom_run g3 _) b hlt
    (by rw [hal.2.1]; omega) (steps_ok (a := a) (b := b + 1) fun i hi => hok i (by omega)) (by rw [after_grid g1]; exact hR')
  rw [← after_add, ← after_add, after_grid g1] at hq
  rw [← after_add, after_grid g1] at hq0
  have e : a + b = k := by omega
  have e' : a + (b + 1) = k + 1 := by omega
  rw [e] at hq0
  refine ⟨q, hq0, ?_⟩
  rw [e, e'] at hq
  have hpow : totalPower (after (config w D an) s0 a) = ((filePowers (filesOf w.read) s).map fun t => t.getD j 0).sum := by
    unfold totalPower
    have e1 : (elements (after (config w D an) s0 a)).map Flp.next = (traces (after (config w D an) s0 a)).map fun t => t.headD 0 := by
      unfold traces; rw [List.map_map]; rfl
    rw [e1, hal.2.2.2, g4, List.map_map]
    have e2 : (a + (config w D an).an.slotLength - 1) / (config w D an).an.slotLength = j := by
      show (a + an.slotLength - 1) / an.slotLength = j
      have : a + an.slotLength - 1 = an.slotLength * j + (an.slotLength - 1) := by omega
      rw [this, Nat.mul_add_div t3, Nat.div_eq_of_lt (show an.slotLength - 1 < an.slotLength by omega), Nat.add_zero]
    rw [e2]
    congr 2
    funext t
    simp [List.headD_eq_head?_getD, List.head?_drop, List.getD_eq_getElem?_getD]
  rw [hpow] at hq
  have hst' : (config w D an).an.stepTime = step := htr.2
  rw [hst'] at hq
  exact hq

/-- **C68** A solid stack whose files contain no negative power: no cell is ever colder than the ambients and the initial temperature. -/
theorem C68_never_below (h : Session w file s D an s0 log s') (hs : Sensible w.eff (filesOf w.read) s) (hm : ∀ x, w.mul10 x = x * 10)
    (hcor : Correct (config w D an)) (hp : ∀ p, s.top ≠ some (.plug p)) (hch : s.chan = none) {m : ℚ} (htop : ∀ x, s.top = some (.conv x) → m ≤ x.temp)
    (hbot : ∀ x, s.bottom = some x → m ≤ x.temp) (hin : m ≤ s.solver.init) (hpow : ∀ t ∈ filePowers (filesOf w.read) s, ∀ v ∈ t, 0 ≤ v) {n : Nat}
    (hok : ∀ k, k < n → Succeeded (emulateStep (config w D an) (after (config w D an) s0 k)).1) :
    AtLeast D.parsed.dims (after (config w D an) s0 n) m := by
  obtain ⟨raws, g1, g2, g3, g4, g5, g6, g7, -⟩ := h.good hs
  have hsp := started_spec g1
  have hch' : s0.g.channel = none := by
    rcases g7 with g7 | g7
    · exact g7
    · rw [g7, chan_none h.means hch]
  refine C25_never_below_minimum (raws := rawsOf (filesOf w.read) s) (started_reachable g1) (by rw [hsp.2.2.1]; exact dvd_zero _) hcor
    (times_good hm h.times).2.1 g2 ⟨hch', ?_⟩ g3 ?_ ?_ ?_ (by rw [g4]; exact hpow) (List.replicate n .step) ?_ ?_
  · intro a b hab
    rw [g5] at hab
    obtain ⟨p, hp'⟩ := top_plug h.means hab
    exact hp p hp'
  · intro sk hsk
    rw [g5] at hsk
    obtain ⟨x, hx, rfl⟩ := top_conv h.means hsk
    exact htop x hx
  · intro sk hsk
    rw [g6, h.means.bottom] at hsk
    obtain ⟨x, hx, rfl⟩ := Option.map_eq_some_iff.mp hsk
    exact hbot x hx
  · intro i hi
    have hi' : i < D.parsed.dims.nCells := hi
    rw [C68_initial h hs hm]
    simp [List.getD_eq_getElem?_getD, hi']
    exact hin
  · intro o ho
    rw [List.eq_of_mem_replicate ho]; trivial
  · intro hmem
    have := steps_ok (cfg := config w D an) (x := s0) (a := 0) (b := n) (fun k hk => hok k (by omega)) _ hmem
    simp [Succeeded] at this

/-- **C68** The same from above, when no power is positive: no cell is ever hotter than the ambients and the initial temperature. -/
theorem C68_never_above (h : Session w file s D an s0 log s') (hs : Sensible w.eff (filesOf w.read) s) (hm : ∀ x, w.mul10 x = x * 10)
    (hcor : Correct (config w D an)) (hp : ∀ p, s.top ≠ some (.plug p)) (hch : s.chan = none) {m : ℚ} (htop : ∀ x, s.top = some (.conv x) → x.temp ≤ m)
    (hbot : ∀ x, s.bottom = some x → x.temp ≤ m) (hin : s.solver.init ≤ m) (hpow : ∀ t ∈ filePowers (filesOf w.read) s, ∀ v ∈ t, v ≤ 0) {n : Nat}
    (hok : ∀ k, k < n → Succeeded (emulateStep (config w D an) (after (config w D an) s0 k)).1) :
    AtMost D.parsed.dims (after (config w D an) s0 n) m := by
  obtain ⟨raws, g1, g2, g3, g4, g5, g6, g7, -⟩ := h.good hs
  have hsp := started_spec g1
  have hch' : s0.g.channel = none := by
    rcases g7 with g7 | g7
    · exact g7
    · rw [g7, chan_none h.means hch]
  refine C25_never_above_maximum (raws := rawsOf (filesOf w.read) s) (started_reachable g1) (by rw [hsp.2.2.1]; exact dvd_zero _) hcor
    (times_good hm h.times).2.1 g2 ⟨hch', ?_⟩ g3 ?_ ?_ ?_ (by rw [g4]; exact hpow) (List.replicate n .step) ?_ ?_
  · intro a b hab
    rw [g5] at hab
    obtain ⟨p, hp'⟩ := top_plug h.means hab
    exact hp p hp'
  · intro sk hsk
    rw [g5] at hsk
    obtain ⟨x, hx, rfl⟩ := top_conv h.means hsk
    exact htop x hx
  · intro sk hsk
    rw [g6, h.means.bottom] at hsk
    obtain ⟨x, hx, rfl⟩ := Option.map_eq_some_iff.mp hsk
    exact hbot x hx
  · intro i hi
    have hi' : i < D.parsed.dims.nCells := hi
    rw [C68_initial h hs hm]
    simp [List.getD_eq_getElem?_getD, hi']
    exact hin
  · intro o ho
    rw [List.eq_of_mem_replicate ho]; trivial
  · intro hmem
    have := steps_ok (cfg := config w D an) (x := s0) (a := 0) (b := n) (fun k hk => hok k (by omega)) _ hmem
    simp [Succeeded] at this

/-- **C68** Without power, with the ambients, the inlet and the initial temperature equal, nothing changes. -/
theorem C68_equilibrium (h : Session w file s D an s0 log s') (hs : Sensible w.eff (filesOf w.read) s) (hm : ∀ x, w.mul10 x = x * 10)
    (hcor : Correct (config w D an)) (hR : D.parsed.dims.nRows ≠ 1 ∨ s.chan = none) (htop : ∀ x, s.top = some (.conv x) → x.temp = s.solver.init)
    (hbot : ∀ x, s.bottom = some x → x.temp = s.solver.init) (hin : ∀ x, s.chan = some x → inletOf x = s.solver.init)
    (hsil : Silent (config w D an) s.solver.init) (hpow : ∀ t ∈ filePowers (filesOf w.read) s, ∀ v ∈ t, v = 0) {n : Nat}
    (hok : ∀ k, k < n → Succeeded (emulateStep (config w D an) (after (config w D an) s0 k)).1) :
    Uniform D.parsed.dims (after (config w D an) s0 n) s.solver.init := by
  obtain ⟨raws, g1, g2, g3, g4, g5, g6, g7, -⟩ := h.good hs
  have hsp := started_spec g1
  have hwf : WF s0.g D.parsed.dims := (reachable_good (started_reachable g1)).wf
  have hR' : D.parsed.dims.nRows ≠ 1 ∨ ∀ l c, l < D.parsed.dims.nLayers → ¬ IsCoolant s0.g l c := by
    rcases hR with hR | hR
    · exact .inl hR
    · right
      refine no_coolant hwf ?_
      rcases g7 with g7 | g7
      · exact g7
      · rw [g7, chan_none h.means hR]
  refine C23_equilibrium_preserved_partial (raws := rawsOf (filesOf w.read) s) (started_reachable g1) (by rw [hsp.2.2.1]; exact dvd_zero _) hcor
    (times_good hm h.times).2.1 g2 g3 ⟨?_, ?_, ?_⟩ (by rw [hsp.2.2.2.1, List.length_replicate]) ?_ (by rw [g4]; exact hpow) hsil hR'
    (List.replicate n .step) ?_ ?_
  · intro sk hsk
    rw [g5] at hsk
    obtain ⟨x, hx, rfl⟩ := top_conv h.means hsk
    exact htop x hx
  · intro sk hsk
    rw [g6, h.means.bottom] at hsk
    obtain ⟨x, hx, rfl⟩ := Option.map_eq_some_iff.mp hsk
    exact hbot x hx
  · intro c hc
    rcases g7 with g7 | g7
    · rw [g7] at hc; cases hc
    · rw [g7] at hc
      obtain ⟨x, hx, e⟩ := chan_inlet h.means hc
      rw [e]; exact hin x hx
  · intro i hi
    have hi' : i < D.parsed.dims.nCells := hi
    rw [C68_initial h hs hm]
    simp [List.getD_eq_getElem?_getD, hi']
  · intro o ho
    rw [List.eq_of_mem_replicate ho]; trivial
  · intro hmem
    have := steps_ok (cfg := config w D an) (x := s0) (a := 0) (b := n) (fun k hk => hok k (by omega)) _ hmem
    simp [Succeeded] at this

end

end Verif.Prog
