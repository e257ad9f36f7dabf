import Verif.Lemmas.RowSums
import Verif.Lemmas.Demo
import Verif.Props.Reset
import Verif.Props.Sources

/-! The equation a simulated step solves, cell by cell, and sums over the cells. -/

set_option linter.unusedSectionVars false
set_option linter.unusedSimpArgs false
set_option linter.unusedVariables false

namespace Verif.Emu
open Verif.Dim Verif.TG Verif.SM Verif.Flp Verif.Stk

variable {K : Type} [Field K] [LinearOrder K] [IsStrictOrderedRing K] {π : Type}

theorem system_getD {cfg : Cfg K π} {s : Sim K π} (wf : WF s.g cfg.d) {i : Nat} (hi : i < cfg.d.nCells) :
    (fillSystemVector cfg s).getD i 0 = s.sources.getD i 0 + (s.caps.getD i 0 / cfg.an.stepTime) * s.temps.getD i 0 := by
  have hn : (lastLayer cfg.d + 1) * ((lastRow cfg.d + 1) * (lastColumn cfg.d + 1)) + sprSize s.g = cfg.d.nCells := by
    rw [wf_lastRow wf, wf_lastCol wf, wf_lastLayer wf, (wf_chip wf).2.1]; rfl
  unfold fillSystemVector
  rw [hn, List.getD_eq_getElem?_getD, List.getElem?_map, List.getElem?_range hi]
  rfl

/-- What the plugin of a heat sink asked for. -/
structure Extracted (cfg : Cfg K π) (s : Sim K π) (T : List K) (S : List K) : Prop where
  flows : ∀ sp m, s.g.top = some (.pluggable sp m) → ∃ prev p q, cfg.plugin s.plug (T.drop (chip cfg.d)) prev = (p, some q) ∧
    ∀ k, k < sp.nRows * sp.nCols → S.getD (chip cfg.d + k) 0 = - q.getD k 0

/-- A successful second half of a step. -/
theorem finish_eq {cfg : Cfg K π} {s : Sim K π} (h : Good cfg s) (hc : Correct cfg) (hs : Succeeded (finishStep cfg s).1) :
    (finishStep cfg s).2.temps.length = cfg.d.nCells ∧
    Solves cfg.d.nCells (fillMatrix s.g cfg.an.ana cfg.d).entry (fun i => (finishStep cfg s).2.temps.getD i 0)
      (fun i => (finishStep cfg s).2.sources.getD i 0 + (s.caps.getD i 0 / cfg.an.stepTime) * s.temps.getD i 0) ∧
    Extracted cfg s s.temps (finishStep cfg s).2.sources := by
  obtain ⟨h1, h2, h3, h4, h5⟩ := pluggable_keeps cfg s
  have hcap : (pluggable cfg s).1.caps = s.caps := by
    unfold pluggable
    split
    · simp only; split <;> rfl
    · rfl
  have hex : ∀ s1, pluggable cfg s = (s1, true) → Extracted cfg s s.temps s1.sources := by
    intro s1 hpl
    refine ⟨fun sp m htop => ?_⟩
    unfold pluggable at hpl
    simp only [htop] at hpl
    rw [spreaderOffset_zero h.wf] at hpl
    cases hq : cfg.plugin s.plug (s.temps.drop (chip cfg.d)) (s.sources.drop (chip cfg.d)) with
    | mk p o =>
      rw [hq] at hpl
      cases o with
      | none => simp at hpl
      | some q =>
        simp only [Prod.mk.injEq, and_true] at hpl
        refine ⟨_, p, q, hq, fun k hk => ?_⟩
        rw [← hpl]
        obtain ⟨c1, c2, -⟩ := wf_chip h.wf
        have hlen : (s.sources.take (chip cfg.d)).length = chip cfg.d := by
          rw [List.length_take, h.len]; omega
        rw [getD_append_right' _ _ _ _ (by rw [hlen]; omega), hlen, Nat.add_sub_cancel_left, List.getD_eq_getElem?_getD,
          List.getElem?_map, List.getElem?_range hk]
        rfl
  cases hpl : pluggable cfg s with
  | mk s1 ok =>
    rw [hpl] at h1 h2 h3 h4 h5 hcap
    simp only at h1 h2 h3 h4 h5 hcap
    cases ok with
    | false => rw [finish_plugin hpl] at hs; simp [Succeeded] at hs
    | true =>
      cases hsol : cfg.solve s1.mat (fillSystemVector cfg s1) with
      | none => obtain ⟨b, hb⟩ := finish_solver hpl hsol; rw [hb] at hs; simp [Succeeded] at hs
      | some x =>
        obtain ⟨s2, e1, e2, -, e4, -⟩ := finish_ok' hpl hsol
        rw [e1]
        simp only
        obtain ⟨a1, a2⟩ := hc _ _ _ hsol
        have hw : WF s1.g cfg.d := by rw [h2]; exact h.wf
        refine ⟨by rw [e2]; exact a1, ?_, by rw [e4]; exact hex s1 hpl⟩
        rw [← h.mat, ← h4]
        intro i hi
        have := a2 i hi
        rw [e2, this]
        simp only
        rw [system_getD hw hi, e4, hcap, h5]

/-- The equations of a successful step: storage, conduction and the sources left in the state. -/
theorem step_eq {cfg : Cfg K π} {s : Sim K π} (h : Good cfg s) (hc : Correct cfg) (hs : Succeeded (emulateStep cfg s).1) :
    cfg.an.type = .transient ∧ (emulateStep cfg s).2.temps.length = cfg.d.nCells ∧
    Solves cfg.d.nCells (fillMatrix s.g cfg.an.ana cfg.d).entry (fun i => (emulateStep cfg s).2.temps.getD i 0)
      (fun i => (emulateStep cfg s).2.sources.getD i 0 + (s.caps.getD i 0 / cfg.an.stepTime) * s.temps.getD i 0) ∧
    Extracted cfg s s.temps (emulateStep cfg s).2.sources := by
  by_cases ht : cfg.an.type = .transient
  · refine ⟨ht, ?_⟩
    by_cases hb : s.time % cfg.an.slotLength = 0
    · by_cases hp : ∃ e ∈ elements s, e.powers = []
      · obtain ⟨fs, x, e1, -⟩ := step_end h.ready ht hb hp
        rw [e1] at hs; simp [Succeeded] at hs
      · have e := step_start' h.ready ht hb fun e he hh => hp ⟨e, he, hh⟩
        rw [e] at hs ⊢
        obtain ⟨f1, f2, f3, f4, f5, f6⟩ := slotStart_fields cfg s
        have f7 : (slotStart cfg s).caps = s.caps := rfl
        have hg := good_start h
        generalize slotStart cfg s = s1 at *
        obtain ⟨a, b, c⟩ := finish_eq hg hc hs
        rw [f1, f3, f7] at b
        refine ⟨a, b, ⟨?_⟩⟩
        have := c.flows
        rw [f1, f2, f3] at this
        exact this
    · have e := step_inside (cfg := cfg) ht hb
      rw [e] at hs ⊢
      exact finish_eq h hc hs
  · have : emulateStep cfg s = (.wrongConfig, s) := by simp [emulateStep, ht]
    rw [this] at hs; simp [Succeeded] at hs

/-! ### Sums over the cells -/

theorem sum_mul_add {M : Type} [AddCommMonoid M] (a b : Nat) (f : Nat → M) :
    ∑ i ∈ Finset.range (a * b), f i = ∑ r ∈ Finset.range a, ∑ c ∈ Finset.range b, f (r * b + c) := by
  induction a with
  | zero => simp
  | succ a ih => rw [Nat.succ_mul, Finset.sum_range_add, ih, Finset.sum_range_succ]

/-- Sum over the cells: those of the layers, then those of the spreader. -/
theorem sum_cells {g : TGrid K} {d : Dims K} (wf : WF g d) (f : Nat → K) :
    ∑ i ∈ Finset.range d.nCells, f i =
      (∑ l ∈ Finset.range d.nLayers, ∑ r ∈ Finset.range d.nRows, ∑ c ∈ Finset.range d.nCols, f (offInStack d l r c)) +
      ∑ k ∈ Finset.range (spreaderCells (spreaderOf g)), f (chip d + k) := by
  rw [(wf_chip wf).2.1, Finset.sum_range_add]
  congr 1
  unfold chip
  rw [sum_mul_add]
  refine Finset.sum_congr rfl fun l hl => ?_
  rw [sum_mul_add]
  refine Finset.sum_congr rfl fun r hr => Finset.sum_congr rfl fun c hc => ?_
  rw [Finset.mem_range] at hl hr hc
  rw [(wf_off wf hl hr hc).1, wf_area wf]

theorem box_offset (g : TGrid K) (d : Dims K) (l r c : Nat) : offset d (spreaderOf g) (.box l r c) = offInStack d l r c := rfl

/-- A cell of the spreader. -/
theorem spr_cell {g : TGrid K} {d : Dims K} (wf : WF g d) {k : Nat} (hk : k < spreaderCells (spreaderOf g)) :
    ∃ r c, Valid g d (.spr r c) ∧ offset d (spreaderOf g) (.spr r c) = chip d + k := by
  have hn : chip d + k < d.nCells := by rw [(wf_chip wf).2.1]; omega
  obtain ⟨p, hp, ho⟩ := exists_cell wf hn
  cases p with
  | spr r c => exact ⟨r, c, hp, ho⟩
  | box l r c =>
    have := (wf_off wf hp.1 hp.2.1 hp.2.2).2.2.2
    rw [box_offset] at ho; omega

/-! ### Sources of one step -/

theorem step_sources {cfg : Cfg K π} {s : Sim K π} (h : Good cfg s) (hs : Succeeded (emulateStep cfg s).1) {j : Nat} (hj : j < chip cfg.d) :
    (emulateStep cfg s).2.sources.getD j 0 = if s.time % cfg.an.slotLength = 0 then (slotSources cfg.d s).getD j 0 else s.sources.getD j 0 := by
  obtain ⟨-, -, -, hc⟩ := step_spec (cfg := cfg) h.ready
  rcases hc with ⟨h2, -⟩ | ⟨h2, -⟩ | ⟨ht, hp, -⟩
  · rw [h2] at hs; simp [Succeeded] at hs
  · rw [h2] at hs; simp [Succeeded] at hs
  · by_cases hb : s.time % cfg.an.slotLength = 0
    · rw [if_pos hb, step_start' h.ready ht hb (hp hb)]
      have := (good_finish (good_start h)).2 j hj
      rw [this, (slotStart_fields cfg s).2.2.2.1]
    · rw [if_neg hb, step_inside ht hb]
      exact (good_finish h).2 j hj

theorem strip_from {d : Dims K} {raw : RawEl K} {e e' : FlpEl K} (h : strip e = strip e') (hf : From d raw e) : From d raw e' := by
  obtain ⟨e0, h0, h1, h2⟩ := hf
  have a : e.ics = e'.ics := by have := congrArg FlpEl.ics h; exact this
  have b : e.area = e'.area := by have := congrArg FlpEl.area h; exact this
  exact ⟨e0, h0, by rw [← a, h1], by rw [← b, h2]⟩

theorem readFrom_geom {d : Dims K} {raws : Nat → List (RawEl K)} {s s' : Sim K π} (h : ReadFrom d raws s) (hg : geom s.flps = geom s'.flps) :
    ReadFrom d raws s' := by
  refine ⟨h.grid, fun l hl => ?_, h.inGrid⟩
  have hf := h.from_ l hl
  have he : (floorplan s l).map strip = (floorplan s' l).map strip := by
    have h1 := congrArg (fun L => L.getD l []) hg
    simp only [geom, List.getD_eq_getElem?_getD, List.getElem?_map] at h1
    unfold floorplan
    simp only [List.getD_eq_getElem?_getD]
    cases ha : s.flps[l]? <;> cases hb : s'.flps[l]? <;> rw [ha, hb] at h1 <;> simpa using h1
  generalize floorplan s l = A at hf he
  generalize floorplan s' l = B at he
  clear hg h
  generalize raws l = R at hf
  induction hf generalizing B with
  | nil => cases B with
    | nil => exact .nil
    | cons b B => simp at he
  | cons hx _ ih =>
    cases B with
    | nil => simp at he
    | cons b B =>
      simp only [List.map_cons, List.cons.injEq] at he
      exact .cons (strip_from he.1 hx) (ih B he.2)

theorem readFrom_run {cfg : Cfg K π} {raws : Nat → List (RawEl K)} {s : Sim K π} (h : ReadFrom cfg.d raws s) (ops : List (Op K)) :
    ReadFrom cfg.d raws (run cfg ops s).2 := readFrom_geom h (geom_run cfg ops s).symm

theorem readFrom_step {cfg : Cfg K π} {raws : Nat → List (RawEl K)} {s : Sim K π} (h : ReadFrom cfg.d raws s) :
    ReadFrom cfg.d raws (emulateStep cfg s).2 := readFrom_run h [.step]

/-- The sources of a step at the beginning of a slot. -/
theorem slot_at {cfg : Cfg K π} {raws : Nat → List (RawEl K)} {s : Sim K π} (hg : Good cfg s) (hf : ReadFrom cfg.d raws s) {l r c : Nat}
    (hl : l < cfg.d.nLayers) (hr : r < cfg.d.nRows) (hc : c < cfg.d.nCols) :
    (slotSources cfg.d s).getD (offInStack cfg.d l r c) 0 =
      powerIn cfg.d (raws l) (floorplan s l) r c + sinkTerm s.g cfg.d l r c + inletTerm s.g cfg.d l r c := by
  rw [slotSources_at hg (hf.inside hg) hl hr hc]
  congr 2
  have hWa : cfg.d.nRows * cfg.d.nCols < W := by
    obtain ⟨a, -, b⟩ := wf_chip hg.wf
    have : cfg.d.nRows * cfg.d.nCols ≤ chip cfg.d := Nat.le_mul_of_pos_left _ hg.wf.L1
    omega
  exact (zip_weights hf.grid hWa (hf.from_ l hl) (hf.inGrid l hl)).1 r c hr hc

/-- Every power value still to be used satisfies `P`. -/
def Powers (P : K → Prop) (s : Sim K π) : Prop := ∀ e ∈ elements s, ∀ v ∈ e.powers, P v

theorem powers_pushEach {P : K → Prop} (es : List (FlpEl K)) (vs : List K) (h : ∀ e ∈ es, ∀ v ∈ e.powers, P v) (hv : ∀ v ∈ vs, P v) :
    ∀ e ∈ pushEach es vs, ∀ v ∈ e.powers, P v := by
  induction es generalizing vs with
  | nil => intro e he; simp [pushEach] at he
  | cons e es ih =>
    cases vs with
    | nil => exact h
    | cons v vs =>
      intro e' he'
      rw [pushEach] at he'
      rcases List.mem_cons.mp he' with rfl | he'
      · intro w hw
        simp only [List.mem_append, List.mem_singleton] at hw
        rcases hw with hw | rfl
        · exact h e (by simp) w hw
        · exact hv _ (by simp)
      · exact ih vs (fun e he => h e (by simp [he])) (fun v hh => hv v (by simp [hh])) e' he'

theorem powers_pop {P : K → Prop} {es : List (FlpEl K)} (h : ∀ e ∈ es, ∀ v ∈ e.powers, P v) : ∀ e ∈ es.map pop, ∀ v ∈ e.powers, P v := by
  intro e he v hv
  obtain ⟨e0, h0, rfl⟩ := List.mem_map.mp he
  exact h e0 h0 v (List.mem_of_mem_tail hv)

theorem powers_step {P : K → Prop} {cfg : Cfg K π} {s : Sim K π} (h : Good cfg s) (hp : Powers P s) : Powers P (emulateStep cfg s).2 := by
  obtain ⟨-, -, -, hc⟩ := step_spec (cfg := cfg) h.ready
  unfold Powers
  rcases hc with ⟨-, -, h2⟩ | ⟨-, -, -, -, -, -, h2⟩ | ⟨-, -, h2, -⟩
  · rw [h2]; exact hp
  · rw [h2]
    unfold popStart
    intro e he v hv
    rcases List.mem_append.mp he with he | he
    · refine powers_pop (fun e he => hp e ?_) e he v hv
      exact (List.takeWhile_sublist _).subset he
    · exact hp e ((List.dropWhile_sublist _).subset he) v hv
  · rw [h2]
    split
    · exact powers_pop hp
    · exact hp

theorem powers_next {P : K → Prop} (h0 : P 0) {s : Sim K π} (h : Powers P s) : ∀ l, ∀ e ∈ floorplan s l, P (next e) := by
  intro l e he
  have hm : e ∈ elements s := by
    unfold floorplan at he
    unfold elements
    cases ha : s.flps[l]? with
    | none => rw [List.getD_eq_getElem?_getD, ha] at he; simp at he
    | some o =>
      rw [List.getD_eq_getElem?_getD, ha] at he
      exact List.mem_flatMap.mpr ⟨o, List.mem_of_getElem? ha, he⟩
  unfold next
  cases hp : e.powers with
  | nil => exact h0
  | cons v vs => exact h e hm v (by rw [hp]; simp)

theorem powerIn_zero (d : Dims K) (raws : List (RawEl K)) {els : List (FlpEl K)} (h : ∀ e ∈ els, next e = 0) (r c : Nat) :
    powerIn d raws els r c = 0 := by
  unfold powerIn
  refine List.sum_eq_zero fun x hx => ?_
  obtain ⟨p, hp, rfl⟩ := List.mem_map.mp hx
  rw [h p.2 (List.of_mem_zip hp).2, zero_mul]

/-! ### Steady analysis -/

/-- A completed steady analysis: the equations it solved. -/
theorem steady_eq {cfg : Cfg K π} {s : Sim K π} (h : Good cfg s) (hc : Correct cfg) (hp : ∀ e ∈ elements s, e.powers ≠ [])
    (hs : (emulateSteady cfg s).1 = .endOfSimulation) :
    cfg.an.type = .steady ∧ spreaderOf s.g = none ∧ (emulateSteady cfg s).2.temps.length = cfg.d.nCells ∧
    (emulateSteady cfg s).2.sources = slotSources cfg.d s ∧
    Solves cfg.d.nCells (fillMatrix s.g cfg.an.ana cfg.d).entry (fun i => (emulateSteady cfg s).2.temps.getD i 0)
      (fun i => (slotSources cfg.d s).getD i 0) := by
  by_cases ht : cfg.an.type = .steady
  · refine ⟨ht, ?_⟩
    have hu := updateSource_ok h.ready cfg.d hp
    have hno : spreaderOf s.g = none ∧ emulateSteady cfg s =
        (match cfg.solve s.mat (fillSystemVectorSteady cfg (updateSourceVector cfg.d s).1) with
        | none => (.solverError, { (updateSourceVector cfg.d s).1 with temps := fillSystemVectorSteady cfg (updateSourceVector cfg.d s).1 })
        | some x => (.endOfSimulation, { (updateSourceVector cfg.d s).1 with temps := x })) := by
      unfold emulateSteady at hs ⊢
      rw [if_neg (by simp [ht])] at hs ⊢
      have hm : (updateSourceVector cfg.d s).1.mat = s.mat := rfl
      cases htop : s.g.top with
      | none =>
        refine ⟨by simp [spreaderOf, htop], ?_⟩
        simp only [hu, if_true]
        generalize cfg.solve s.mat _ = o
        cases o <;> rfl
      | some t =>
        cases t with
        | ambient sk =>
          refine ⟨by simp [spreaderOf, htop], ?_⟩
          simp only [hu, if_true]
          generalize cfg.solve s.mat _ = o
          cases o <;> rfl
        | pluggable sp m => rw [htop] at hs; simp at hs
    obtain ⟨hno, he⟩ := hno
    have hsrc : (updateSourceVector cfg.d s).1.sources = slotSources cfg.d s := by rw [hu]
    have hn : cfg.d.nCells = (lastLayer cfg.d + 1) * ((lastRow cfg.d + 1) * (lastColumn cfg.d + 1)) := by
      rw [wf_lastRow h.wf, wf_lastCol h.wf, wf_lastLayer h.wf, (wf_chip h.wf).2.1, hno]; rfl
    have hb : ∀ i, i < cfg.d.nCells →
        (fillSystemVectorSteady cfg (updateSourceVector cfg.d s).1).getD i 0 = (slotSources cfg.d s).getD i 0 := by
      intro i hi
      unfold fillSystemVectorSteady
      rw [hsrc, ← hn]
      simp only [List.getD_eq_getElem?_getD]
      rw [List.getElem?_append_left (by simpa using hi), List.getElem?_map, List.getElem?_range hi]
      rfl
    rw [he] at hs ⊢
    generalize (updateSourceVector cfg.d s).1 = s1 at *
    generalize fillSystemVectorSteady cfg s1 = b at *
    cases hsol : cfg.solve s.mat b with
    | none => rw [hsol] at hs; simp at hs
    | some x =>
      simp only
      obtain ⟨a1, a2⟩ := hc _ _ _ hsol
      refine ⟨hno, a1, hsrc, ?_⟩
      rw [← h.mat]
      intro i hi
      rw [a2 i hi]
      exact hb i hi
  · rw [emulateSteady, if_pos ht] at hs; simp at hs

end Verif.Emu
