import Verif.Lemmas.Sources
import Verif.Props.Floorplan

/-! What holds in every reachable state of a simulation: the matrix and the stored coefficients are those of the grid, the
vectors have one component per cell. -/

set_option linter.unusedSectionVars false
set_option linter.unusedSimpArgs false
set_option linter.unusedVariables false

namespace Verif.Emu
open Verif.Dim Verif.TG Verif.SM Verif.Flp Verif.Stk

variable {K : Type} [Field K] [LinearOrder K] [IsStrictOrderedRing K] {π : Type}

theorem withFlow_wf {g : TGrid K} {d : Dims K} (f : K) (h : WF g d) : WF (withFlow g f) d := by
  have hm : chModel (withFlow g f) = chModel g := by
    unfold chModel withFlow; cases g.channel <;> rfl
  exact ⟨h.acc, h.nl, h.L1, h.hlen, h.llen, h.chain, h.first, h.last, h.amb, h.spr, h.pcb,
    fun l hl => by rw [hm]; exact h.mdl l hl, h.lay, h.geo⟩

theorem chan_withFlow (g : TGrid K) (f : K) (k : Channel K → K)
    (h : ∀ ch : Channel K, k { ch with coolant := { ch.coolant with flowRate := f } } = k ch) : chan (withFlow g f) k = chan g k := by
  unfold chan withFlow; cases g.channel <;> simp [h]

theorem capacity_withFlow (g : TGrid K) (d : Dims K) (f : K) (l r c : Nat) : capacity (withFlow g f) d l r c = capacity g d l r c := by
  unfold capacity
  have e1 : chan (withFlow g f) (fun ch => ch.coolant.vhc) = chan g (fun ch => ch.coolant.vhc) := chan_withFlow g f _ fun _ => rfl
  have e2 : chan (withFlow g f) (fun ch => ch.porosity) = chan g (fun ch => ch.porosity) := chan_withFlow g f _ fun _ => rfl
  simp only [e1, e2]
  rfl

theorem gTop_withFlow (g : TGrid K) (d : Dims K) (f : K) (l r c : Nat) : gTop (withFlow g f) d l r c = gTop g d l r c := by
  unfold gTop
  have e1 : chan (withFlow g f) (fun ch => ch.coolant.htcTop) = chan g (fun ch => ch.coolant.htcTop) := chan_withFlow g f _ fun _ => rfl
  have e2 : chan (withFlow g f) (fun ch => ch.porosity) = chan g (fun ch => ch.porosity) := chan_withFlow g f _ fun _ => rfl
  have e3 : chan (withFlow g f) (fun ch => ch.effInline ch.coolant.darcy) = chan g (fun ch => ch.effInline ch.coolant.darcy) :=
    chan_withFlow g f _ fun _ => rfl
  have e4 : chan (withFlow g f) (fun ch => ch.effStag ch.coolant.darcy) = chan g (fun ch => ch.effStag ch.coolant.darcy) :=
    chan_withFlow g f _ fun _ => rfl
  simp only [e1, e2, e3, e4]
  rfl

theorem gBottom_withFlow (g : TGrid K) (d : Dims K) (f : K) (l r c : Nat) : gBottom (withFlow g f) d l r c = gBottom g d l r c := by
  unfold gBottom
  have e1 : chan (withFlow g f) (fun ch => ch.coolant.htcBottom) = chan g (fun ch => ch.coolant.htcBottom) := chan_withFlow g f _ fun _ => rfl
  have e2 : chan (withFlow g f) (fun ch => ch.porosity) = chan g (fun ch => ch.porosity) := chan_withFlow g f _ fun _ => rfl
  have e3 : chan (withFlow g f) (fun ch => ch.effInline ch.coolant.darcy) = chan g (fun ch => ch.effInline ch.coolant.darcy) :=
    chan_withFlow g f _ fun _ => rfl
  have e4 : chan (withFlow g f) (fun ch => ch.effStag ch.coolant.darcy) = chan g (fun ch => ch.effStag ch.coolant.darcy) :=
    chan_withFlow g f _ fun _ => rfl
  simp only [e1, e2, e3, e4]
  rfl

theorem capList_withFlow (g : TGrid K) (d : Dims K) (f : K) : capList (withFlow g f) d = capList g d := by
  unfold capList
  simp only [capacity_withFlow]
  rfl

theorem topList_withFlow (g : TGrid K) (d : Dims K) (f : K) : topList (withFlow g f) d = topList g d := by
  unfold topList
  simp only [gTop_withFlow]
  rfl

theorem botList_withFlow (g : TGrid K) (d : Dims K) (f : K) : botList (withFlow g f) d = botList g d := by
  unfold botList
  simp only [gBottom_withFlow]
  rfl

/-! ### Lengths -/

theorem updateFrom_length (g : TGrid K) (d : Dims K) (tt bt : List K) (n l off : Nat) (fs : List (Option (List (FlpEl K)))) (x : List K) :
    (updateFrom g d tt bt n l off fs x).2.1.length = x.length := by
  have hfill : ∀ l off fs x, (fillLayer d l off fs x).2.1.length = x.length := by
    intro l off fs x
    unfold fillLayer fillSourcesFlp
    simp only
    cases takePowers (flpAt fs l) with
    | mk a b => cases b <;> simp [multiply_length]
  have hlay : ∀ l off fs x, (updateLayer g d tt bt l off fs x).2.1.length = x.length := by
    intro l off fs x
    unfold updateLayer
    cases typeAt g l <;> simp [hfill, addAmbient_length, setInlet_length]
  induction n generalizing l off fs x with
  | zero => rfl
  | succ n ih =>
    rw [updateFrom]
    split
    · rw [ih, hlay]
    · exact hlay _ _ _ _

/-- Number of cells of the stack, without the spreader. -/
def chip (d : Dims K) : Nat := d.nLayers * (d.nRows * d.nCols)

/-- What every reachable state satisfies. -/
structure Good (cfg : Cfg K π) (s : Sim K π) : Prop where
  ready : Ready s
  wf : WF s.g cfg.d
  mat : s.mat = fillMatrix s.g cfg.an.ana cfg.d
  caps : s.caps = capList s.g cfg.d
  top : s.topTcs = topList s.g cfg.d
  bot : s.botTcs = botList s.g cfg.d
  len : s.sources.length = cfg.d.nCells

theorem wf_area {g : TGrid K} {d : Dims K} (wf : WF g d) : area d = d.nRows * d.nCols := by
  obtain ⟨h1, h2, -⟩ := accepted_bound wf.acc
  have := Nat.le_mul_of_pos_left (d.nRows * d.nCols) wf.L1
  exact Nat.mod_eq_of_lt (by unfold W; omega)

theorem wf_chip {g : TGrid K} {d : Dims K} (wf : WF g d) : chip d ≤ d.nCells ∧ d.nCells = chip d + spreaderCells (spreaderOf g) ∧ d.nCells < W := by
  obtain ⟨h1, h2, h3⟩ := accepted_bound wf.acc
  exact ⟨h1, h3, by unfold W; omega⟩

theorem wf_lastCol {g : TGrid K} {d : Dims K} (wf : WF g d) : lastColumn d + 1 = d.nCols := by
  have := wf.acc.cols; rw [wf.lastColumn]; omega
theorem wf_lastRow {g : TGrid K} {d : Dims K} (wf : WF g d) : lastRow d + 1 = d.nRows := by
  have := wf.acc.rows; rw [wf.lastRow]; omega
theorem wf_lastLayer {g : TGrid K} {d : Dims K} (wf : WF g d) : lastLayer d + 1 = d.nLayers := by
  have := wf.L1; rw [wf.lastLayer]; omega

theorem wf_colArea {g : TGrid K} {d : Dims K} (wf : WF g d) : lastColumn d + 1 ≤ area d := by
  rw [wf_lastCol wf, wf_area wf]; exact Nat.le_mul_of_pos_left _ wf.acc.rows

/-- Position of a cell of the stack. -/
theorem wf_off {g : TGrid K} {d : Dims K} (wf : WF g d) {l r c : Nat} (hl : l < d.nLayers) (hr : r < d.nRows) (hc : c < d.nCols) :
    offInStack d l r c = l * area d + (r * d.nCols + c) ∧ r * d.nCols + c < area d ∧ offInLayer d r c = r * d.nCols + c ∧
      offInStack d l r c < chip d := by
  have hA := wf_area wf
  obtain ⟨h1, -, h3⟩ := wf_chip wf
  have hin : r * d.nCols + c < d.nRows * d.nCols := by
    have : (r + 1) * d.nCols ≤ d.nRows * d.nCols := Nat.mul_le_mul_right _ hr
    have e : (r + 1) * d.nCols = r * d.nCols + d.nCols := by ring
    omega
  have hst : l * area d + (r * d.nCols + c) < chip d := by
    have : (l + 1) * area d ≤ d.nLayers * area d := Nat.mul_le_mul_right _ hl
    have e : (l + 1) * area d = l * area d + area d := by ring
    unfold chip
    rw [hA] at *; omega
  have hWa : d.nRows * d.nCols < W := by
    have : d.nRows * d.nCols ≤ chip d := Nat.le_mul_of_pos_left _ wf.L1
    omega
  have hol : offInLayer d r c = r * d.nCols + c := (offInLayer_eq hWa hr hc).1
  have : offInStack d l r c = l * area d + (r * d.nCols + c) := by
    unfold offInStack
    rw [hol]
    exact Nat.mod_eq_of_lt (show l * area d + _ < W by omega)
  exact ⟨this, by rw [hA]; exact hin, hol, by rw [this]; exact hst⟩

theorem spreaderOffset_zero {g : TGrid K} {d : Dims K} (wf : WF g d) (sp : Spreader K) : spreaderOffset d sp 0 0 = chip d := by
  obtain ⟨h1, -, h3⟩ := wf_chip wf
  unfold spreaderOffset chip at *
  rw [Nat.zero_mul, Nat.add_zero, Nat.mul_assoc]
  exact Nat.mod_eq_of_lt (by omega)

theorem pluggable_sources {cfg : Cfg K π} {s : Sim K π} (wf : WF s.g cfg.d) (hl : s.sources.length = cfg.d.nCells) :
    (pluggable cfg s).1.sources.length = cfg.d.nCells ∧ ∀ j, j < chip cfg.d → (pluggable cfg s).1.sources.getD j 0 = s.sources.getD j 0 := by
  unfold pluggable
  split
  · next sp m htop =>
    rw [spreaderOffset_zero wf]
    simp only
    split
    · exact ⟨hl, fun _ _ => rfl⟩
    · next p q _ =>
      obtain ⟨h1, h2, -⟩ := wf_chip wf
      have hsp : spreaderCells (spreaderOf s.g) = sp.nRows * sp.nCols := by simp [spreaderOf, htop, spreaderCells]
      refine ⟨?_, ?_⟩
      · simp only [List.length_append, List.length_take, List.length_map, List.length_range, hl]
        omega
      · intro j hj
        simp only
        rw [getD_append_left _ _ _ _ (by simp [hl]; omega)]
        simp [List.getD_eq_getElem?_getD, List.getElem?_take, hj]
  · exact ⟨hl, fun _ _ => rfl⟩

theorem finish_sources (cfg : Cfg K π) (s : Sim K π) : (finishStep cfg s).2.sources = (pluggable cfg s).1.sources ∧
    (finishStep cfg s).2.caps = s.caps ∧ (finishStep cfg s).2.topTcs = s.topTcs ∧ (finishStep cfg s).2.botTcs = s.botTcs := by
  have hk : (pluggable cfg s).1.caps = s.caps ∧ (pluggable cfg s).1.topTcs = s.topTcs ∧ (pluggable cfg s).1.botTcs = s.botTcs := by
    unfold pluggable
    split
    · simp only; split <;> exact ⟨rfl, rfl, rfl⟩
    · exact ⟨rfl, rfl, rfl⟩
  cases hpl : pluggable cfg s with
  | mk s1 ok =>
    rw [hpl] at hk
    simp only at hk
    cases ok with
    | false => rw [finish_plugin hpl]; exact ⟨rfl, hk⟩
    | true =>
      cases hs : cfg.solve s1.mat (fillSystemVector cfg s1) with
      | none => obtain ⟨b, hb⟩ := finish_solver hpl hs; rw [hb]; exact ⟨rfl, hk⟩
      | some x => rw [finish_ok hpl hs]; exact ⟨rfl, hk⟩

theorem good_finish {cfg : Cfg K π} {s : Sim K π} (h : Good cfg s) : Good cfg (finishStep cfg s).2 ∧
    ∀ j, j < chip cfg.d → (finishStep cfg s).2.sources.getD j 0 = s.sources.getD j 0 := by
  obtain ⟨f1, f2, f3, -⟩ := finishStep_cases cfg s
  obtain ⟨k1, k2, k3, k4⟩ := finish_sources cfg s
  obtain ⟨p1, p2⟩ := pluggable_sources h.wf h.len
  generalize (finishStep cfg s).2 = s2 at *
  refine ⟨⟨h.ready.congr (by rw [f2]) (by rw [f2]) (by rw [f1]), ?_, ?_, ?_, ?_, ?_, ?_⟩, ?_⟩
  · rw [f2]; exact h.wf
  · rw [f3, f2]; exact h.mat
  · rw [k2, f2]; exact h.caps
  · rw [k3, f2]; exact h.top
  · rw [k4, f2]; exact h.bot
  · rw [k1]; exact p1
  · intro j hj; rw [k1]; exact p2 j hj

theorem good_sources {cfg : Cfg K π} {s : Sim K π} (h : Good cfg s) (fs : List (Option (List (FlpEl K)))) (x : List K)
    (hf : fs.map Option.isSome = s.flps.map Option.isSome) (hx : x.length = cfg.d.nCells) :
    Good cfg { s with flps := fs, sources := x } :=
  ⟨h.ready.congr rfl rfl hf, h.wf, h.mat, h.caps, h.top, h.bot, hx⟩

theorem slotSources_length (d : Dims K) (s : Sim K π) : (slotSources d s).length = d.nCells := by
  unfold slotSources; rw [layersAdd_length, List.length_replicate]

theorem updateSource_length (d : Dims K) (s : Sim K π) : (updateSourceVector d s).1.sources.length = d.nCells := by
  unfold updateSourceVector
  simp only
  rw [updateFrom_length, List.length_replicate]

/-- The state from which a step at the beginning of a slot goes on. -/
def slotStart (cfg : Cfg K π) (s : Sim K π) : Sim K π :=
  { s with flps := s.flps.map (Option.map (List.map pop)), sources := slotSources cfg.d s }

theorem good_start {cfg : Cfg K π} {s : Sim K π} (h : Good cfg s) : Good cfg (slotStart cfg s) :=
  good_sources h _ _ (isSome_map_pop _) (slotSources_length _ _)

theorem good_step {cfg : Cfg K π} {s : Sim K π} (h : Good cfg s) : Good cfg (emulateStep cfg s).2 := by
  by_cases ht : cfg.an.type = .transient
  · by_cases hb : s.time % cfg.an.slotLength = 0
    · by_cases hp : ∃ e ∈ elements s, e.powers = []
      · obtain ⟨fs, x, e1, e2, -⟩ := updateSource_fail h.ready cfg.d hp
        have hx : x.length = cfg.d.nCells := by
          have := updateSource_length cfg.d s; rw [e1] at this; exact this
        have : emulateStep cfg s = (.endOfSimulation, { s with flps := fs, sources := x }) := by
          simp [emulateStep, ht, slotCompleted, hb, e1]
        rw [this]
        exact good_sources h fs x e2 hx
      · rw [step_start h.ready ht hb fun e he hh => hp ⟨e, he, hh⟩]
        exact (good_finish (good_start h)).1
    · rw [step_inside ht hb]; exact (good_finish h).1
  · have : emulateStep cfg s = (.wrongConfig, s) := by simp [emulateStep, ht]
    rw [this]; exact h

theorem good_flow {cfg : Cfg K π} {s : Sim K π} (h : Good cfg s) (f : K) : Good cfg (updateFlow cfg s f).1 := by
  have hr := ready_exec (cfg := cfg) h.ready (.flow f)
  simp only [exec] at hr
  have hg : (updateFlow cfg s f).1.g = withFlow s.g (flowToUm3 f) ∧
      (updateFlow cfg s f).1.mat = fillMatrix (withFlow s.g (flowToUm3 f)) cfg.an.ana cfg.d ∧
      (updateFlow cfg s f).1.caps = s.caps ∧ (updateFlow cfg s f).1.topTcs = s.topTcs ∧ (updateFlow cfg s f).1.botTcs = s.botTcs ∧
      (updateFlow cfg s f).1.sources.length = s.sources.length := by
    unfold updateFlow
    simp only
    split
    · exact ⟨rfl, rfl, rfl, rfl, rfl, channelFrom_length _ _ _ _ _ _⟩
    · exact ⟨rfl, rfl, rfl, rfl, rfl, rfl⟩
  obtain ⟨g1, g2, g3, g4, g5, g6⟩ := hg
  refine ⟨hr, ?_, ?_, ?_, ?_, ?_, ?_⟩
  · rw [g1]; exact withFlow_wf _ h.wf
  · rw [g2, g1]
  · rw [g3, g1, capList_withFlow]; exact h.caps
  · rw [g4, g1, topList_withFlow]; exact h.top
  · rw [g5, g1, botList_withFlow]; exact h.bot
  · rw [g6]; exact h.len

theorem good_exec {cfg : Cfg K π} {s : Sim K π} (h : Good cfg s) (o : Op K) : Good cfg (exec cfg o s).2 := by
  cases o with
  | step => exact good_step h
  | insert vs =>
    obtain ⟨fs, e1, e2, -⟩ := insert_spec h.ready vs
    simp only [exec, e1]
    exact ⟨h.ready.congr rfl rfl e2, h.wf, h.mat, h.caps, h.top, h.bot, h.len⟩
  | reset => exact ⟨h.ready.congr rfl rfl rfl, h.wf, h.mat, h.caps, h.top, h.bot, h.len⟩
  | flow f => exact good_flow h f

theorem good_run {cfg : Cfg K π} (ops : List (Op K)) {s : Sim K π} (h : Good cfg s) : Good cfg (run cfg ops s).2 := by
  induction ops generalizing s with
  | nil => exact h
  | cons o os ih => exact ih (good_exec h o)

theorem started_good {cfg : Cfg K π} {rs : List (Raw K (List (FlpEl K)))} {s : Sim K π} (h : Started cfg rs s) : Good cfg s := by
  obtain ⟨h1, -, -, -, h5, h6, h7, h8, h9⟩ := started_spec h
  obtain ⟨d0, decl, p, q, hb, hd, hs⟩ := h
  refine ⟨h1, ?_, h5, h6, h7, h8, by rw [h9, List.length_replicate]⟩
  rw [hd]; exact wf_of_built hb.built

theorem reachable_good {cfg : Cfg K π} {s : Sim K π} (h : Reachable cfg s) : Good cfg s := by
  obtain ⟨rs, s0, ops, h1, h2⟩ := h
  rw [← h2]; exact good_run ops (started_good h1)

theorem geom_run (cfg : Cfg K π) (ops : List (Op K)) (s : Sim K π) : geom (run cfg ops s).2.flps = geom s.flps := by
  induction ops generalizing s with
  | nil => rfl
  | cons o os ih => rw [run]; simp only; rw [ih, geom_exec]

/-! ### The stored coefficients -/

theorem grid_getD {f : Nat → Nat → K} {a b r c : Nat} (hr : r < a) (hc : c < b) :
    ((List.range a).flatMap fun r => (List.range b).map fun c => f r c).getD (r * b + c) 0 = f r c := by
  induction a with
  | zero => omega
  | succ a ih =>
    have hlen : ∀ a, ((List.range a).flatMap fun r => (List.range b).map fun c => f r c).length = a * b := by
      intro a
      rw [List.length_flatMap]
      simp
    rw [List.range_succ, List.flatMap_append, List.flatMap_cons, List.flatMap_nil, List.append_nil]
    by_cases h : r < a
    · rw [getD_append_left _ _ _ _ (by
        rw [hlen]
        have : (r + 1) * b ≤ a * b := Nat.mul_le_mul_right _ h
        have e : (r + 1) * b = r * b + b := by ring
        omega)]
      exact ih h
    · have : r = a := by omega
      subst this
      rw [getD_append_right' _ _ _ _ (by rw [hlen]; omega), hlen, Nat.add_sub_cancel_left]
      simp [List.getD_eq_getElem?_getD, hc]

theorem top_getD {g : TGrid K} {d : Dims K} (wf : WF g d) {r c : Nat} (hr : r < d.nRows) (hc : c < d.nCols) :
    (topList g d).getD (r * d.nCols + c) 0 = match g.top with
      | some (.ambient _) => gTop g d (d.nLayers - 1) r c
      | _ => 0 := by
  unfold topList
  rw [wf_lastRow wf, wf_lastCol wf, wf.lastLayer]
  exact grid_getD hr hc

theorem bot_getD {g : TGrid K} {d : Dims K} (wf : WF g d) {r c : Nat} (hr : r < d.nRows) (hc : c < d.nCols) :
    (botList g d).getD (r * d.nCols + c) 0 = match g.bottom with
      | some _ => gBottom g d 0 r c
      | none => 0 := by
  unfold botList
  rw [wf_lastRow wf, wf_lastCol wf]
  exact grid_getD hr hc

/-- Heat capacity of a cell. -/
def capOf (g : TGrid K) (d : Dims K) : Cell → K
  | .box l r c => capacity g d l r c
  | .spr _ _ => match g.top with
    | some (.pluggable s m) => sprCapacity s m
    | _ => 0

theorem caps_getD {g : TGrid K} {d : Dims K} (wf : WF g d) {p : Cell} (hp : Valid g d p) :
    (capList g d).getD (offset d (spreaderOf g) p) 0 = capOf g d p := by
  have hlen : ((List.range d.nLayers).flatMap fun l => (List.range d.nRows).flatMap fun r => (List.range d.nCols).map fun c =>
      capacity g d l r c).length = chip d := by
    rw [List.length_flatMap]
    simp [List.length_flatMap, chip]
  unfold capList
  rw [wf_lastRow wf, wf_lastCol wf, wf_lastLayer wf]
  cases p with
  | box l r c =>
    obtain ⟨hl, hr, hc⟩ := hp
    obtain ⟨o1, o2, -, o4⟩ := wf_off wf hl hr hc
    show List.getD _ (offInStack d l r c) 0 = _
    rw [getD_append_left _ _ _ _ (by rw [hlen]; exact o4), o1, wf_area wf]
    have hflat : ∀ n, ((List.range n).flatMap fun l => (List.range d.nRows).flatMap fun r => (List.range d.nCols).map fun c => capacity g d l r c) =
        ((List.range n).flatMap fun l => (List.range (d.nRows * d.nCols)).map fun k => capacity g d l (k / d.nCols) (k % d.nCols)) := by
      intro n
      congr 1; funext l
      rw [← flatMap_range d.nRows d.nCols, List.map_flatMap]
      have hpos := wf.acc.cols
      refine List.flatMap_congr fun r _ => ?_
      rw [List.map_map]
      refine List.map_congr_left fun c hc => ?_
      rw [List.mem_range] at hc
      have e1 : (r * d.nCols + c) / d.nCols = r := by rw [Nat.mul_comm, Nat.mul_add_div hpos, Nat.div_eq_of_lt hc]; rfl
      have e2 : (r * d.nCols + c) % d.nCols = c := by rw [Nat.mul_comm, Nat.mul_add_mod, Nat.mod_eq_of_lt hc]
      simp only [Function.comp_apply, e1, e2]
    rw [hflat, grid_getD (f := fun l k => capacity g d l (k / d.nCols) (k % d.nCols)) hl (by rw [← wf_area wf]; exact o2)]
    have hpos := wf.acc.cols
    have e1 : (r * d.nCols + c) / d.nCols = r := by rw [Nat.mul_comm, Nat.mul_add_div hpos, Nat.div_eq_of_lt hc]; rfl
    have e2 : (r * d.nCols + c) % d.nCols = c := by rw [Nat.mul_comm, Nat.mul_add_mod, Nat.mod_eq_of_lt hc]
    simp only [e1, e2, capOf]
  | spr r c =>
    obtain ⟨s, m, ht, hr, hc⟩ := hp
    have hso : spreaderOf g = some s := by simp [spreaderOf, ht]
    obtain ⟨h1, h2, h3⟩ := wf_chip wf
    have hin : r * s.nCols + c < s.nRows * s.nCols := by
      have : (r + 1) * s.nCols ≤ s.nRows * s.nCols := Nat.mul_le_mul_right _ hr
      have e : (r + 1) * s.nCols = r * s.nCols + s.nCols := by ring
      omega
    have hsc : spreaderCells (spreaderOf g) = s.nRows * s.nCols := by rw [hso]; rfl
    have ho : offset d (spreaderOf g) (.spr r c) = chip d + (r * s.nCols + c) := by
      rw [hso]
      show spreaderOffset d s r c = _
      unfold spreaderOffset
      rw [Nat.mod_eq_of_lt]
      · unfold chip; rw [Nat.mul_assoc, Nat.add_assoc]
      · unfold chip at *; rw [Nat.mul_assoc]; omega
    rw [ho, getD_append_right' _ _ _ _ (by rw [hlen]; omega), hlen, Nat.add_sub_cancel_left]
    simp only [ht, capOf]
    exact grid_getD (f := fun _ _ => sprCapacity s m) hr hc

end Verif.Emu
