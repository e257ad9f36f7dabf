import Verif.Lemmas.State
import Verif.Props.Slots
import Verif.Lemmas.Demo

/-! C42 (and the last part of C09): the sources of a slot; C40: changing the flow rate. -/

set_option linter.unusedSectionVars false
set_option linter.unusedSimpArgs false
set_option linter.unusedVariables false

namespace Verif.Emu
open Verif.Dim Verif.TG Verif.SM Verif.Flp Verif.Stk

variable {K : Type} [Field K] [LinearOrder K] [IsStrictOrderedRing K] {π : Type}

/-! ### Specification -/

/-- The floorplan elements in layer `l`. -/
def floorplan (s : Sim K π) (l : Nat) : List (FlpEl K) := (s.flps.getD l none).getD []

/-- Heat entering cell `(l, r, c)` from the ambient if the cell is at temperature 0: conductance of the sink times ambient temperature. -/
def sinkTerm (g : TGrid K) (d : Dims K) (l r c : Nat) : K :=
  match typeAt g l with
  | .solidAmb | .sourceAmb => topAmb g * gTop g d l r c
  | .solidPcb | .sourcePcb => botAmb g * gBottom g d l r c
  | _ => 0

open Classical in
/-- Heat entering cell `(l, r, c)` with the coolant: only in the first row of the coolant cells. -/
noncomputable def inletTerm (g : TGrid K) (d : Dims K) (l r c : Nat) : K :=
  if r = 0 ∧ IsCoolant g l c then 2 * convective g d l c * chan g (·.coolant.tIn) else 0

/-- The value of the source vector at a cell of the stack. -/
def sourceAt (d : Dims K) (s : Sim K π) (l r c : Nat) : K := s.sources.getD (offInStack d l r c) 0

/-- `k` steps in a row. -/
def steps (cfg : Cfg K π) (k : Nat) (s : Sim K π) : List SimResult × Sim K π := run cfg (List.replicate k .step) s

/-! ### Proofs -/

theorem coolant_iff {g : TGrid K} {d : Dims K} (wf : WF g d) {l c : Nat} (hl : l < d.nLayers) :
    IsCoolant g l c ↔ isCh (typeAt g l) = true ∧ chanCol g c = true := by
  have hm := wf.mdl l hl
  unfold IsCoolant chanCol
  revert hm
  cases typeAt g l <;> simp +contextual [isCh, modelOk, isChannelCol]

/-- The general formula, with the coefficients computed for the elements. -/
theorem slotSources_at {cfg : Cfg K π} {s : Sim K π} (h : Good cfg s) (hin : Inside cfg.d s.flps) {l r c : Nat}
    (hl : l < cfg.d.nLayers) (hr : r < cfg.d.nRows) (hc : c < cfg.d.nCols) :
    (slotSources cfg.d s).getD (offInStack cfg.d l r c) 0 =
      ((floorplan s l).map fun e => next e * weightAt (surface cfg.d e) (r * cfg.d.nCols + c)).sum +
        sinkTerm s.g cfg.d l r c + inletTerm s.g cfg.d l r c := by
  obtain ⟨o1, o2, -, o4⟩ := wf_off h.wf hl hr hc
  have hlen : s.flps.length = cfg.d.nLayers := h.ready.len.trans h.wf.nl
  have hA := wf_area h.wf
  obtain ⟨k1, -⟩ := layersAdd_getD s.g cfg.d s.topTcs s.botTcs (wf_colArea h.wf) s.flps 0 0 (List.replicate cfg.d.nCells 0) hin
    (by rw [hlen, hA, List.length_replicate, Nat.zero_add]; exact (wf_chip h.wf).1)
    (by intro j _; simp [List.getD_eq_getElem?_getD, List.getElem?_replicate]; split <;> rfl)
  have hg : s.flps[l]? = some (s.flps.getD l none) := by
    rw [List.getElem?_eq_getElem (by omega), List.getD_eq_getElem?_getD, List.getElem?_eq_getElem (by omega)]; rfl
  have := k1 l (r * cfg.d.nCols + c) _ hg o2
  rw [Nat.zero_add, Nat.zero_add, ← o1] at this
  unfold slotSources
  rw [this]
  unfold layerTerm
  have hok := h.ready.ok l _ hg
  rw [Nat.zero_add] at hok
  have h1 : (if isSrc (typeAt s.g l) then ((floorplan s l).map fun e => next e * weightAt (surface cfg.d e) (r * cfg.d.nCols + c)).sum else 0) =
      ((floorplan s l).map fun e => next e * weightAt (surface cfg.d e) (r * cfg.d.nCols + c)).sum := by
    by_cases hs : isSrc (typeAt s.g l) = true
    · rw [if_pos hs]
    · rw [if_neg hs]
      have : s.flps.getD l none = none := by
        have h2 := hok.2
        rw [Bool.not_eq_true] at hs
        rw [hs] at h2
        exact Option.isNone_iff_eq_none.mp (by rw [Option.isNone_iff_eq_none, ← Option.not_isSome_iff_eq_none, ← h2]; simp)
      unfold floorplan
      rw [this]; simp
  have h2 : (match typeAt s.g l with
      | .solidAmb | .sourceAmb => topAmb s.g * s.topTcs.getD (r * cfg.d.nCols + c) 0
      | .solidPcb | .sourcePcb => botAmb s.g * s.botTcs.getD (r * cfg.d.nCols + c) 0
      | .ch4rm | .ch2rm | .pfInline | .pfStag =>
        if r * cfg.d.nCols + c < lastColumn cfg.d + 1 ∧ chanCol s.g (r * cfg.d.nCols + c) = true then
          2 * convective s.g cfg.d l (r * cfg.d.nCols + c) * chan s.g (·.coolant.tIn) else 0
      | _ => 0) = sinkTerm s.g cfg.d l r c + inletTerm s.g cfg.d l r c := by
    have hinl : isCh (typeAt s.g l) = true → (if r * cfg.d.nCols + c < lastColumn cfg.d + 1 ∧ chanCol s.g (r * cfg.d.nCols + c) = true then
          2 * convective s.g cfg.d l (r * cfg.d.nCols + c) * chan s.g (·.coolant.tIn) else 0) = inletTerm s.g cfg.d l r c := by
      intro hch
      unfold inletTerm
      rw [wf_lastCol h.wf]
      by_cases h0 : r = 0
      · subst h0
        rw [Nat.zero_mul, Nat.zero_add]
        by_cases hcc : chanCol s.g c = true
        · rw [if_pos ⟨hc, hcc⟩, if_pos ⟨rfl, (coolant_iff h.wf hl).mpr ⟨hch, hcc⟩⟩]
        · rw [if_neg (fun h => hcc h.2), if_neg (fun h' => hcc ((coolant_iff h.wf hl).mp h'.2).2)]
      · have : cfg.d.nCols ≤ r * cfg.d.nCols := Nat.le_mul_of_pos_left _ (by omega)
        rw [if_neg (by omega), if_neg (fun h => h0 h.1)]
    have hno : isCh (typeAt s.g l) = false → inletTerm s.g cfg.d l r c = 0 := by
      intro hch
      unfold inletTerm
      rw [if_neg]
      intro h'
      have := ((coolant_iff h.wf hl).mp h'.2).1
      rw [hch] at this; cases this
    have htop : typeAt s.g l = .solidAmb ∨ typeAt s.g l = .sourceAmb →
        s.topTcs.getD (r * cfg.d.nCols + c) 0 = gTop s.g cfg.d l r c := by
      intro ht
      obtain ⟨e1, sk, e2⟩ := h.wf.amb l hl ht
      rw [h.top, top_getD h.wf hr hc, e2, e1]
    have hbot : typeAt s.g l = .solidPcb ∨ typeAt s.g l = .sourcePcb →
        s.botTcs.getD (r * cfg.d.nCols + c) 0 = gBottom s.g cfg.d l r c := by
      intro ht
      obtain ⟨e1, sk, e2⟩ := h.wf.pcb l hl ht
      rw [h.bot, bot_getD h.wf hr hc, e2, e1]
    unfold sinkTerm
    cases ht : typeAt s.g l <;> rw [ht] at hinl hno htop hbot <;> simp only [isCh] at hinl hno <;>
      first
      | (rw [hinl trivial, zero_add])
      | (rw [hno trivial, add_zero, htop (Or.inl rfl)])
      | (rw [hno trivial, add_zero, htop (Or.inr rfl)])
      | (rw [hno trivial, add_zero, hbot (Or.inl rfl)])
      | (rw [hno trivial, add_zero, hbot (Or.inr rfl)])
      | (rw [hno trivial, add_zero])
  rw [show (s.flps.getD l none).getD [] = floorplan s l from rfl, h1]
  rw [add_assoc]
  congr 1

/-- Elements read from rectangles inside a good grid only touch cells of their layer. -/
theorem inside_of_from {d : Dims K} (hg : GoodGrid d) (hW : d.nRows * d.nCols < W) {raw : RawEl K} {el : FlpEl K} (hf : From d raw el)
    (hin : ∀ e ∈ raw.rects, InGrid d e) : ∀ p ∈ surface d el, p.1 < d.nRows * d.nCols := by
  obtain ⟨el0, h0, h1, h2⟩ := hf
  have : surface d el = surface d el0 := by unfold surface; rw [h1, h2]
  rw [this]
  obtain ⟨-, hf, -, -, -⟩ := parse_el h0
  intro p hp
  unfold surface at hp
  rw [List.mem_flatMap] at hp
  obtain ⟨ic, hic, hp⟩ := hp
  have key : ∀ (L : List (Rect K)) (M : List (ICEl K)), List.Forall₂ (fun e ic => alignToGrid d e = some ic) L M → ic ∈ M →
      ∃ e ∈ L, alignToGrid d e = some ic := by
    intro L M h
    induction h with
    | nil => intro h; simp at h
    | cons hx _ ih =>
      intro h
      rcases List.mem_cons.mp h with rfl | h
      · exact ⟨_, by simp, hx⟩
      · obtain ⟨e, he, h⟩ := ih h
        exact ⟨e, by simp [he], h⟩
  obtain ⟨e, he, ha⟩ := key _ _ hf hic
  obtain ⟨ic', a1, a2, ⟨x1, x2, -⟩, y1, y2, -⟩ := align_spec hg (hin e he)
  rw [ha, Option.some.injEq] at a1
  subst a1
  rw [fillRows_eq d ic el0.area x1 _ _ _ le_rfl (by omega) (by simp)] at hp
  rw [List.mem_flatMap] at hp
  obtain ⟨r', hr', hp⟩ := hp
  obtain ⟨c', hc', rfl⟩ := List.mem_map.mp hp
  rw [List.mem_range'_1] at hr' hc'
  obtain ⟨o1, o2⟩ := offInLayer_eq hW (r := r') (c := c') (by omega) (by omega)
  simp only [o1]; exact o2

/-- The floorplans of a state were read from the rectangles `raws l`, inside a good grid. -/
structure ReadFrom (d : Dims K) (raws : Nat → List (RawEl K)) (s : Sim K π) : Prop where
  grid : GoodGrid d
  from_ : ∀ l, l < d.nLayers → List.Forall₂ (From d) (raws l) (floorplan s l)
  inGrid : ∀ l, l < d.nLayers → ∀ raw ∈ raws l, ∀ e ∈ raw.rects, InGrid d e

theorem ReadFrom.inside {cfg : Cfg K π} {raws : Nat → List (RawEl K)} {s : Sim K π} (h : ReadFrom cfg.d raws s) (hg : Good cfg s) :
    Inside cfg.d s.flps := by
  intro o ho e he p hp
  obtain ⟨l, hl, rfl⟩ := List.mem_iff_getElem.mp ho
  have hlen : s.flps.length = cfg.d.nLayers := hg.ready.len.trans hg.wf.nl
  have hf := h.from_ l (by omega)
  have e1 : floorplan s l = s.flps[l].getD [] := by
    unfold floorplan; rw [List.getD_eq_getElem?_getD, List.getElem?_eq_getElem hl]; rfl
  rw [e1] at hf
  obtain ⟨raw, hraw, hfr⟩ : ∃ raw ∈ raws l, From cfg.d raw e := by
    generalize raws l = L at hf
    generalize s.flps[l].getD [] = M at hf he
    induction hf with
    | nil => simp at he
    | cons hx _ ih =>
      rcases List.mem_cons.mp he with rfl | he
      · exact ⟨_, by simp, hx⟩
      · obtain ⟨raw, hr, h⟩ := ih he
        exact ⟨raw, by simp [hr], h⟩
  rw [wf_area hg.wf]
  refine inside_of_from h.grid ?_ hfr (h.inGrid l (by omega) raw hraw) p hp
  obtain ⟨a, -, b⟩ := wf_chip hg.wf
  have : cfg.d.nRows * cfg.d.nCols ≤ chip cfg.d := Nat.le_mul_of_pos_left _ hg.wf.L1
  omega

theorem run_snoc_step (cfg : Cfg K π) (k : Nat) (s : Sim K π) :
    steps cfg (k + 1) s = ((steps cfg k s).1 ++ [(emulateStep cfg (steps cfg k s).2).1], (emulateStep cfg (steps cfg k s).2).2) := by
  unfold steps
  rw [List.replicate_succ', run_append]
  rfl

theorem steps_good {cfg : Cfg K π} {s : Sim K π} (h : Good cfg s) (k : Nat) : Good cfg (steps cfg k s).2 := good_run _ h

theorem steps_time {cfg : Cfg K π} {s : Sim K π} (h : Good cfg s) (k : Nat) (hok : ∀ r ∈ (steps cfg k s).1, Succeeded r) (hW : s.time + k < W) :
    (steps cfg k s).2.time = s.time + k ∧ (steps cfg k s).1.length = k := by
  have hlen : ∀ k, (steps cfg k s).1.length = k := by
    intro k
    induction k with
    | zero => rfl
    | succ k ih => rw [run_snoc_step]; simp [ih]
  have hs : successes (steps cfg k s).1 = k := by
    unfold successes
    rw [List.countP_eq_length.mpr (fun r hr => by simpa using hok r hr), hlen]
  refine ⟨?_, hlen k⟩
  have := time_run (cfg := cfg) (List.replicate k .step) h.ready (by unfold steps at hs; rw [hs]; exact hW)
  unfold steps at hs ⊢
  rw [this, hs]

/-- **C09, C42** A step inside a slot does not change the sources of the cells of the stack, whatever it returns. -/
theorem C42_sources_kept_inside_slot {cfg : Cfg K π} {s : Sim K π} (h : Reachable cfg s) (hb : ¬ cfg.an.slotLength ∣ s.time) {l r c : Nat}
    (hl : l < cfg.d.nLayers) (hr : r < cfg.d.nRows) (hc : c < cfg.d.nCols) :
    sourceAt cfg.d (emulateStep cfg s).2 l r c = sourceAt cfg.d s l r c := by
  have hg := reachable_good h
  by_cases ht : cfg.an.type = .transient
  · rw [step_inside ht (fun h0 => hb (Nat.dvd_iff_mod_eq_zero.mpr h0))]
    exact (good_finish hg).2 _ (wf_off hg.wf hl hr hc).2.2.2
  · have : emulateStep cfg s = (.wrongConfig, s) := by simp [emulateStep, ht]
    rw [this]

/-- The sources after the first `k` steps of a slot. -/
theorem sources_in_slot {cfg : Cfg K π} {s : Sim K π} (hg : Good cfg s) (hb : cfg.an.slotLength ∣ s.time) :
    ∀ k, k + 1 ≤ cfg.an.slotLength → s.time + (k + 1) < W → (∀ r ∈ (steps cfg (k + 1) s).1, Succeeded r) →
    ∀ j, j < chip cfg.d → (steps cfg (k + 1) s).2.sources.getD j 0 = (slotSources cfg.d s).getD j 0 := by
  intro k
  induction k with
  | zero =>
    intro hk hW hok j hj
    have hm := Nat.dvd_iff_mod_eq_zero.mp hb
    have e0 : steps cfg 1 s = ([(emulateStep cfg s).1], (emulateStep cfg s).2) := rfl
    rw [e0] at hok ⊢
    have hs := hok (emulateStep cfg s).1 (by simp)
    obtain ⟨-, -, -, hc⟩ := step_spec (cfg := cfg) hg.ready
    rcases hc with ⟨h2, -⟩ | ⟨h2, -⟩ | ⟨ht, hp, -⟩
    · rw [h2] at hs; simp [Succeeded] at hs
    · rw [h2] at hs; simp [Succeeded] at hs
    · rw [step_start hg.ready ht hm (hp hm)]
      have := (good_finish (good_start hg)).2 j hj
      exact this
  | succ k ih =>
    intro hk hW hok j hj
    have hok' : ∀ r ∈ (steps cfg (k + 1) s).1, Succeeded r := by
      intro r hr; apply hok; rw [run_snoc_step]; simp [hr]
    rw [← ih (by omega) (by omega) hok' j hj]
    have ht := (steps_time hg (k + 1) hok' (by omega)).1
    have hgk := steps_good hg (k + 1)
    rw [run_snoc_step]
    generalize (steps cfg (k + 1) s).2 = s1 at *
    have hnb : s1.time % cfg.an.slotLength ≠ 0 := by
      rw [ht]
      obtain ⟨m, hm⟩ := hb
      rw [hm, Nat.mul_add_mod, Nat.mod_eq_of_lt (by omega)]; omega
    by_cases htr : cfg.an.type = .transient
    · simp only
      rw [step_inside htr hnb]; exact (good_finish hgk).2 j hj
    · have : emulateStep cfg s1 = (.wrongConfig, s1) := by simp [emulateStep, htr]
      rw [this]

/-- **C42** From a slot boundary of any reachable state, after each of the steps of the slot: the source of a cell is the power of the
elements of its layer, each weighted by the part of its area that lies in the cell, taken with the values consumed for this slot, plus
the terms of the ambient and of the coolant inlet. Nothing else enters, in particular nothing of earlier slots. -/
theorem C42_sources_of_the_slot {cfg : Cfg K π} {s : Sim K π} (h : Reachable cfg s) (hb : cfg.an.slotLength ∣ s.time)
    {raws : Nat → List (RawEl K)} (hf : ReadFrom cfg.d raws s)
    (k : Nat) (hk1 : 1 ≤ k) (hk : k ≤ cfg.an.slotLength) (hW : s.time + k < 2 ^ 32) (hok : ∀ r ∈ (steps cfg k s).1, Succeeded r)
    {l r c : Nat} (hl : l < cfg.d.nLayers) (hr : r < cfg.d.nRows) (hc : c < cfg.d.nCols) :
    sourceAt cfg.d (steps cfg k s).2 l r c =
      powerIn cfg.d (raws l) (floorplan s l) r c + sinkTerm s.g cfg.d l r c + inletTerm s.g cfg.d l r c := by
  have hg := reachable_good h
  obtain ⟨k, rfl⟩ : ∃ m, k = m + 1 := ⟨k - 1, by omega⟩
  unfold sourceAt
  rw [sources_in_slot hg hb k hk (by rw [W_eq]; exact hW) hok _ (wf_off hg.wf hl hr hc).2.2.2, slotSources_at hg (hf.inside hg) hl hr hc]
  congr 2
  have hWa : cfg.d.nRows * cfg.d.nCols < W := by
    obtain ⟨a, -, b⟩ := wf_chip hg.wf
    have : cfg.d.nRows * cfg.d.nCols ≤ chip cfg.d := Nat.le_mul_of_pos_left _ hg.wf.L1
    omega
  exact (zip_weights hf.grid hWa (hf.from_ l hl) (hf.inGrid l hl)).1 r c hr hc

theorem multiply_congr {d : Dims K} {off : Nat} {es es' : List (FlpEl K)} (h1 : es.map strip = es'.map strip) (h2 : es.map next = es'.map next)
    (x : List K) : multiply d off es (es.map next) x = multiply d off es' (es'.map next) x := by
  unfold multiply
  induction es generalizing es' x with
  | nil => cases es' with
    | nil => rfl
    | cons a b => simp at h1
  | cons e es ih =>
    cases es' with
    | nil => simp at h1
    | cons e' es' =>
      simp only [List.map_cons, List.cons.injEq] at h1 h2
      simp only [List.map_cons, List.zip_cons_cons, List.foldl_cons]
      rw [ih h1.2 h2.2, h2.1, show surface d e = surface d e' by rw [← surface_strip, h1.1, surface_strip]]

/-- The next values of the elements, layer by layer. -/
def nextValues (fs : List (Option (List (FlpEl K)))) : List (List K) := fs.map fun o => (o.getD []).map next

theorem layersAdd_congr (g : TGrid K) (d : Dims K) (tt bt : List K) (fs fs' : List (Option (List (FlpEl K)))) (h1 : geom fs = geom fs')
    (h2 : nextValues fs = nextValues fs') (l off : Nat) (x : List K) : layersAdd g d tt bt l off fs x = layersAdd g d tt bt l off fs' x := by
  induction fs generalizing fs' l off x with
  | nil => cases fs' with
    | nil => rfl
    | cons a b => simp [geom] at h1
  | cons o fs ih =>
    cases fs' with
    | nil => simp [geom] at h1
    | cons o' fs' =>
      simp only [geom, nextValues, List.map_cons, List.cons.injEq] at h1 h2
      rw [layersAdd, layersAdd, ih fs' h1.2 h2.2]
      congr 1
      unfold layerAdd
      cases typeAt g l <;> simp only [multiply_congr h1.1 h2.1]

/-- **C42**, on any grid: two simulations of the same grid at a slot boundary, whatever their histories (earlier powers, temperatures,
times, sources), whose elements have the same geometry and the same next values, have the same sources in every cell of the stack
after each of the steps of the slot. -/
theorem C42_history_independent {cfg : Cfg K π} {s s' : Sim K π} (h : Reachable cfg s) (h' : Reachable cfg s') (hgr : s.g = s'.g)
    (hb : cfg.an.slotLength ∣ s.time) (hb' : cfg.an.slotLength ∣ s'.time) (hge : geom s.flps = geom s'.flps)
    (hnx : nextValues s.flps = nextValues s'.flps) (k : Nat) (hk1 : 1 ≤ k) (hk : k ≤ cfg.an.slotLength) (hW : s.time + k < 2 ^ 32)
    (hW' : s'.time + k < 2 ^ 32) (hok : ∀ r ∈ (steps cfg k s).1, Succeeded r) (hok' : ∀ r ∈ (steps cfg k s').1, Succeeded r)
    {l r c : Nat} (hl : l < cfg.d.nLayers) (hr : r < cfg.d.nRows) (hc : c < cfg.d.nCols) :
    sourceAt cfg.d (steps cfg k s).2 l r c = sourceAt cfg.d (steps cfg k s').2 l r c := by
  have hg := reachable_good h
  have hg' := reachable_good h'
  obtain ⟨k, rfl⟩ : ∃ m, k = m + 1 := ⟨k - 1, by omega⟩
  unfold sourceAt
  have hj := (wf_off hg.wf hl hr hc).2.2.2
  rw [sources_in_slot hg hb k hk (by rw [W_eq]; exact hW) hok _ hj, sources_in_slot hg' hb' k hk (by rw [W_eq]; exact hW') hok' _ hj]
  unfold slotSources
  rw [hg.top, hg.bot, hg'.top, hg'.bot, hgr, layersAdd_congr _ _ _ _ _ _ hge hnx]

/-- The steps of one slot of the example, with slots of two steps. -/
theorem chip_slot {s : Sim ℚ Unit} (h : Good (chipCfg .transient 2) s) (hg : s.g = chipG) (hb : 2 ∣ s.time) (hW : s.time + 2 < 2 ^ 32)
    (hp : ∀ e ∈ elements s, e.powers ≠ []) : ∀ r ∈ (steps (chipCfg .transient 2) 2 s).1, Succeeded r := by
  have h1 := chip_step h hg (fun _ => hp)
  obtain ⟨-, g1, -, hc⟩ := step_spec (cfg := chipCfg .transient 2) h.ready
  have ht : (emulateStep (chipCfg .transient 2) s).2.time = s.time + 1 := by
    rcases hc with ⟨h2, -⟩ | ⟨h2, -⟩ | ⟨-, -, -, h2 | h2⟩
    · rw [h2] at h1; simp [Succeeded] at h1
    · rw [h2] at h1; simp [Succeeded] at h1
    · rw [h2.1] at h1; simp [Succeeded] at h1
    · rw [h2.2.1]; exact Nat.mod_eq_of_lt (by rw [W_eq]; omega)
  have h2 := chip_step (good_step h) (g1.trans hg) (by intro h0; omega)
  intro r hr
  have : (steps (chipCfg .transient 2) 2 s).1 =
    [(emulateStep (chipCfg .transient 2) s).1, (emulateStep (chipCfg .transient 2) (emulateStep (chipCfg .transient 2) s).2).1] := rfl
  rw [this] at hr
  simp only [List.mem_cons, List.not_mem_nil, or_false] at hr
  rcases hr with rfl | rfl
  · exact h1
  · exact h2

/-- The floorplans of the two dies of the example: cpu and gpu at the bottom, only a gpu-shaped element at the top. -/
def chipRaws : Nat → List (RawEl ℚ)
  | 0 => [okRaw1, okRaw2]
  | _ => []

theorem chip_readFrom {e1 e2 : FlpEl ℚ} (h : List.Forall₂ (From chipD) [okRaw1, okRaw2] [e1, e2]) (L : Nat) :
    ReadFrom (chipCfg .transient L).d chipRaws (chipSim .transient L [] [e1, e2]) := by
  refine ⟨chipGrid, ?_, ?_⟩
  · intro l hl
    have hl : l < 5 := hl
    interval_cases l
    · exact h
    all_goals exact .nil
  · intro l hl raw hr e he
    cases l with
    | zero => exact chip_inGrid raw hr e he
    | succ l => simp [chipRaws] at hr

/-- Non-vacuity of `C42_sources_of_the_slot`: after one and after two steps, the channel layer of the cell under the inlet gets the
coolant term, and a cell of the bottom die the power of its elements and the term of the board. -/
example : ∃ e1 e2 : FlpEl ℚ, e1.powers = [1, 2] ∧ e2.powers = [4, 5] ∧ ∀ k, 1 ≤ k → k ≤ 2 →
    sourceAt chipD (steps (chipCfg .transient 2) k (chipSim .transient 2 [] [e1, e2])).2 0 1 3 =
      powerIn chipD [okRaw1, okRaw2] [e1, e2] 1 3 + sinkTerm chipG chipD 0 1 3 + inletTerm chipG chipD 0 1 3 := by
  obtain ⟨e1, e2, h, p1, p2, -⟩ := chip_parse [1, 2] [4, 5]
  refine ⟨e1, e2, p1, p2, fun k hk1 hk => ?_⟩
  have hr := chip_reachable .transient 2 [] [e1, e2]
  have hok := chip_slot (reachable_good hr) rfl (Nat.dvd_zero 2) (by simp [chipSim]) (by
    rw [chip_elements]; intro e he; simp at he; rcases he with rfl | rfl
    · rw [p1]; simp
    · rw [p2]; simp)
  refine C42_sources_of_the_slot hr (Nat.dvd_zero 2) (chip_readFrom h 2) k hk1 hk (by simp [chipSim]; omega) ?_ (by decide : 0 < chipD.nLayers)
    (by decide : 1 < chipD.nRows) (by decide : 3 < chipD.nCols)
  interval_cases k
  · intro r hr; apply hok; rw [run_snoc_step _ 1]; simp [hr]
  · exact hok

/-- The two terms are there: the coolant enters in the first row of the channel, and the board is below the bottom die. -/
example : inletTerm chipG chipD 2 0 1 ≠ 0 ∧ inletTerm chipG chipD 2 1 1 = 0 ∧ inletTerm chipG chipD 2 0 2 = 0 ∧ sinkTerm chipG chipD 0 1 3 ≠ 0 ∧
    sinkTerm chipG chipD 4 1 3 ≠ 0 ∧ sinkTerm chipG chipD 3 1 3 = 0 := by
  have hs := chipGrid.sized
  refine ⟨?_, ?_, ?_, ?_, ?_, ?_⟩
  · unfold inletTerm
    rw [if_pos ⟨rfl, by simp [IsCoolant, typeAt, chipG]⟩]
    simp [convective, typeAt, chipG, chan, exChannel, exCoolant, chipD, okDims, exDims]
  · unfold inletTerm; rw [if_neg (by simp)]
  · unfold inletTerm; rw [if_neg]; simp [IsCoolant, typeAt, chipG]
  · have := solid_bottom_pos (wf_of_built chipBuilt) chipPhysical (l := 0) (r := 1) (c := 3) (by decide) (by decide) (by decide) rfl (by simp [chipG, typeAt])
    exact mul_ne_zero (by norm_num [botAmb, chipG]) this.ne'
  · have := solid_top_pos (wf_of_built chipBuilt) chipPhysical (l := 4) (r := 1) (c := 3) (by decide) (by decide) (by decide) rfl (by simp [chipG, typeAt])
    exact mul_ne_zero (by norm_num [topAmb, chipG]) this.ne'
  · rfl

end Verif.Emu
