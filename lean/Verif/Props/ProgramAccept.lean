import Verif.Props.ProgramSteady
import Verif.Props.ReaderMap

/-! **C68** Sensible files are accepted and simulated. -/

set_option linter.unusedSectionVars false
set_option linter.unusedSimpArgs false
set_option linter.unusedVariables false

namespace Verif.Prog
open Verif.Gram Verif.Dim Verif.TG Verif.SM Verif.Stk Verif.FE Verif.Out Verif.Emu Verif.Flp

variable {π : Type}

/-! ### Specification -/

/-- The elements of a floorplan on the grid `d`. -/
noncomputable def onGrid (d : Dims ℚ) (fs : List FlpD) : Flps :=
  (parseFloorplan d (elRaws fs)).getD (fs.map fun f => ⟨f.id, 0, [], []⟩)

/-- A solver that finds the solution of the systems that have exactly one. -/
def Finds (cfg : Cfg ℚ π) : Prop := ∀ A (b : List ℚ), b.length = cfg.d.nCells → OneSolution cfg.d.nCells A.entry (fun i => b.getD i 0) →
  ∃ x, cfg.solve A b = some x

/-! ### Proofs -/

theorem goodGrid_of {d d' : Dims ℚ} {n : Nat} {hs : List ℚ} {k : Nat} (h : d' = { d with nLayers := n, heights := hs, nCells := k }) (hg : GoodGrid d') :
    GoodGrid d ∧ gridLength d = gridLength d' ∧ gridWidth d = gridWidth d' := by
  subst h
  exact ⟨⟨⟨hg.sized.rows, hg.sized.cols⟩, hg.walls, hg.width, hg.covers⟩, rfl, rfl⟩

theorem mapM_exists {α β : Type} {f : α → Option β} : ∀ {l : List α}, (∀ x ∈ l, ∃ y, f x = some y) → ∃ m, l.mapM f = some m := by
  intro l
  induction l with
  | nil => intro _; exact ⟨[], rfl⟩
  | cons a l ih =>
    intro h
    obtain ⟨y, hy⟩ := h a (by simp)
    obtain ⟨m, hm⟩ := ih fun x hx => h x (by simp [hx])
    exact ⟨y :: m, by rw [List.mapM_cons, hy, hm]; rfl⟩

/-- Rectangles inside the chip are accepted. -/
theorem element_accepted {x : DimD} {d : Dims ℚ} (hd : GoodGrid d) (hl : gridLength d = x.chipL) (hw : gridWidth d = x.chipW)
    (hcl : d.chipLength = x.chipL) (hcw : d.chipWidth = x.chipW) {r : RawEl ℚ} (hne : r.rects ≠ []) (hr : ∀ e ∈ r.rects, GoodRect x e) :
    ∃ e, parseElement d r = some e ∧ e.name = r.name := by
  have hin : ∀ e ∈ r.rects, InGrid d e := by
    intro e he
    obtain ⟨h1, h2, h3, h4, h5, h6⟩ := hr e he
    exact ⟨h1, h2, h3, by rw [hl]; exact h4, h5, by rw [hw]; exact h6⟩
  obtain ⟨ics, hics⟩ : ∃ ics, r.rects.mapM (alignToGrid d) = some ics :=
    mapM_exists fun e he => by
      obtain ⟨ic, h, -⟩ := align_spec hd (hin e he)
      exact ⟨ic, h⟩
  have hloc : r.rects.any (checkLocation d) = false := by
    rw [List.any_eq_false]
    intro e he
    obtain ⟨h1, h2, h3, h4, h5, h6⟩ := hr e he
    unfold checkLocation
    rw [hcl, hcw]
    have heps : (0 : ℚ) < epsilon := by unfold epsilon; norm_num
    simp only [decide_eq_true_eq, not_or, not_lt, gt_iff_lt]
    exact ⟨h3, by linarith, h5, by linarith⟩
  refine ⟨{ name := r.name, area := (r.rects.map fun e => e.length * e.width).sum, ics := ics, powers := r.powers }, ?_, rfl⟩
  unfold parseElement
  rw [if_neg hne, hics, Option.bind_some, hloc]
  rfl

theorem floorplan_accepted {x : DimD} {d : Dims ℚ} (hd : GoodGrid d) (hl : gridLength d = x.chipL) (hw : gridWidth d = x.chipW)
    (hcl : d.chipLength = x.chipL) (hcw : d.chipWidth = x.chipW) {fs : List FlpD} (hne : fs ≠ []) (hok : ∀ f ∈ fs, f.area.Ok)
    (hr : ∀ f ∈ fs, ∀ e ∈ areaRects f.area, GoodRect x e) : parseFloorplan d (elRaws fs) = some (onGrid d fs) := by
  have : ∃ y, parseFloorplan d (elRaws fs) = some y := by
    unfold parseFloorplan
    rw [if_neg (by unfold elRaws; simpa using hne)]
    refine mapM_exists fun r hr' => ?_
    obtain ⟨f, hf, rfl⟩ := List.mem_map.mp hr'
    obtain ⟨e, he, -⟩ := element_accepted (r := ⟨f.id, areaRects f.area, f.powers⟩) hd hl hw hcl hcw (by
      have := hok f hf
      cases ha : f.area with
      | one => simp [areaRects]
      | many rs => rw [ha] at this; simpa [areaRects, AreaD.Ok] using this) (hr f hf)
    exact ⟨e, he⟩
  obtain ⟨y, hy⟩ := this
  unfold onGrid
  rw [hy]; rfl

theorem onGrid_names (d : Dims ℚ) (fs : List FlpD) : (onGrid d fs).map (·.name) = fs.map (·.id) := by
  unfold onGrid
  cases h : parseFloorplan d (elRaws fs) with
  | none => simp
  | some y =>
    rw [Option.getD_some]
    unfold parseFloorplan at h
    split_ifs at h
    have := mapM_some_iff.mp h
    have key : ∀ {a : List (RawEl ℚ)} {b : Flps}, List.Forall₂ (fun r e => parseElement d r = some e) a b → b.map (·.name) = a.map (·.name) := by
      intro a b hab
      induction hab with
      | nil => rfl
      | cons hx _ ih =>
        rw [List.map_cons, List.map_cons, ih]
        congr 1
        unfold parseElement at hx
        split_ifs at hx <;> obtain ⟨ics, -, hx⟩ := Option.bind_eq_some_iff.mp hx <;> cases hx
        rfl
    rw [key this]
    unfold elRaws
    rw [List.map_map]; rfl

/-- The description of sensible files whose floorplans are kept as written gives the one of the program. -/
theorem describe_accepted {eff : Bool → ℚ → ℚ} {files : Files} {s : StackD} (hs : Sensible eff files s)
    (hf : ∀ p fs, files.flp p = some fs → fs ≠ [] ∧ ∀ f ∈ fs, f.area.Ok) {D : Desc (List FlpD)} (M : Means plainReader eff files s D) {g : TGrid ℚ}
    (hg : fillGrid D.parsed.dims.nLayers D.parsed.elems D.top D.bottom = some g) :
    Means uniformReader eff files s (descMap (onGrid D.parsed.dims) D) := by
  obtain ⟨-, -, -, -, -, hgood, hl, hw, -⟩ := grid_good hs M hg
  obtain ⟨walls, d, spr, hwl, hd, -, -, -, -, -, raws, -, hp⟩ := M.stack
  obtain ⟨-, -, -, -, w5, w6, -⟩ := dims_good hs hwl hd
  obtain ⟨es, n, -, -, -, -, -, -, -, hdim, -⟩ := parseStack_spec hp
  obtain ⟨g1, g2, g3⟩ := goodGrid_of hdim hgood
  have hD : describe plainReader eff files s = some D := (C67_meaning _ _ _ _ _).mpr M
  have h := describe_map (Q := uniformReader) (g := onGrid D.parsed.dims) (eff := eff) (files := files) (s := s) (fun x => onGrid_names _ x) ?_
  · rw [hD, Option.map_some] at h
    exact (C67_meaning _ _ _ _ _).mp h
  · intro d' hd' id ref p o fs hel hfl
    have : d' = d := by
      rw [dimsOf_iff, ← walls_iff.mp hwl, hd] at hd'
      cases hd'; rfl
    subst this
    obtain ⟨k1, k2⟩ := hf p fs hfl
    have := floorplan_accepted g1 (g2.trans hl) (g3.trans hw) w5 w6 k1 k2 (hs.flps id ref p o fs hel hfl)
    show parseFloorplan d' (elRaws fs) = some (onGrid D.parsed.dims fs)
    rw [this]
    congr 1
    have e : ∀ d1 : Dims ℚ, d1 = D.parsed.dims → onGrid d' fs = onGrid d1 fs := by
      intro d1 h1
      rw [h1, hdim]; rfl
    exact e _ rfl

theorem files_ok (read : String → Option (List Char)) : ∀ p fs, (filesOf read).flp p = some fs → fs ≠ [] ∧ ∀ f ∈ fs, f.area.Ok := by
  intro p fs h
  obtain ⟨t, -, h⟩ := Option.bind_eq_some_iff.mp (show ((read p).bind fun t => parseFlpFile (Scan.scan Scan.flpRules .initial t)) = some fs from h)
  exact (C66_floorplan.mp h).1

theorem headers_true {canOpen : String → Bool} {ps : List (Point ℚ)} (hs : ∀ p ∈ ps, Sound p) (hc : ∀ p ∈ ps, canOpen p.file = true) :
    Srv.headersOk canOpen (addPoints ps) = true := by
  have key : ∀ i, (ofInstant i ps).all (Srv.headerOk canOpen) = true := by
    intro i
    rw [List.all_eq_true]
    intro p hp
    have h1 := hs p (List.mem_of_mem_filter hp)
    have h2 := hc p (List.mem_of_mem_filter hp)
    obtain ⟨-, h1⟩ := h1
    unfold Srv.headerOk
    cases hk : p.kind <;> simp_all
  rw [addPoints_eq]
  simp only [Srv.headersOk, key, Bool.and_self]

/-- **C68** Sensible files are accepted: if every name is declared once and every reference is to a declaration (`D` is the meaning of the
document, floorplans as written), the grid can be filled (C17 and C26 say when it cannot) and the plug-in can be loaded, the program reads the
file, with the floorplan elements placed on the grid. -/
theorem C68_accepted {w : World π} {file : String} {s : StackD} (hc : Contains w file s) (hs : Sensible w.eff (filesOf w.read) s)
    {D : Desc (List FlpD)} (M : Means plainReader w.eff (filesOf w.read) s D) {g : TGrid ℚ}
    (hg : fillGrid D.parsed.dims.nLayers D.parsed.elems D.top D.bottom = some g) (hp : ∀ p, D.plugin = some p → w.canLoad p.1 = true) :
    readInput w file = some (descMap (onGrid D.parsed.dims) D) :=
  readInput_iff.mpr ⟨⟨s, hc, describe_accepted hs (files_ok w.read) M hg⟩, hp⟩

/-- **C68** And they are simulated: if moreover the times have few enough decimals (C37), the output files can be created, the plug-in can be
initialized and the matrix can be factored, the program runs the simulation on that grid and succeeds. -/
theorem C68_runs {w : World π} (hm : ∀ x, w.mul10 x = x * 10) {file : String} {s : StackD} (hc : Contains w file s)
    (hs : Sensible w.eff (filesOf w.read) s) {D : Desc (List FlpD)} (M : Means plainReader w.eff (filesOf w.read) s D) {g : TGrid ℚ}
    (hg : fillGrid D.parsed.dims.nLayers D.parsed.elems D.top D.bottom = some g) (hu : s.dims.nonUniform ≠ some true)
    (ht : ∀ step slot, s.solver.kind = some (step, slot) →
      ∃ k, Solver.HasDecimals k step ∧ Solver.HasDecimals k slot ∧ slot * 10 ^ k < (4294967296 : Nat))
    (hopen : ∀ f, w.canOpen f = true) (hfac : ∀ A, w.factor A = true) (hp : ∀ f, w.canLoad f = true) (hi : ∀ f a, ∃ q, w.init f a = some q) :
    ∃ an s0 log s', Session w file s (descMap (onGrid D.parsed.dims) D) an s0 log s' ∧ s0.g = g ∧ Main w [file] .success log (some s') := by
  have hr := C68_accepted hc hs M hg (fun p _ => hp p.1)
  have M' := describe_accepted hs (files_ok w.read) M hg
  generalize hD : descMap (onGrid D.parsed.dims) D = D' at hr M'
  have hm' : w.mul10 = (· * 10) := funext hm
  have hu' : D'.nonUniform = false := by
    cases hh : D'.nonUniform with
    | false => rfl
    | true => exact absurd (M'.nonUniform.mp hh) hu
  obtain ⟨an, han⟩ : ∃ an, Analysed w.mul10 D'.init D'.times an := by
    cases hk : D'.times with
    | none => exact ⟨_, .steady⟩
    | some x =>
      obtain ⟨step, slot⟩ := x
      have hk' : s.solver.kind = some (step, slot) := M'.times.1 ▸ hk
      obtain ⟨k, k1, k2, k3⟩ := ht step slot hk'
      have := ((Solver.C37_slot_length_partial k1 k2 k3).1 (M'.times.2 step slot hk')).1
      rw [hm']
      exact ⟨_, .transient this⟩
  obtain ⟨q, hq⟩ : ∃ q, initPlugin w D' an = some q := by
    unfold initPlugin
    split
    · exact hi _ _
    · exact ⟨_, rfl⟩
  have hh : Srv.headersOk w.canOpen (outputOf D'.points) = true := headers_true (points_sound M') fun p _ => hopen _
  obtain ⟨s0, hst, hsg⟩ : ∃ s0, start w D' an q = some s0 ∧ s0.g = g := by
    have e : fillGrid D'.parsed.dims.nLayers D'.parsed.elems D'.top D'.bottom = some g := by
      rw [← hD]
      exact (fillGrid_map _ _ _ _ _).trans hg
    unfold start
    rw [e, Option.bind_some]
    unfold Emu.build
    simp only
    rw [if_pos (by exact hfac _)]
    exact ⟨_, rfl, rfl⟩
  obtain ⟨log, s', hem⟩ : ∃ log s', Emulated w.canOpen (outputOf D'.points) (config w D' an) s0 log s' := by
    obtain ⟨t1, t2, t3, t4⟩ := times_good hm han
    rcases t4 with ⟨-, t4⟩ | ⟨sl, -, t5⟩
    · have hsr := (steady_result (cfg := config w D' an) s0 t4).1
      exact ⟨_, _, emulateSteady (config w D' an), _, by unfold emulateFn; rw [show (config w D' an).an.type = .steady from t4], .stop rfl hsr, rfl⟩
    · obtain ⟨raws, -, g1, -⟩ := start_good hs M' hst
      exact C32_simulation_ends g1 t5 t3 (has_elements hs M' hst)
  exact ⟨an, s0, log, s', ⟨hc, M', fun p _ => hp p.1, han, ⟨q, hq, hst⟩, hh, hu', hem⟩, hsg, .ran hr han hq hh hu' hst hem⟩

/-! ### No failures -/

theorem finish_finds {cfg : Cfg ℚ π} {x : Sim ℚ π} (hwf : WF x.g cfg.d) (hmat : x.mat = fillMatrix x.g cfg.an.ana cfg.d) (hph : Physical x.g cfg.d) (ht : cfg.an.type = .transient)
    (hdt : 0 < cfg.an.stepTime) (hf : Finds cfg) (hp : ∀ q t f, (cfg.plugin q t f).2 ≠ none) : (finishStep cfg x).1 ≠ .solverError := by
  have hp2 : (pluggable cfg x).2 = true := by
    unfold pluggable
    split
    · next sp m _ =>
      have := hp x.plug (x.temps.drop (spreaderOffset cfg.d sp 0 0)) (x.sources.drop (spreaderOffset cfg.d sp 0 0))
      simp only
      split
      · next p hq => rw [hq] at this; exact absurd rfl this
      · rfl
    · rfl
  obtain ⟨-, k2, -, k4, -⟩ := pluggable_keeps cfg x
  cases hpl : pluggable cfg x with
  | mk s1 ok =>
    rw [hpl] at hp2 k2 k4
    simp only at hp2 k2 k4
    subst hp2
    have hlen : (fillSystemVector cfg s1).length = cfg.d.nCells := by
      have hn : (lastLayer cfg.d + 1) * ((lastRow cfg.d + 1) * (lastColumn cfg.d + 1)) + Emu.sprSize s1.g = cfg.d.nCells := by
        rw [Emu.wf_lastRow hwf, Emu.wf_lastCol hwf, Emu.wf_lastLayer hwf, (Emu.wf_chip hwf).2.1, k2]; rfl
      unfold fillSystemVector
      rw [List.length_map, List.length_range, hn]
    have hat : cfg.an.ana.transient = true := by simp [Emu.Analysis.ana, ht]
    have hone := step_unique_wf hwf hph cfg.an.ana hat hdt (fun i => (fillSystemVector cfg s1).getD i 0)
    rw [← hmat, ← k4] at hone
    obtain ⟨y, hy⟩ := hf _ _ hlen hone
    rw [finish_ok hpl hy]
    generalize slotCompleted cfg.an _ = b
    cases b <;> simp

theorem step_finds {cfg : Cfg ℚ π} {x : Sim ℚ π} (hg : Good cfg x) (hph : Physical x.g cfg.d) (ht : cfg.an.type = .transient)
    (hdt : 0 < cfg.an.stepTime) (hf : Finds cfg) (hp : ∀ q t f, (cfg.plugin q t f).2 ≠ none) : (emulateStep cfg x).1 ≠ .solverError := by
  by_cases hb : x.time % cfg.an.slotLength = 0
  · by_cases hpw : ∃ e ∈ elements x, e.powers = []
    · obtain ⟨fs, y, e1, -⟩ := step_end hg.ready ht hb hpw
      rw [e1]; simp
    · rw [step_start hg.ready ht hb fun e he hh => hpw ⟨e, he, hh⟩]
      exact finish_finds hg.wf hg.mat hph ht hdt hf hp
  · rw [step_inside ht hb]; exact finish_finds hg.wf hg.mat hph ht hdt hf hp

section
variable {w : World π} {file : String} {s : StackD} {D : Desc Flps} {an : Analysis ℚ} {s0 s' : Sim ℚ π} {log : Log ℚ}

/-- **C68** With sensible files, a solver that finds the solution of a system that has exactly one, and a plug-in that does not fail, no step of a
transient simulation fails: the simulation goes on until a floorplan element has no power value left, that is for as many slots as the shortest
list of power values has values, and its last state is the one after those steps. -/
theorem C68_whole_run (h : Session w file s D an s0 log s') (hs : Sensible w.eff (filesOf w.read) s) (hm : ∀ x, w.mul10 x = x * 10)
    {step slot : ℚ} (ht : s.solver.kind = some (step, slot)) (hf : Finds (config w D an)) (hp : ∀ q t f, (w.plugin q t f).2 ≠ none)
    (hW : ∃ t ∈ filePowers (filesOf w.read) s, t.length * an.slotLength < 2 ^ 32) :
    ∃ n, ((∃ t ∈ filePowers (filesOf w.read) s, n = t.length * an.slotLength) ∧ ∀ t ∈ filePowers (filesOf w.read) s, n ≤ t.length * an.slotLength) ∧
      (∀ k, k < n → Succeeded (emulateStep (config w D an) (after (config w D an) s0 k)).1) ∧
      (emulateStep (config w D an) (after (config w D an) s0 n)).1 = .endOfSimulation ∧ s' = after (config w D an) s0 (n + 1) ∧
      s'.temps = (after (config w D an) s0 n).temps := by
  obtain ⟨n, n1, n2, n3, -⟩ := C68_transient_outputs h hs hm ht hW
  obtain ⟨raws, g1, g2, -⟩ := h.good hs
  obtain ⟨t1, t2, t3, t4⟩ := times_good hm h.times
  have htr : an.type = .transient ∧ 0 < an.stepTime := by
    rcases t4 with ⟨t4, -⟩ | ⟨sl, t4, t5⟩
    · rw [h.means.times.1, ht] at t4; cases t4
    · refine ⟨t5, ?_⟩
      first | exact t2 | (rw [h.means.times.1, ht] at t4; cases t4; exact (h.means.times.2 _ _ ht).1)
  have hgood := reachable_good (after_reachable g1 n)
  have hph : Physical (after (config w D an) s0 n).g (config w D an).d := by rw [after_grid g1 n]; exact g2
  have hne := step_finds hgood hph htr.1 htr.2 hf hp
  have hend := n2.resolve_right hne
  refine ⟨n, C68_run_length h hs hm ht hW n1 hend, n1, hend, n3, ?_⟩
  rw [n3, after_succ]
  rcases (step_spec (cfg := config w D an) hgood.ready).2.2.2 with e | e | e
  · rw [hend] at e; cases e.1
  · exact e.2.2.2.2.2.1
  · rcases e.2.2.2 with e' | e'
    · rw [hend] at e'; cases e'.1
    · rw [hend] at e'; rcases e'.1 with e'' | e'' <;> cases e''

/-- **C68** The same for a steady simulation, with a conventional sink and no channel following another one. -/
theorem C68_steady_succeeds (h : Session w file s D an s0 log s') (hs : Sensible w.eff (filesOf w.read) s) (hm : ∀ x, w.mul10 x = x * 10)
    (ht : s.solver.kind = none) (hf : Finds (config w D an)) (hp : ∀ p, s.top ≠ some (.plug p))
    (hpow : ∀ t ∈ filePowers (filesOf w.read) s, t ≠ []) (hdbl : NoDoubleChannel s) (hsink : s.top ≠ none ∨ s.bottom ≠ none) :
    (emulateSteady (config w D an) s0).1 = .endOfSimulation := by
  obtain ⟨hB, g2, hns, hleave, hsp⟩ := heat_leaves h hs hp hdbl hsink
  obtain ⟨raws, g1, -, g3, g4, -⟩ := h.good hs
  have hty : an.type = .steady := by
    obtain ⟨t1, t2, t3, t4⟩ := times_good hm h.times
    rcases t4 with ⟨-, t4⟩ | ⟨sl, t4, t5⟩
    · exact t4
    · rw [h.means.times.1, ht] at t4; cases t4
  have hg := reachable_good (started_reachable g1)
  have hv := steady_value (config w D an) s0 hg hty hsp (by rw [g4]; exact hpow) (by rw [(started_spec g1).2.2.2.1, List.length_replicate])
  have hat : (config w D an).an.ana.transient = false := by
    show an.ana.transient = false
    simp [Emu.Analysis.ana, hty]
  have hone := steady_unique_wf hg.wf g2 hns hleave hsp (config w D an).an.ana hat
    (fun i => ((List.range (chip (config w D an).d)).map fun i => (slotSources (config w D an).d s0).getD i 0).getD i 0)
  obtain ⟨y, hy⟩ := hf _ _ (by rw [List.length_map, List.length_range]; exact (cells_chip hg.wf hsp).symm) hone
  rw [hy] at hv
  exact congrArg Prod.fst hv

end

end Verif.Prog
