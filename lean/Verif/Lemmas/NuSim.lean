import Verif.Lemmas.NuEmulate
import Verif.Props.NonUniformTile
import Verif.Props.NonUniform
import Verif.Props.Slots
import Verif.Props.Flow

/-! Calls made on a simulation of a non-uniform grid: what each of them does to the queues, the time and the grid. -/

set_option linter.unusedSectionVars false
set_option linter.unusedSimpArgs false
set_option linter.unusedVariables false

namespace Verif.NU
open Verif.Dim Verif.TG Verif.Stk Verif.SM
open Verif.Emu (SimResult Succeeded)

variable {K : Type} [Field K] [LinearOrder K] [IsStrictOrderedRing K] {π : Type}
variable {d0 : Dims K} {decl : Option (Channel K)} {rs : List (Raw K (List (FEl K)))} {ns : List (NElem K)} {G : Grid K}

/-! ### Specification -/

/-- The floorplan elements of a simulation, from the bottom layer upwards, with the power values they have not used yet. -/
def elements (s : NSim K π) : List (FEl K) := s.G.flps.flatMap fun o => o.getD []

/-- The power values still available, element by element. -/
def traces (s : NSim K π) : List (List K) := (elements s).map (·.powers)

/-- `s` is the simulation built for the stack section `rs`, discretised as in `ns`; the connections come from one of the schedules of
the threads. -/
structure Begun (cfg : NCfg K π) (d0 : Dims K) (decl : Option (Channel K)) (rs : List (Raw K (List (FEl K)))) (ns : List (NElem K))
    (s : NSim K π) : Prop where
  grid : ∃ p g, BuiltFrom d0 decl rs p g ∧ ns.map (·.elem) = p.elems ∧ buildNU p.dims g.top g.bottom ns = some s.G
  conns : Runs (regions s.G.d.nLayers s.G.ty s.G.ls) s.conns
  built : ∃ q, buildSim cfg s.G s.conns q = some s

/-- Calls on a simulation. (`update_coolant_flow_rate` changes the channel of the stack: see `ReachableNU`.) -/
inductive NOp (K : Type) where
  | step | insert (vs : List K) | reset

/-- Effect of a call; simulation steps also return a result. -/
def exec (cfg : NCfg K π) : NOp K → NSim K π → List SimResult × NSim K π
  | .step, s => ([(stepNU cfg s).1], (stepNU cfg s).2)
  | .insert vs, s => ([], (insertSim s vs).1)
  | .reset, s => ([], resetNU cfg s)

/-- Effect of a sequence of calls: the results of the steps and the final state. -/
def run (cfg : NCfg K π) : List (NOp K) → NSim K π → List SimResult × NSim K π
  | [], s => ([], s)
  | o :: os, s => ((exec cfg o s).1 ++ (run cfg os (exec cfg o s).2).1, (run cfg os (exec cfg o s).2).2)

/-- Reached from a built simulation by calls of the API. The stack of the simulation is the one of the file, with the flow rate of the
last call of `update_coolant_flow_rate` if there was one. -/
inductive ReachableNU (cfg : NCfg K π) (d0 : Dims K) :
    Option (Channel K) → List (Raw K (List (FEl K))) → List (NElem K) → NSim K π → Prop
  | begun {decl rs ns s} : Begun cfg d0 decl rs ns s → ReachableNU cfg d0 decl rs ns s
  | call {decl rs ns s} : ReachableNU cfg d0 decl rs ns s → (o : NOp K) → ReachableNU cfg d0 decl rs ns (exec cfg o s).2
  | flow {decl rs ns s} : ReachableNU cfg d0 decl rs ns s → (f : K) →
      ReachableNU cfg d0 (decl.map (Emu.setFlow (Emu.flowToUm3 f))) rs (ns.map (flowEl (Emu.flowToUm3 f))) (flowNU cfg s f).1

/-! ### The invariant -/

/-- What every reachable state satisfies. -/
structure Valid (cfg : NCfg K π) (d0 : Dims K) (decl : Option (Channel K)) (rs : List (Raw K (List (FEl K)))) (ns : List (NElem K))
    (s : NSim K π) : Prop where
  grid : FromStack d0 decl rs ns s.G
  conns : Runs (regions s.G.d.nLayers s.G.ty s.G.ls) s.conns
  mat : s.mat = fillMatrixNU id s.G.g cfg.an.ana s.G.d s.G.ls.flatten s.conns
  caps : s.caps = capsNU s.G
  time : s.time < W

theorem FromStack.repower (hf : FromStack d0 decl rs ns G) {fl : List (Option (List (FEl K)))} (h : bare fl = bare G.flps) :
    FromStack d0 decl rs ns { G with flps := fl } := by
  obtain ⟨p, g, fl0, h1, h2, h3, h4⟩ := hf.parsed
  exact ⟨p, g, fl0, h1, h2, h3, h4.trans h.symm⟩

theorem FromStack.flpsLen (hf : FromStack d0 decl rs ns G) : G.flps.length = G.g.nLayers := by
  rw [hf.wf.nl]
  obtain ⟨p, g, fl0, h1, h2, h3, h4⟩ := hf.parsed
  rw [← bare_length, ← h4, bare_length]
  obtain ⟨q, -, -, -, -, -, hfl, -⟩ := hf.spec
  rw [← bare_length, h4, hfl, bare_length]
  have : ∀ es : List (SElem K (List (FEl K))), ∀ fs : List (Option (List (FEl K))), (es.foldl writeFlp fs).length = fs.length := by
    intro es
    induction es with
    | nil => intro fs; rfl
    | cons e es ih =>
      intro fs
      rw [List.foldl_cons, ih]
      have hw : ∀ (ys xs : List (Option (List (FEl K)))) (i : Nat), (writes xs i ys).length = xs.length := by
        intro ys
        induction ys with
        | nil => intro xs i; rfl
        | cons y ys ih => intro xs i; rw [writes, ih, List.length_set]
      unfold writeFlp
      cases e.body <;> simp [hw]
  simp [fillFloorplans, this]

theorem FromStack.fits (hf : FromStack d0 decl rs ns G) : FlpsFit G.g 0 G.flps := by
  intro i o hi
  rw [Nat.zero_add]
  have hlt : i < G.d.nLayers := by
    rw [← hf.wf.nl, ← hf.flpsLen]; exact (List.getElem?_eq_some_iff.mp hi).1
  have htop := hf.top
  rcases hf.laid.type hlt with ⟨t, ht, hs, hty⟩ | ⟨-, -, hno, hw⟩
  · have ho : o.isSome = decide (t = .source) := by
      cases o with
      | none => simp only [hi, Option.some.injEq, reduceCtorEq, exists_false, iff_false] at hs; simp [hs]
      | some es => simp only [hi, Option.some.injEq, exists_eq', iff_true] at hs; simp [hs]
    rw [ho, hty]
    rcases ht with rfl | rfl <;> split_ifs with c0 c1
    all_goals first
      | (cases hb : G.g.bottom with
         | none => rw [hb] at c0; simp at c0
         | some b => simp [withBottom, isSource])
      | (rcases htop with ⟨s, h⟩ | ⟨s, m, h⟩ <;> rw [h] <;> simp [withTop, isSource])
      | simp [isSource]
  · have ho : o = none := by
      cases o with
      | none => rfl
      | some es => exact absurd hi (hno es)
    subst ho
    rcases hw with hw | ⟨hw, -⟩ <;> revert hw <;> cases typeAt G.g i <;> simp [wallType, coolantType, isSource]

theorem begun_valid {cfg : NCfg K π} {s : NSim K π} (h : Begun cfg d0 decl rs ns s) :
    Valid cfg d0 decl rs ns s ∧ s.time = 0 ∧ s.temps = List.replicate s.G.cells.length cfg.an.initTemp ∧
      s.sources = List.replicate s.G.cells.length 0 := by
  have hf : FromStack d0 decl rs ns s.G := .fresh h.grid
  obtain ⟨q, hb⟩ := h.built
  have hn := (C54_cells_fit_arrays hf).1
  unfold buildSim at hb
  simp only at hb
  split at hb
  · simp only [Option.some.injEq] at hb
    refine ⟨⟨hf, h.conns, ?_, ?_, ?_⟩, ?_, ?_, ?_⟩ <;> rw [← hb] <;> first | rfl | (simp only [hn]; done) | skip
    · show 0 < W; unfold W; norm_num
  · simp at hb

/-- What `update_source_vector` does. -/
theorem updateSources_spec {cfg : NCfg K π} {s : NSim K π} (h : Valid cfg d0 decl rs ns s) :
    ∃ S fl, updateSources s = ({ s with sources := S, G := { s.G with flps := fl } }, (elements s).all fun e => decide (e.powers ≠ [])) ∧
      bare fl = bare s.G.flps ∧ elsOf fl = popFront (elements s) ∧
      ((∀ e ∈ elements s, e.powers ≠ []) → sourcesNU s.G.g s.G.d s.G.cells s.G.flps = some (S, fl)) := by
  have hn := (C54_cells_fit_arrays h.grid).1
  have hlen := h.grid.flpsLen
  have hfit := h.grid.fits
  obtain ⟨a1, a2⟩ := srcLayersF_flps s.G.g s.G.d s.G.ls.flatten s.G.flps [] ⟨List.replicate s.G.nCells 0, 0, s.G.flps⟩ rfl hfit
  rw [List.length_nil, hlen, ← List.range_eq_range', List.nil_append] at a2
  rw [List.length_nil, hlen, ← List.range_eq_range', popLayers_ok] at a1
  refine ⟨(srcLayersF s.G.g s.G.d s.G.ls.flatten (List.range s.G.g.nLayers) ⟨List.replicate s.G.nCells 0, 0, s.G.flps⟩).1.src, (popLayers s.G.flps).1, ?_,
    popLayers_bare _, popLayers_els _, ?_⟩
  · unfold updateSources
    simp only [a1, a2]
    rfl
  · intro hall
    unfold sourcesNU
    rw [show s.G.cells = s.G.ls.flatten from rfl, srcLayers_F, show s.G.ls.flatten.length = s.G.nCells from hn, if_pos, Option.map_some]
    · simp only [a2]
    · rw [a1, List.all_eq_true]
      intro e he
      exact decide_eq_true (hall e he)

/-! ### Steps -/

theorem plugged_keeps (s : NSim K π) (o n : Nat) (r : π × Option (List K)) : (plugged s o n r).1.G = s.G ∧ (plugged s o n r).1.conns = s.conns ∧
    (plugged s o n r).1.time = s.time ∧ (plugged s o n r).1.mat = s.mat ∧ (plugged s o n r).1.temps = s.temps ∧
    (plugged s o n r).1.caps = s.caps := by
  obtain ⟨p, q⟩ := r
  cases q <;> exact ⟨rfl, rfl, rfl, rfl, rfl, rfl⟩

theorem pluggable_keeps (cfg : NCfg K π) (s : NSim K π) : (pluggableNU cfg s).1.G = s.G ∧ (pluggableNU cfg s).1.conns = s.conns ∧
    (pluggableNU cfg s).1.time = s.time ∧ (pluggableNU cfg s).1.mat = s.mat ∧ (pluggableNU cfg s).1.temps = s.temps ∧
    (pluggableNU cfg s).1.caps = s.caps := by
  unfold pluggableNU
  split
  · exact plugged_keeps _ _ _ _
  · exact ⟨rfl, rfl, rfl, rfl, rfl, rfl⟩

theorem finish_ok {cfg : NCfg K π} {s s1 : NSim K π} {x : List K} (h : pluggableNU cfg s = (s1, true))
    (h2 : cfg.solve s1.mat (vectorNU cfg s1) = some x) :
    finishNU cfg s = (if slotDoneNU cfg.an { s1 with temps := x, time := (s1.time + 1) % W } = true then .slotDone else .stepDone,
      { s1 with temps := x, time := (s1.time + 1) % W }) := by
  unfold finishNU
  simp only [h, h2, if_true]

theorem finish_solver {cfg : NCfg K π} {s s1 : NSim K π} (h : pluggableNU cfg s = (s1, true))
    (h2 : cfg.solve s1.mat (vectorNU cfg s1) = none) :
    ∃ b, finishNU cfg s = (.solverError, { s1 with temps := b }) := by
  refine ⟨vectorNU cfg s1, ?_⟩
  unfold finishNU
  simp only [h, h2, if_true]

theorem finish_plugin {cfg : NCfg K π} {s s1 : NSim K π} (h : pluggableNU cfg s = (s1, false)) :
    finishNU cfg s = (.solverError, s1) := by
  unfold finishNU
  simp [h]

theorem finishNU_cases (cfg : NCfg K π) (s : NSim K π) :
    (finishNU cfg s).2.G = s.G ∧ (finishNU cfg s).2.conns = s.conns ∧ (finishNU cfg s).2.mat = s.mat ∧ (finishNU cfg s).2.caps = s.caps ∧
    (((finishNU cfg s).1 = .solverError ∧ (finishNU cfg s).2.time = s.time) ∨
      (Succeeded (finishNU cfg s).1 ∧ (finishNU cfg s).2.time = (s.time + 1) % W ∧
        ((finishNU cfg s).1 = .slotDone ↔ (s.time + 1) % W % cfg.an.slotLength = 0))) := by
  obtain ⟨h1, h2, h3, h4, -, h5⟩ := pluggable_keeps cfg s
  cases hpl : pluggableNU cfg s with
  | mk s1 ok =>
    rw [hpl] at h1 h2 h3 h4 h5
    simp only at h1 h2 h3 h4 h5
    cases ok with
    | false => rw [finish_plugin hpl]; exact ⟨h1, h2, h4, h5, Or.inl ⟨rfl, h3⟩⟩
    | true =>
      cases hs : cfg.solve s1.mat (vectorNU cfg s1) with
      | none => obtain ⟨b, hb⟩ := finish_solver hpl hs; rw [hb]; exact ⟨h1, h2, h4, h5, Or.inl ⟨rfl, h3⟩⟩
      | some x =>
        rw [finish_ok hpl hs]
        refine ⟨h1, h2, h4, h5, Or.inr ?_⟩
        rw [← h3]
        have hr := Emu.result_cases ((s1.time + 1) % W) cfg.an.slotLength
        exact ⟨hr.1, rfl, hr.2⟩

theorem valid_congr {cfg : NCfg K π} {s s' : NSim K π} (h : Valid cfg d0 decl rs ns s) {fl : List (Option (List (FEl K)))}
    (hfl : bare fl = bare s.G.flps) (hG : s'.G = { s.G with flps := fl }) (hc : s'.conns = s.conns) (hm : s'.mat = s.mat) (hk : s'.caps = s.caps)
    (ht : s'.time < W) : Valid cfg d0 decl rs ns s' := by
  refine ⟨?_, ?_, ?_, ?_, ht⟩
  · rw [hG]; exact h.grid.repower hfl
  · rw [hG, hc]; exact h.conns
  · rw [hG, hc, hm]; exact h.mat
  · rw [hG, hk]; exact h.caps

theorem W_pos : 0 < W := by unfold W; norm_num

/-- Everything about one step that does not depend on the numbers. -/
theorem step_spec {cfg : NCfg K π} {s : NSim K π} (h : Valid cfg d0 decl rs ns s) :
    Valid cfg d0 decl rs ns (stepNU cfg s).2 ∧ (stepNU cfg s).2.conns = s.conns ∧
    (∃ fl, bare fl = bare s.G.flps ∧ (stepNU cfg s).2.G = { s.G with flps := fl }) ∧
    (((stepNU cfg s).1 = .wrongConfig ∧ cfg.an.type ≠ .transient ∧ (stepNU cfg s).2 = s) ∨
     ((stepNU cfg s).1 = .endOfSimulation ∧ cfg.an.type = .transient ∧ s.time % cfg.an.slotLength = 0 ∧
        (∃ e ∈ elements s, e.powers = []) ∧ (stepNU cfg s).2.time = s.time ∧ (stepNU cfg s).2.temps = s.temps ∧
        elements (stepNU cfg s).2 = popFront (elements s)) ∨
     (cfg.an.type = .transient ∧ (s.time % cfg.an.slotLength = 0 → ∀ e ∈ elements s, e.powers ≠ []) ∧
        elements (stepNU cfg s).2 = (if s.time % cfg.an.slotLength = 0 then (elements s).map popEl else elements s) ∧
        (((stepNU cfg s).1 = .solverError ∧ (stepNU cfg s).2.time = s.time) ∨
          (Succeeded (stepNU cfg s).1 ∧ (stepNU cfg s).2.time = (s.time + 1) % W ∧
            ((stepNU cfg s).1 = .slotDone ↔ (s.time + 1) % W % cfg.an.slotLength = 0))))) := by
  have htime : ∀ {r : SimResult} {t : Nat}, ((r = .solverError ∧ t = s.time) ∨ (Succeeded r ∧ t = (s.time + 1) % W ∧
      (r = .slotDone ↔ (s.time + 1) % W % cfg.an.slotLength = 0))) → t < W := by
    rintro r t (⟨-, rfl⟩ | ⟨-, rfl, -⟩)
    · exact h.time
    · exact Nat.mod_lt _ W_pos
  by_cases ht : cfg.an.type = .transient
  · by_cases hb : s.time % cfg.an.slotLength = 0
    · obtain ⟨S, fl, e1, e2, e3, -⟩ := updateSources_spec h
      have hstep : stepNU cfg s = if ((elements s).all fun e => decide (e.powers ≠ [])) = true then
          finishNU cfg { s with sources := S, G := { s.G with flps := fl } } else (.endOfSimulation, { s with sources := S, G := { s.G with flps := fl } }) := by
        simp [stepNU, ht, slotDoneNU, hb, e1]
      by_cases hp : ∃ e ∈ elements s, e.powers = []
      · rw [if_neg (by
          rw [List.all_eq_true]; intro hh
          obtain ⟨e, he, h0⟩ := hp
          exact absurd h0 (of_decide_eq_true (hh e he)))] at hstep
        rw [hstep]
        refine ⟨valid_congr h e2 rfl rfl rfl rfl h.time, rfl, ⟨fl, e2, rfl⟩, Or.inr (Or.inl ⟨rfl, ht, hb, hp, rfl, rfl, e3⟩)⟩
      · have hp' : ∀ e ∈ elements s, e.powers ≠ [] := fun e he hh => hp ⟨e, he, hh⟩
        rw [if_pos (by rw [List.all_eq_true]; intro e he; exact decide_eq_true (hp' e he))] at hstep
        rw [hstep]
        obtain ⟨f1, f2, f3, f4, f5⟩ := finishNU_cases cfg { s with sources := S, G := { s.G with flps := fl } }
        refine ⟨valid_congr h e2 f1 f2 f3 f4 (htime f5), f2, ⟨fl, e2, f1⟩, Or.inr (Or.inr ⟨ht, fun _ => hp', ?_, f5⟩)⟩
        rw [if_pos hb]
        unfold elements
        rw [f1]
        rw [popFront_all hp'] at e3
        exact e3
    · have e : stepNU cfg s = finishNU cfg s := by simp [stepNU, ht, slotDoneNU, hb]
      rw [e]
      obtain ⟨f1, f2, f3, f4, f5⟩ := finishNU_cases cfg s
      refine ⟨valid_congr h rfl f1 f2 f3 f4 (htime f5), f2, ⟨s.G.flps, rfl, f1⟩, Or.inr (Or.inr ⟨ht, fun h0 => absurd h0 hb, ?_, f5⟩)⟩
      rw [if_neg hb]; unfold elements; rw [f1]
  · have : stepNU cfg s = (.wrongConfig, s) := by simp [stepNU, ht]
    rw [this]
    exact ⟨h, rfl, ⟨_, rfl, rfl⟩, Or.inl ⟨rfl, ht, rfl⟩⟩

theorem insert_spec {cfg : NCfg K π} {s : NSim K π} (h : Valid cfg d0 decl rs ns s) (vs : List K) :
    ∃ fl, insertSim s vs = ({ s with G := { s.G with flps := fl } }, decide ((elements s).length ≤ vs.length)) ∧
      bare fl = bare s.G.flps ∧ elsOf fl = pushFront (elements s) vs := by
  obtain ⟨fl, e1, e2, e3⟩ := insertLayers_eq s.G.g s.G.flps [] vs h.grid.fits
  simp only [List.length_nil, List.nil_append, h.grid.flpsLen] at e1
  exact ⟨fl, by simp only [insertSim, e1]; rfl, e2, e3⟩

theorem valid_exec {cfg : NCfg K π} {s : NSim K π} (h : Valid cfg d0 decl rs ns s) (o : NOp K) : Valid cfg d0 decl rs ns (exec cfg o s).2 := by
  cases o with
  | step => exact (step_spec h).1
  | insert vs =>
    obtain ⟨fl, e1, e2, -⟩ := insert_spec h vs
    simp only [exec, e1]
    exact valid_congr h e2 rfl rfl rfl rfl h.time
  | reset => exact ⟨h.grid, h.conns, h.mat, h.caps, h.time⟩

theorem valid_run {cfg : NCfg K π} (ops : List (NOp K)) {s : NSim K π} (h : Valid cfg d0 decl rs ns s) :
    Valid cfg d0 decl rs ns (run cfg ops s).2 := by
  induction ops generalizing s with
  | nil => exact h
  | cons o os ih => exact ih (valid_exec h o)

/-! ### The flow rate -/

theorem flowEl_elem (f : K) (n : NElem K) : (flowEl f n).elem = Emu.setElem f n.elem := by
  obtain ⟨⟨i, b, o⟩, x, y⟩ := n
  cases b <;> rfl

theorem flowEl_fix (f : K) (n : NElem K) : fixDiscr (flowEl f n) = flowEl f (fixDiscr n) := by
  obtain ⟨⟨i, b, o⟩, x, y⟩ := n
  cases b <;> rfl

theorem flowEl_count (f : K) (d : Dims K) (n : NElem K) : countElem d (flowEl f n) = countElem d n := by
  obtain ⟨⟨i, b, o⟩, x, y⟩ := n
  cases b <;> rfl

theorem flowEl_layers (f : K) (d : Dims K) (cur : Nat) (n : NElem K) : elemLayers d cur (flowEl f n) = elemLayers d cur n := by
  obtain ⟨⟨i, b, o⟩, x, y⟩ := n
  cases b <;> rfl

theorem flowEl_record (f : K) (n : NElem K) : elemRecord (flowEl f n) = elemRecord n := by
  obtain ⟨⟨i, b, o⟩, x, y⟩ := n
  cases b <;> rfl

theorem stackLayers_flow (f : K) (d : Dims K) (ns : List (NElem K)) (cur : Nat) : stackLayers d cur (ns.map (flowEl f)) = stackLayers d cur ns := by
  induction ns generalizing cur with
  | nil => rfl
  | cons n ns ih => simp only [List.map_cons, stackLayers, flowEl_layers, ih]

theorem record_flow (f : K) (top : Option (TopSink K)) (ns : List (NElem K)) : recordOf top (ns.map (flowEl f)) = recordOf top ns := by
  unfold recordOf
  rw [List.flatMap_map]
  congr 1
  exact congrArg (fun h => List.flatMap h ns) (funext fun n => flowEl_record f n)

/-- The grid of the stack with another flow rate. -/
theorem FromStack.flow (hf : FromStack d0 decl rs ns G) (f : K) :
    FromStack d0 (decl.map (Emu.setFlow f)) rs (ns.map (flowEl f)) { G with g := Emu.withFlow G.g f, ns := G.ns.map (flowEl f) } := by
  obtain ⟨p, g, fl, h1, h2, h3, h4⟩ := hf.parsed
  refine ⟨Emu.setParsed f p, Emu.withFlow g f, fl, Emu.builtFrom_set f h1, ?_, ?_, h4⟩
  · show (ns.map (flowEl f)).map (·.elem) = p.elems.map (Emu.setElem f)
    rw [← h2, List.map_map, List.map_map]
    exact List.map_congr_left fun n _ => flowEl_elem f n
  · unfold buildNU at h3 ⊢
    simp only [Option.bind_eq_some_iff, Option.map_eq_some_iff] at h3 ⊢
    obtain ⟨n, hn, g', hg', hG⟩ := h3
    have e1 : ((ns.map (flowEl f)).map fixDiscr) = (ns.map fixDiscr).map (flowEl f) := by
      rw [List.map_map, List.map_map]; exact List.map_congr_left fun n _ => flowEl_fix f n
    have e2 : ((ns.map fixDiscr).map (flowEl f)).map (·.elem) = ((ns.map fixDiscr).map (·.elem)).map (Emu.setElem f) := by
      rw [List.map_map (l := ns.map fixDiscr), List.map_map (l := ns.map fixDiscr)]; exact List.map_congr_left fun n _ => flowEl_elem f n
    refine ⟨n, ?_, Emu.withFlow g' f, ?_, ?_⟩
    · show numberOfCells p.dims g.top _ = _
      rw [← hn]; unfold numberOfCells
      rw [List.map_map, show (countElem p.dims ∘ flowEl f) = countElem p.dims from funext fun n => flowEl_count f _ n]
    · show fillGrid p.dims.nLayers _ g.top g.bottom = _
      rw [e1, e2, Emu.fillGrid_set, hg']; rfl
    · show ({ d := p.dims, nCells := n, g := _, ls := layersOf p.dims g.top _, flps := fillFloorplans p.dims.nLayers _, ns := _ } : Grid K) = _
      rw [e1, e2, Emu.fillFloorplans_set]
      unfold layersOf at hG ⊢
      simp only [stackLayers_flow]
      obtain ⟨Gd, Gn, Gg, Gl, Gf, Gns⟩ := G
      simp only [Grid.mk.injEq] at hG ⊢
      obtain ⟨rfl, rfl, rfl, rfl, rfl, rfl⟩ := hG
      exact ⟨rfl, rfl, rfl, rfl, rfl, rfl⟩

theorem capacity_flow (f : K) (g : TGrid K) (d : Dims K) (c : Cell K) : capacityNU (Emu.withFlow g f) d c = capacityNU g d c := by
  obtain ⟨n, ts, ls, ch, top, bot⟩ := g
  unfold capacityNU Emu.withFlow chan
  cases ch <;> rfl

theorem caps_flow (f : K) (G : Grid K) : capsNU { G with g := Emu.withFlow G.g f, ns := G.ns.map (flowEl f) } = capsNU G := by
  unfold capsNU
  simp only [capacity_flow]
  rfl

theorem ty_flow (f : K) (G : Grid K) : Grid.ty { G with g := Emu.withFlow G.g f, ns := G.ns.map (flowEl f) } = G.ty := by
  funext l
  unfold Grid.ty
  simp only [record_flow]
  rfl

theorem flow_state (cfg : NCfg K π) (s : NSim K π) (f : K) :
    (flowNU cfg s f).1.G = { s.G with g := Emu.withFlow s.G.g (Emu.flowToUm3 f), ns := s.G.ns.map (flowEl (Emu.flowToUm3 f)) } ∧
    (flowNU cfg s f).1.conns = s.conns ∧
    (flowNU cfg s f).1.mat = fillMatrixNU id (Emu.withFlow s.G.g (Emu.flowToUm3 f)) cfg.an.ana s.G.d s.G.ls.flatten s.conns ∧
    (flowNU cfg s f).1.caps = s.caps ∧ (flowNU cfg s f).1.time = s.time ∧ (flowNU cfg s f).1.temps = s.temps ∧
    (flowNU cfg s f).1.plug = s.plug ∧
    (flowNU cfg s f).2 = cfg.factor (fillMatrixNU id (Emu.withFlow s.G.g (Emu.flowToUm3 f)) cfg.an.ana s.G.d s.G.ls.flatten s.conns) := by
  unfold flowNU
  simp only
  split
  · next h => exact ⟨rfl, rfl, rfl, rfl, rfl, rfl, rfl, h.symm⟩
  · next h => exact ⟨rfl, rfl, rfl, rfl, rfl, rfl, rfl, by simpa using h⟩

theorem valid_flow {cfg : NCfg K π} {s : NSim K π} (h : Valid cfg d0 decl rs ns s) (f : K) :
    Valid cfg d0 (decl.map (Emu.setFlow (Emu.flowToUm3 f))) rs (ns.map (flowEl (Emu.flowToUm3 f))) (flowNU cfg s f).1 := by
  obtain ⟨h1, h2, h3, h4, h5, -⟩ := flow_state cfg s f
  refine ⟨?_, ?_, ?_, ?_, ?_⟩
  · rw [h1]; exact h.grid.flow _
  · rw [h1, h2, ty_flow]; exact h.conns
  · rw [h1, h2, h3]
  · rw [h1, h4, caps_flow]; exact h.caps
  · rw [h5]; exact h.time

theorem reachable_valid {cfg : NCfg K π} {s : NSim K π} (h : ReachableNU cfg d0 decl rs ns s) : Valid cfg d0 decl rs ns s := by
  induction h with
  | begun h => exact (begun_valid h).1
  | call _ o ih => exact valid_exec ih o
  | flow _ f ih => exact valid_flow ih f

theorem run_append (cfg : NCfg K π) (a b : List (NOp K)) (s : NSim K π) :
    run cfg (a ++ b) s = ((run cfg a s).1 ++ (run cfg b (run cfg a s).2).1, (run cfg b (run cfg a s).2).2) := by
  induction a generalizing s with
  | nil => simp [run]
  | cons o os ih => simp [run, ih]

theorem ReachableNU.exec {cfg : NCfg K π} {s : NSim K π} (h : ReachableNU cfg d0 decl rs ns s) (o : NOp K) :
    ReachableNU cfg d0 decl rs ns (exec cfg o s).2 := .call h o

theorem Begun.reachable {cfg : NCfg K π} {s : NSim K π} (h : Begun cfg d0 decl rs ns s) : ReachableNU cfg d0 decl rs ns s := .begun h

end Verif.NU
