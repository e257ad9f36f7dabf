import Verif.Lemmas.Emulate
import Verif.Props.MatrixSize

/-! C08–C12, C35, C41, C50: steps, slots, power traces, resets. -/

set_option linter.unusedSectionVars false
set_option linter.unusedSimpArgs false
set_option linter.unusedVariables false

namespace Verif.Emu
open Verif.Dim Verif.TG Verif.SM Verif.Flp Verif.Stk

variable {K : Type} [Field K] [LinearOrder K] [IsStrictOrderedRing K] {π : Type}

/-! ### Specification -/

/-- The floorplan elements of a simulation, from the bottom layer upwards, with the power values they have not used yet. -/
def elements (s : Sim K π) : List (FlpEl K) := s.flps.flatMap fun o => o.getD []

/-- The power values still available, element by element. -/
def traces (s : Sim K π) : List (List K) := (elements s).map (·.powers)

/-- The floorplan elements of a stack section, which is written from the top to the bottom. -/
def fileElements (rs : List (Raw K (List (FlpEl K)))) : List (FlpEl K) :=
  rs.reverse.flatMap fun r => match r.body with | .die x => x.flp | _ => []

/-- `s` is the simulation built for the stack section `rs`. -/
def Started (cfg : Cfg K π) (rs : List (Raw K (List (FlpEl K)))) (s : Sim K π) : Prop :=
  ∃ (d0 : Dims K) (decl : Option (Channel K)) (p : Parsed K (List (FlpEl K))) (q : π), BuiltFrom d0 decl rs p s.g ∧ cfg.d = p.dims ∧
    build cfg s.g (fillFloorplans p.dims.nLayers p.elems) q = some s

/-- Calls a user can make on a simulation. -/
inductive Op (K : Type) where
  | step | insert (vs : List K) | reset | flow (f : K)

/-- Effect of a call; simulation steps also return a result. -/
def exec (cfg : Cfg K π) : Op K → Sim K π → List SimResult × Sim K π
  | .step, s => ([(emulateStep cfg s).1], (emulateStep cfg s).2)
  | .insert vs, s => ([], (insertPowerValues s vs).1)
  | .reset, s => ([], reset cfg s)
  | .flow f, s => ([], (updateFlow cfg s f).1)

/-- Effect of a sequence of calls: the results of the steps and the final state. -/
def run (cfg : Cfg K π) : List (Op K) → Sim K π → List SimResult × Sim K π
  | [], s => ([], s)
  | o :: os, s => ((exec cfg o s).1 ++ (run cfg os (exec cfg o s).2).1, (run cfg os (exec cfg o s).2).2)

/-- Reached from a built simulation by calls of the API. -/
def Reachable (cfg : Cfg K π) (s : Sim K π) : Prop := ∃ rs s0 ops, Started cfg rs s0 ∧ (run cfg ops s0).2 = s

/-- A step was simulated. -/
def Succeeded (r : SimResult) : Prop := r = .stepDone ∨ r = .slotDone
instance (r : SimResult) : Decidable (Succeeded r) := by unfold Succeeded; infer_instance

/-- Number of steps simulated. -/
def successes (rs : List SimResult) : Nat := rs.countP fun r => decide (Succeeded r)

/-! ### The invariant -/

/-- What every reachable state satisfies. -/
structure Ready (s : Sim K π) : Prop where
  len : s.flps.length = s.g.nLayers
  ok : FlpsOk s.g 0 s.flps

theorem flpsOk_congr {g : TGrid K} {l : Nat} {A B : List (Option (List (FlpEl K)))} (h : B.map Option.isSome = A.map Option.isSome)
    (hA : FlpsOk g l A) : FlpsOk g l B := by
  intro i o hi
  have h' := congrArg (fun x => x[i]?) h
  simp only [List.getElem?_map, hi, Option.map_some] at h'
  cases hAi : A[i]? with
  | none => rw [hAi] at h'; simp at h'
  | some o' =>
    rw [hAi] at h'
    have := hA i o' hAi
    simp only [Option.map_some, Option.some.injEq] at h'
    rwa [h']

theorem Ready.congr {s s' : Sim K π} (h : Ready s) (hg : s'.g.types = s.g.types) (hn : s'.g.nLayers = s.g.nLayers)
    (hf : s'.flps.map Option.isSome = s.flps.map Option.isSome) : Ready s' := by
  constructor
  · have := congrArg List.length hf
    simp only [List.length_map] at this
    rw [this, h.len, hn]
  · have h1 := flpsOk_congr hf h.ok
    intro i o hi
    have := h1 i o hi
    unfold typeAt at this ⊢
    rwa [hg]

theorem els_map_pop (fs : List (Option (List (FlpEl K)))) : els (fs.map (Option.map (List.map pop))) = (els fs).map pop := by
  induction fs with
  | nil => rfl
  | cons o fs ih =>
    simp only [els, List.map_cons, List.flatMap_cons, List.map_append] at ih ⊢
    rw [ih]; cases o <;> rfl

/-- The source vector that the powers at the head of the traces give. -/
def slotSources (d : Dims K) (s : Sim K π) : List K :=
  layersAdd s.g d s.topTcs s.botTcs 0 0 s.flps (List.replicate d.nCells 0)

theorem updateSource_ok {s : Sim K π} (h : Ready s) (d : Dims K) (hp : ∀ e ∈ elements s, e.powers ≠ []) :
    updateSourceVector d s = ({ s with flps := s.flps.map (Option.map (List.map pop)), sources := slotSources d s }, true) := by
  unfold updateSourceVector
  have := updateFrom_ok s.g d s.topTcs s.botTcs s.flps [] 0 (List.replicate d.nCells 0) h.ok hp
  simp only [List.length_nil, List.nil_append, h.len] at this
  simp only [this, slotSources]

theorem updateSource_fail {s : Sim K π} (h : Ready s) (d : Dims K) (hp : ∃ e ∈ elements s, e.powers = []) :
    ∃ fs x, updateSourceVector d s = ({ s with flps := fs, sources := x }, false) ∧ fs.map Option.isSome = s.flps.map Option.isSome ∧
      els fs = popStart (elements s) := by
  unfold updateSourceVector
  obtain ⟨fs, x, e1, e2, e3⟩ := updateFrom_fail s.g d s.topTcs s.botTcs s.flps [] 0 (List.replicate d.nCells 0) h.ok hp
  simp only [List.length_nil, List.nil_append, h.len] at e1
  exact ⟨fs, x, by simp only [e1], e2, e3⟩

/-- What the second half of a step keeps. -/
theorem pluggable_keeps (cfg : Cfg K π) (s : Sim K π) : (pluggable cfg s).1.flps = s.flps ∧ (pluggable cfg s).1.g = s.g ∧
    (pluggable cfg s).1.time = s.time ∧ (pluggable cfg s).1.mat = s.mat ∧ (pluggable cfg s).1.temps = s.temps := by
  unfold pluggable
  split
  · simp only; split <;> exact ⟨rfl, rfl, rfl, rfl, rfl⟩
  · exact ⟨rfl, rfl, rfl, rfl, rfl⟩

theorem result_cases (t L : Nat) : Succeeded (if (t % L == 0) = true then .slotDone else .stepDone) ∧
    ((if (t % L == 0) = true then SimResult.slotDone else .stepDone) = .slotDone ↔ t % L = 0) := by
  by_cases hc : t % L = 0
  · simp [hc, Succeeded]
  · simp [hc, Succeeded]

theorem finish_ok {cfg : Cfg K π} {s s1 : Sim K π} {x : List K} (h : pluggable cfg s = (s1, true))
    (h2 : cfg.solve s1.mat (fillSystemVector cfg s1) = some x) :
    finishStep cfg s = (if slotCompleted cfg.an (increaseTime { s1 with temps := x }) = true then .slotDone else .stepDone,
      increaseTime { s1 with temps := x }) := by
  unfold finishStep
  simp only [h, h2, if_true]

theorem finish_solver {cfg : Cfg K π} {s s1 : Sim K π} (h : pluggable cfg s = (s1, true))
    (h2 : cfg.solve s1.mat (fillSystemVector cfg s1) = none) :
    ∃ b, finishStep cfg s = (.solverError, { s1 with temps := b }) := by
  refine ⟨fillSystemVector cfg s1, ?_⟩
  unfold finishStep
  simp only [h, h2, if_true]

theorem finish_plugin {cfg : Cfg K π} {s s1 : Sim K π} (h : pluggable cfg s = (s1, false)) :
    finishStep cfg s = (.solverError, s1) := by
  unfold finishStep
  simp [h]

theorem time_increase (s1 : Sim K π) (x : List K) : (increaseTime { s1 with temps := x }).time = (s1.time + 1) % W := by
  simp only [increaseTime]

theorem finishStep_cases (cfg : Cfg K π) (s : Sim K π) :
    (finishStep cfg s).2.flps = s.flps ∧ (finishStep cfg s).2.g = s.g ∧ (finishStep cfg s).2.mat = s.mat ∧
    (((finishStep cfg s).1 = .solverError ∧ (finishStep cfg s).2.time = s.time) ∨
      (Succeeded (finishStep cfg s).1 ∧ (finishStep cfg s).2.time = (s.time + 1) % W ∧
        ((finishStep cfg s).1 = .slotDone ↔ (s.time + 1) % W % cfg.an.slotLength = 0))) := by
  obtain ⟨h1, h2, h3, h4, -⟩ := pluggable_keeps cfg s
  cases hpl : pluggable cfg s with
  | mk s1 ok =>
    rw [hpl] at h1 h2 h3 h4
    simp only at h1 h2 h3 h4
    cases ok with
    | false => rw [finish_plugin hpl]; exact ⟨h1, h2, h4, Or.inl ⟨rfl, h3⟩⟩
    | true =>
      cases hs : cfg.solve s1.mat (fillSystemVector cfg s1) with
      | none => obtain ⟨b, hb⟩ := finish_solver hpl hs; rw [hb]; exact ⟨h1, h2, h4, Or.inl ⟨rfl, h3⟩⟩
      | some x =>
        have ht : (increaseTime { s1 with temps := x }).time = (s.time + 1) % W := (time_increase s1 x).trans (by rw [h3])
        have e1 : (increaseTime { s1 with temps := x }).flps = s1.flps := rfl
        have e2 : (increaseTime { s1 with temps := x }).g = s1.g := rfl
        have e4 : (increaseTime { s1 with temps := x }).mat = s1.mat := rfl
        rw [finish_ok hpl hs]
        generalize increaseTime { s1 with temps := x } = s2 at *
        have hr := result_cases s2.time cfg.an.slotLength
        rw [← ht]
        exact ⟨e1.trans h1, e2.trans h2, e4.trans h4, Or.inr ⟨hr.1, rfl, hr.2⟩⟩

/-- A step that reports the end of the simulation. -/
theorem step_end {cfg : Cfg K π} {s : Sim K π} (h : Ready s) (ht : cfg.an.type = .transient) (hb : s.time % cfg.an.slotLength = 0)
    (hp : ∃ e ∈ elements s, e.powers = []) :
    ∃ fs x, emulateStep cfg s = (.endOfSimulation, { s with flps := fs, sources := x }) ∧ fs.map Option.isSome = s.flps.map Option.isSome ∧
      els fs = popStart (elements s) := by
  obtain ⟨fs, x, e1, e2, e3⟩ := updateSource_fail h cfg.d hp
  refine ⟨fs, x, ?_, e2, e3⟩
  simp [emulateStep, ht, slotCompleted, hb, e1]

theorem step_start {cfg : Cfg K π} {s : Sim K π} (h : Ready s) (ht : cfg.an.type = .transient) (hb : s.time % cfg.an.slotLength = 0)
    (hp : ∀ e ∈ elements s, e.powers ≠ []) :
    emulateStep cfg s = finishStep cfg { s with flps := s.flps.map (Option.map (List.map pop)), sources := slotSources cfg.d s } := by
  simp [emulateStep, ht, slotCompleted, hb, updateSource_ok h cfg.d hp]

theorem step_inside {cfg : Cfg K π} {s : Sim K π} (ht : cfg.an.type = .transient) (hb : s.time % cfg.an.slotLength ≠ 0) :
    emulateStep cfg s = finishStep cfg s := by
  simp [emulateStep, ht, slotCompleted, hb]

theorem isSome_map_pop (fs : List (Option (List (FlpEl K)))) :
    (fs.map (Option.map (List.map pop))).map Option.isSome = fs.map Option.isSome := by
  induction fs with
  | nil => rfl
  | cons o fs ih => cases o <;> simp_all

/-- Everything about one step that does not depend on the numbers. -/
theorem step_spec {cfg : Cfg K π} {s : Sim K π} (h : Ready s) :
    Ready (emulateStep cfg s).2 ∧ (emulateStep cfg s).2.g = s.g ∧ (emulateStep cfg s).2.mat = s.mat ∧
    (((emulateStep cfg s).1 = .wrongConfig ∧ cfg.an.type ≠ .transient ∧ (emulateStep cfg s).2 = s) ∨
     ((emulateStep cfg s).1 = .endOfSimulation ∧ cfg.an.type = .transient ∧ s.time % cfg.an.slotLength = 0 ∧
        (∃ e ∈ elements s, e.powers = []) ∧ (emulateStep cfg s).2.time = s.time ∧ (emulateStep cfg s).2.temps = s.temps ∧
        elements (emulateStep cfg s).2 = popStart (elements s)) ∨
     (cfg.an.type = .transient ∧ (s.time % cfg.an.slotLength = 0 → ∀ e ∈ elements s, e.powers ≠ []) ∧
        elements (emulateStep cfg s).2 = (if s.time % cfg.an.slotLength = 0 then (elements s).map pop else elements s) ∧
        (((emulateStep cfg s).1 = .solverError ∧ (emulateStep cfg s).2.time = s.time) ∨
          (Succeeded (emulateStep cfg s).1 ∧ (emulateStep cfg s).2.time = (s.time + 1) % W ∧
            ((emulateStep cfg s).1 = .slotDone ↔ (s.time + 1) % W % cfg.an.slotLength = 0))))) := by
  by_cases ht : cfg.an.type = .transient
  · by_cases hb : s.time % cfg.an.slotLength = 0
    · by_cases hp : ∃ e ∈ elements s, e.powers = []
      · obtain ⟨fs, x, e1, e2, e3⟩ := step_end h ht hb hp
        rw [e1]
        exact ⟨h.congr rfl rfl e2, rfl, rfl, Or.inr (Or.inl ⟨rfl, ht, hb, hp, rfl, rfl, e3⟩)⟩
      · have hp' : ∀ e ∈ elements s, e.powers ≠ [] := fun e he hh => hp ⟨e, he, hh⟩
        rw [step_start h ht hb hp']
        obtain ⟨f1, f2, f3, f4⟩ := finishStep_cases cfg { s with flps := s.flps.map (Option.map (List.map pop)), sources := slotSources cfg.d s }
        refine ⟨h.congr (by rw [f2]) (by rw [f2]) (by rw [f1]; exact isSome_map_pop _), f2, f3, Or.inr (Or.inr ⟨ht, fun _ => hp', ?_, f4⟩)⟩
        rw [if_pos hb]; unfold elements; rw [f1]; exact els_map_pop _
    · rw [step_inside ht hb]
      obtain ⟨f1, f2, f3, f4⟩ := finishStep_cases cfg s
      refine ⟨h.congr (by rw [f2]) (by rw [f2]) (by rw [f1]), f2, f3, Or.inr (Or.inr ⟨ht, fun h0 => absurd h0 hb, ?_, f4⟩)⟩
      rw [if_neg hb]; unfold elements; rw [f1]
  · have : emulateStep cfg s = (.wrongConfig, s) := by simp [emulateStep, ht]
    rw [this]
    exact ⟨h, rfl, rfl, Or.inl ⟨rfl, ht, rfl⟩⟩

theorem insert_spec {s : Sim K π} (h : Ready s) (vs : List K) :
    ∃ fs, insertPowerValues s vs = ({ s with flps := fs }, decide ((elements s).length ≤ vs.length)) ∧
      fs.map Option.isSome = s.flps.map Option.isSome ∧ els fs = pushEach (elements s) vs := by
  obtain ⟨fs, e1, e2, e3⟩ := insertFrom_eq s.g s.flps [] vs h.ok
  simp only [List.length_nil, List.nil_append, h.len] at e1
  exact ⟨fs, by simp only [insertPowerValues, e1]; rfl, e2, e3⟩

theorem updateFlow_keeps (cfg : Cfg K π) (s : Sim K π) (f : K) : (updateFlow cfg s f).1.flps = s.flps ∧ (updateFlow cfg s f).1.time = s.time ∧
    (updateFlow cfg s f).1.g.types = s.g.types ∧ (updateFlow cfg s f).1.g.nLayers = s.g.nLayers ∧ (updateFlow cfg s f).1.temps = s.temps := by
  unfold updateFlow
  simp only
  split <;> exact ⟨rfl, rfl, rfl, rfl, rfl⟩

theorem ready_exec {cfg : Cfg K π} {s : Sim K π} (h : Ready s) (o : Op K) : Ready (exec cfg o s).2 := by
  cases o with
  | step => exact (step_spec h).1
  | insert vs =>
    obtain ⟨fs, e1, e2, -⟩ := insert_spec h vs
    simp only [exec, e1]
    exact h.congr rfl rfl e2
  | reset => exact h.congr rfl rfl rfl
  | flow f =>
    obtain ⟨e1, -, e3, e4, -⟩ := updateFlow_keeps cfg s f
    exact h.congr e3 e4 (by rw [exec, e1])

theorem ready_run {cfg : Cfg K π} (ops : List (Op K)) {s : Sim K π} (h : Ready s) : Ready (run cfg ops s).2 := by
  induction ops generalizing s with
  | nil => exact h
  | cons o os ih => exact ih (ready_exec h o)

theorem run_append (cfg : Cfg K π) (a b : List (Op K)) (s : Sim K π) :
    run cfg (a ++ b) s = ((run cfg a s).1 ++ (run cfg b (run cfg a s).2).1, (run cfg b (run cfg a s).2).2) := by
  induction a generalizing s with
  | nil => simp [run]
  | cons o os ih => simp [run, ih]

/-- A built simulation is ready, its elements are those of the file, its time is 0. -/
theorem started_spec {cfg : Cfg K π} {rs : List (Raw K (List (FlpEl K)))} {s : Sim K π} (h : Started cfg rs s) :
    Ready s ∧ elements s = fileElements rs ∧ s.time = 0 ∧ s.temps = List.replicate cfg.d.nCells cfg.an.initTemp ∧
      s.mat = fillMatrix s.g cfg.an.ana cfg.d ∧ s.caps = capList s.g cfg.d ∧ s.topTcs = topList s.g cfg.d ∧ s.botTcs = botList s.g cfg.d ∧
      s.sources = List.replicate cfg.d.nCells 0 := by
  obtain ⟨d0, decl, p, q, hb, hd, hs⟩ := h
  unfold build at hs
  simp only at hs
  split at hs
  · next hf =>
    simp only [Option.some.injEq] at hs
    obtain ⟨hn, -, -, -, hfl, hnone⟩ := C16_layers_match_file hb.ok hb.parse
    have hflps : s.flps = rs.reverse.flatMap (specFlps decl) := by rw [← hs]; exact hfl
    have hgn : s.g.nLayers = p.dims.nLayers := by
      have := hb.fill
      unfold fillGrid at this
      simp only [Option.bind_eq_some_iff, Option.map_eq_some_iff] at this
      obtain ⟨_, _, _, _, e⟩ := this
      rw [← e]
    have hlen : s.flps.length = p.dims.nLayers := by
      rw [← hs]
      have h1 := C17_floorplans_only_in_source_layers hb.ok hb.parse (s := spreaderOf s.g)
      have : ∀ es : List (SElem K (List (FlpEl K))), ∀ fs : List (Option (List (FlpEl K))), (es.foldl writeFlp fs).length = fs.length := by
        intro es
        induction es with
        | nil => intro fs; rfl
        | cons e es ih =>
          intro fs
          rw [List.foldl_cons, ih]
          have hw : ∀ (ys xs : List (Option (List (FlpEl K)))) (i : Nat), (writes xs i ys).length = xs.length := by
            intro ys
            induction ys with
            | nil => intro xs i; rfl
            | cons y ys ih => intro xs i; rw [writes, ih, List.length_set]
          unfold writeFlp
          cases e.body <;> simp [hw]
      simp [fillFloorplans, this]
    refine ⟨⟨by rw [hlen, hgn], ?_⟩, ?_, ?_, ?_, ?_, ?_, ?_, ?_, ?_⟩
    · intro l o hl
      rw [Nat.zero_add]
      have hlt : l < p.dims.nLayers := by
        rw [← hlen]; exact (List.getElem?_eq_some_iff.mp hl).1
      have hst : ∃ t, (stackTypes decl rs)[l]? = some t := ⟨_, List.getElem?_eq_getElem (by rw [← hn]; exact hlt)⟩
      obtain ⟨t, ht⟩ := hst
      have ht0 : t ≠ .none := fun e => hnone (e ▸ List.mem_of_getElem? ht)
      have h17 := C17_floorplans_only_in_source_layers hb.ok hb.parse l
      have hl' : (fillFloorplans p.dims.nLayers p.elems)[l]? = some o := by rw [← hl, ← hs]
      rw [hl', ht] at h17
      obtain ⟨-, -, -, -, -, hty⟩ := C18_sinks_change_only_outermost_layers hb.ok hb.parse hb.fill
      have e := typeAt_of_get (hty l t ht)
      have hiso : o.isSome = decide (t = .source) := by
        cases o with
        | none =>
          simp only [Option.some.injEq, reduceCtorEq, exists_false, false_iff] at h17
          simp [h17]
        | some f => simp only [Option.some.injEq, exists_eq', true_iff] at h17; simp [h17]
      obtain ⟨⟨t0, h0, h0'⟩, ⟨t1, h1, h1'⟩⟩ := stack_ends hb.parse
      rw [← hn] at h1
      by_cases c0 : l = 0 ∧ s.g.bottom.isSome
      · rw [if_pos c0] at e
        obtain ⟨rfl, c⟩ := c0
        have : t = t0 := by rw [h0] at ht; simpa using ht.symm
        subst this
        rw [hiso, e]
        cases hbt : s.g.bottom with
        | none => rw [hbt] at c; simp at c
        | some b => rcases h0' with rfl | rfl <;> simp [withBottom, isSrc]
      · rw [if_neg c0] at e
        by_cases c1 : l = p.dims.nLayers - 1
        · rw [if_pos c1] at e
          subst c1
          have : t = t1 := by rw [h1] at ht; simpa using ht.symm
          subst this
          rw [hiso, e]
          cases htp : s.g.top with
          | none => rcases h1' with rfl | rfl <;> simp [withTop, isSrc]
          | some tp => cases tp <;> rcases h1' with rfl | rfl <;> simp [withTop, isSrc]
        · rw [if_neg c1] at e
          rw [hiso, e]
          refine ⟨ht0, ?_⟩
          have : ∀ t ∈ stackTypes decl rs, isSrc t = decide (t = .source) := by
            intro t ht
            unfold stackTypes at ht
            rw [List.mem_flatMap] at ht
            obtain ⟨r, -, hr⟩ := ht
            unfold specTypes at hr
            cases hbd : r.body with
            | die dd => simp [hbd] at hr; rcases hr with ⟨-, rfl⟩ | rfl | ⟨-, rfl⟩ <;> rfl
            | layer ly => simp [hbd] at hr; subst hr; rfl
            | channel =>
              simp only [hbd] at hr
              cases hm : decl.map (fun ch => ch.model) with
              | none => simp [hm] at hr
              | some m => cases m <;> simp [hm] at hr <;> (try rcases hr with rfl | rfl | rfl | rfl) <;> (try subst hr) <;> rfl
          exact this t (List.mem_of_getElem? ht)
    · unfold elements fileElements
      rw [hflps, List.flatMap_assoc]
      congr 1; funext r
      unfold specFlps
      cases r.body with
      | die dd =>
        have : ∀ L : List (Layer K), (L.map fun _ => (none : Option (List (FlpEl K)))).flatMap (fun o => o.getD []) = [] := by
          intro L; induction L <;> simp_all
        simp only [List.flatMap_append, this]
        simp
      | layer ly => simp
      | channel =>
        simp only
        cases decl.map (fun ch => ch.model) with
        | none => simp
        | some m => cases m <;> simp
    all_goals rw [← hs]
  · simp at hs

theorem reachable_ready {cfg : Cfg K π} {s : Sim K π} (h : Reachable cfg s) : Ready s := by
  obtain ⟨rs, s0, ops, h1, h2⟩ := h
  rw [← h2]; exact ready_run ops (started_spec h1).1

theorem Reachable.exec {cfg : Cfg K π} {s : Sim K π} (h : Reachable cfg s) (o : Op K) : Reachable cfg (exec cfg o s).2 := by
  obtain ⟨rs, s0, ops, h1, h2⟩ := h
  exact ⟨rs, s0, ops ++ [o], h1, by rw [run_append, h2]; rfl⟩

/-! ### A simulation to exercise the theorems

One die of two layers (the source layer at the bottom) with two floorplan elements `a` and `b`, a heat spreader on top and a board at the
bottom. The solver returns the right-hand side: it never fails. -/

def demoEl (n : String) (pw : List ℚ) : FlpEl ℚ := ⟨n, 100, [⟨⟨0, 0, 10, 10⟩, 0, 0, 0, 0⟩], pw⟩
def demoRaw (p q : List ℚ) : List (Raw ℚ (List (FlpEl ℚ))) := [⟨"die", .die ⟨[exLayer 20], exLayer 5, [], [demoEl "a" p, demoEl "b" q]⟩⟩]
def demoCfg (t : AType) (L : Nat) : Cfg ℚ Unit :=
  { d := exSolidD, an := ⟨t, 1 / 100, L, 300⟩, solve := fun _ b => some b, factor := fun _ => true, plugin := fun u _ _ => (u, some []) }
def demoSim (t : AType) (L : Nat) (p q : List ℚ) : Sim ℚ Unit :=
  { g := exSolidG, mat := fillMatrix exSolidG (demoCfg t L).an.ana exSolidD, temps := List.replicate exSolidD.nCells 300,
    sources := List.replicate exSolidD.nCells 0, caps := capList exSolidG exSolidD, topTcs := topList exSolidG exSolidD,
    botTcs := botList exSolidG exSolidD, flps := [some [demoEl "a" p, demoEl "b" q], none], time := 0, plug := () }

theorem demo_started (t : AType) (L : Nat) (p q : List ℚ) : Started (demoCfg t L) (demoRaw p q) (demoSim t L p q) := by
  refine ⟨exDims, none, ⟨[⟨"die", .die ⟨[exLayer 20, exLayer 5], 0, [demoEl "a" p, demoEl "b" q]⟩, 0⟩], exSolidD,
    ((parseStack exDims none (some exSpreader) (demoRaw p q)).get rfl).nConn⟩, (), ?_, rfl, ?_⟩
  · refine ⟨(by decide : 1 ≤ exSolidD.nRows), (by decide : 1 ≤ exSolidD.nCols), ?_, ?_, rfl, rfl⟩
    · intro s h; simp [spreaderOf, exSolidG, demoSim] at h; subst h
      exact (by decide : exSpreader.nRows = exSpreader.rowsBorder + exSolidD.nRows + exSpreader.rowsBorder ∧
        exSpreader.nCols = exSpreader.colsBorder + exSolidD.nCols + exSpreader.colsBorder)
    · rintro ch h; simp at h
  · unfold build; rw [if_pos (by rfl)]; rfl

theorem demo_elements (t : AType) (L : Nat) (p q : List ℚ) : elements (demoSim t L p q) = [demoEl "a" p, demoEl "b" q] := rfl

theorem demo_reachable (t : AType) (L : Nat) (p q : List ℚ) : Reachable (demoCfg t L) (demoSim t L p q) :=
  ⟨_, _, [], demo_started t L p q, rfl⟩

/-- A solver and a plugin that never fail. -/
def Healthy (cfg : Cfg K π) : Prop := (∀ A b, cfg.solve A b ≠ none) ∧ ∀ q t f, (cfg.plugin q t f).2 ≠ none

theorem demo_healthy (t : AType) (L : Nat) : Healthy (demoCfg t L) := ⟨fun _ _ => by simp [demoCfg], fun _ _ _ => by simp [demoCfg]⟩

theorem finish_healthy {cfg : Cfg K π} (h : Healthy cfg) (s : Sim K π) : (finishStep cfg s).1 ≠ .solverError := by
  have hp : (pluggable cfg s).2 = true := by
    unfold pluggable
    split
    · next sp m _ =>
      have := h.2 s.plug (s.temps.drop (spreaderOffset cfg.d sp 0 0)) (s.sources.drop (spreaderOffset cfg.d sp 0 0))
      simp only
      split
      · next p hq => rw [hq] at this; exact absurd rfl this
      · rfl
    · rfl
  cases hpl : pluggable cfg s with
  | mk s1 ok =>
    rw [hpl] at hp
    simp only at hp
    subst hp
    cases hs : cfg.solve s1.mat (fillSystemVector cfg s1) with
    | none => exact absurd hs (h.1 _ _)
    | some x =>
      rw [finish_ok hpl hs]
      generalize slotCompleted cfg.an _ = b
      cases b <;> simp

theorem step_healthy {cfg : Cfg K π} (h : Healthy cfg) {s : Sim K π} (hr : Ready s) : (emulateStep cfg s).1 ≠ .solverError := by
  by_cases ht : cfg.an.type = .transient
  · by_cases hb : s.time % cfg.an.slotLength = 0
    · by_cases hp : ∃ e ∈ elements s, e.powers = []
      · obtain ⟨fs, x, e1, -⟩ := step_end hr ht hb hp
        rw [e1]; simp
      · rw [step_start hr ht hb fun e he hh => hp ⟨e, he, hh⟩]; exact finish_healthy h _
    · rw [step_inside ht hb]; exact finish_healthy h _
  · simp [emulateStep, ht]

/-! ### C08 -/

theorem W_eq : W = 2 ^ 32 := by unfold W; norm_num

theorem time_run {cfg : Cfg K π} (ops : List (Op K)) {s : Sim K π} (h : Ready s) (hW : s.time + successes (run cfg ops s).1 < W) :
    (run cfg ops s).2.time = s.time + successes (run cfg ops s).1 := by
  induction ops generalizing s with
  | nil => simp [run, successes]
  | cons o os ih =>
    have hr : successes (run cfg (o :: os) s).1 = successes (exec cfg o s).1 + successes (run cfg os (exec cfg o s).2).1 := by
      simp [run, successes, List.countP_append]
    rw [hr] at hW ⊢
    have key : (exec cfg o s).2.time = s.time + successes (exec cfg o s).1 := by
      cases o with
      | step =>
        simp only [exec]
        simp only [exec] at hW
        obtain ⟨-, -, -, hc⟩ := step_spec (cfg := cfg) h
        rcases hc with ⟨h1, -, h2⟩ | ⟨h1, -, -, -, h2, -⟩ | ⟨-, -, -, h1 | h1⟩
        · rw [h1, h2]; simp [successes, Succeeded]
        · rw [h1, h2]; simp [successes, Succeeded]
        · rw [h1.1, h1.2]; simp [successes, Succeeded]
        · have e : successes [(emulateStep cfg s).1] = 1 := by simp [successes, h1.1]
          rw [e] at hW
          rw [h1.2.1, e, Nat.mod_eq_of_lt (by omega)]
      | insert vs =>
        obtain ⟨fs, e1, -⟩ := insert_spec h vs
        simp only [exec, e1]; simp [successes]
      | reset => rfl
      | flow f =>
        obtain ⟨-, e2, -⟩ := updateFlow_keeps cfg s f
        simp only [exec, e2]; simp [successes]
    have := ih (ready_exec h o) (by rw [key]; omega)
    rw [run, this, key]; omega

/-- **C08** Whatever calls are made after the simulation is built, as long as fewer than 2^32 steps have been simulated the current time is
their number and the simulated time is that number of step times. -/
theorem C08_time_counts_steps {cfg : Cfg K π} {rs : List (Raw K (List (FlpEl K)))} {s0 : Sim K π} (h : Started cfg rs s0) (ops : List (Op K))
    (hn : successes (run cfg ops s0).1 < 2 ^ 32) :
    (run cfg ops s0).2.time = successes (run cfg ops s0).1 ∧
      simulatedTime cfg.an (run cfg ops s0).2 = (successes (run cfg ops s0).1 : K) * cfg.an.stepTime := by
  obtain ⟨hr, -, ht, -⟩ := started_spec h
  have := time_run (cfg := cfg) ops hr (by rw [ht, W_eq]; omega)
  rw [ht, Nat.zero_add] at this
  exact ⟨this, by rw [simulatedTime, this]⟩

/-- **C08** The n-th simulated step reports the end of a slot exactly if n is a multiple of the slot length. -/
theorem C08_slot_done_iff {cfg : Cfg K π} {rs : List (Raw K (List (FlpEl K)))} {s0 : Sim K π} (h : Started cfg rs s0) (ops : List (Op K))
    {n : Nat} (hn : successes (run cfg (ops ++ [.step]) s0).1 = n) (hW : n < 2 ^ 32) {r : SimResult}
    (hr : (run cfg (ops ++ [.step]) s0).1.getLast? = some r) (hs : Succeeded r) :
    (r = .slotDone ↔ cfg.an.slotLength ∣ n) ∧ (r = .stepDone ↔ ¬ cfg.an.slotLength ∣ n) := by
  have hrun : (run cfg (ops ++ [.step]) s0).1 = (run cfg ops s0).1 ++ [(emulateStep cfg (run cfg ops s0).2).1] := by
    rw [run_append]; simp [run, exec]
  rw [hrun, List.getLast?_append] at hr
  simp only [List.getLast?_singleton, Option.some_or, Option.some.injEq] at hr
  have e : successes (run cfg (ops ++ [.step]) s0).1 = successes (run cfg ops s0).1 + 1 := by
    rw [hrun, hr]
    simp [successes, List.countP_append, hs]
  obtain ⟨h0, -, ht, -⟩ := started_spec h
  have htime := (C08_time_counts_steps h ops (by omega)).1
  have hrd := ready_run (cfg := cfg) ops h0
  obtain ⟨-, -, -, hc⟩ := step_spec (cfg := cfg) hrd
  rw [hr] at hc
  rcases hc with ⟨h1, -⟩ | ⟨h1, -⟩ | ⟨-, -, -, h1 | h1⟩
  · rw [h1] at hs; simp [Succeeded] at hs
  · rw [h1] at hs; simp [Succeeded] at hs
  · rw [h1.1] at hs; simp [Succeeded] at hs
  · have hw := h1.2.2
    have hmod : ((run cfg ops s0).2.time + 1) % W = n := by
      rw [htime, ← e, hn]; exact Nat.mod_eq_of_lt (by rw [W_eq]; exact hW)
    rw [hmod] at hw
    rw [Nat.dvd_iff_mod_eq_zero]
    refine ⟨hw, ?_⟩
    rw [← hw]
    rcases hs with rfl | rfl <;> simp

/-- Non-vacuity: with three values per element and slots of two steps, the first four steps are all simulated. -/
example : (run (demoCfg .transient 2) [.step, .insert [5, 6], .step, .step, .reset, .step] (demoSim .transient 2 [1, 2, 3] [4, 5, 6])).1 =
    [.stepDone, .slotDone, .stepDone, .slotDone] := by
  have key : ∀ s : Sim ℚ Unit, Ready s → s.time < 10 → (s.time % 2 = 0 → ∀ e ∈ elements s, e.powers ≠ []) →
      (emulateStep (demoCfg .transient 2) s).1 = (if (s.time + 1) % 2 = 0 then .slotDone else .stepDone) ∧
      (emulateStep (demoCfg .transient 2) s).2.time = s.time + 1 ∧
      elements (emulateStep (demoCfg .transient 2) s).2 = (if s.time % 2 = 0 then (elements s).map pop else elements s) := by
    intro s hs ht hp
    have hh := step_healthy (demo_healthy .transient 2) hs
    obtain ⟨-, -, -, hc⟩ := step_spec (cfg := demoCfg .transient 2) hs
    rcases hc with ⟨-, h1, -⟩ | ⟨-, -, h1, ⟨e, he, h2⟩, -⟩ | ⟨-, -, h3, h1 | h1⟩
    · exact absurd rfl h1
    · exact absurd h2 (hp h1 e he)
    · exact absurd h1.1 hh
    · have hW : (s.time + 1) % W = s.time + 1 := Nat.mod_eq_of_lt (by rw [W_eq]; omega)
      rw [hW] at h1
      refine ⟨?_, h1.2.1, h3⟩
      have h2 : _ ↔ (s.time + 1) % 2 = 0 := h1.2.2
      by_cases hc : (s.time + 1) % 2 = 0
      · rw [if_pos hc]; exact h2.mpr hc
      · rw [if_neg hc]
        rcases h1.1 with h | h
        · exact h
        · exact absurd (h2.mp h) hc
  set s0 := demoSim .transient 2 [1, 2, 3] [4, 5, 6] with hs0
  have r0 : Ready s0 := (started_spec (demo_started .transient 2 [1, 2, 3] [4, 5, 6])).1
  have e0 : elements s0 = [demoEl "a" [1, 2, 3], demoEl "b" [4, 5, 6]] := rfl
  have t0 : s0.time = 0 := rfl
  clear_value s0
  obtain ⟨a1, a2, a3⟩ := key s0 r0 (by omega) (by rw [e0]; intro _ e he; fin_cases he <;> simp [demoEl])
  have r1 := (step_spec (cfg := demoCfg .transient 2) r0).1
  obtain ⟨fs, i1, i2, i3⟩ := insert_spec r1 [5, 6]
  have r2 : Ready (insertPowerValues (emulateStep (demoCfg .transient 2) s0).2 [5, 6]).1 := ready_exec (cfg := demoCfg .transient 2) r1 (.insert [5, 6])
  have t2 : (insertPowerValues (emulateStep (demoCfg .transient 2) s0).2 [5, 6]).1.time = 1 := by rw [i1]; simp [a2, t0]
  have e2 : elements (insertPowerValues (emulateStep (demoCfg .transient 2) s0).2 [5, 6]).1 = [demoEl "a" [2, 3, 5], demoEl "b" [5, 6, 6]] := by
    rw [i1]; show els fs = _; rw [i3, a3, e0, t0]; rfl
  simp only [run, exec, a1, t0]
  generalize (insertPowerValues (emulateStep (demoCfg .transient 2) s0).2 [5, 6]).1 = s2 at *
  obtain ⟨b1, b2, b3⟩ := key s2 r2 (by omega) (by rw [e2]; intro _ e he; fin_cases he <;> simp [demoEl])
  have r3 := (step_spec (cfg := demoCfg .transient 2) r2).1
  simp only [b1, t2]
  rw [t2] at b2; rw [e2, t2] at b3
  generalize (emulateStep (demoCfg .transient 2) s2).2 = s3 at *
  obtain ⟨c1, c2, c3⟩ := key s3 r3 (by omega) (by rw [b3]; intro _ e he; fin_cases he <;> simp [demoEl])
  have r4 := (step_spec (cfg := demoCfg .transient 2) r3).1
  simp only [c1, b2]
  rw [b2] at c2; rw [b2] at c3
  generalize (emulateStep (demoCfg .transient 2) s3).2 = s4 at *
  have r5 : Ready (reset (demoCfg .transient 2) s4) := r4.congr rfl rfl rfl
  have t5 : (reset (demoCfg .transient 2) s4).time = s4.time := rfl
  have e5 : elements (reset (demoCfg .transient 2) s4) = elements s4 := rfl
  generalize reset (demoCfg .transient 2) s4 = s5 at *
  obtain ⟨d1, d2, d3⟩ := key s5 r5 (by omega) (by rw [t5, c2]; intro h; simp at h)
  simp only [d1, t5, c2]
  simp

/-- `n` times: insert a value for each element, then simulate a step. -/
def feed (n : Nat) : List (Op ℚ) := (List.replicate n [Op.insert [1, 1], Op.step]).flatten

theorem feed_succ (n : Nat) : feed (n + 1) = feed n ++ [.insert [1, 1], .step] := by
  unfold feed; rw [List.replicate_succ']; simp

theorem feed_run (L n : Nat) : successes (run (demoCfg .transient L) (feed n) (demoSim .transient L [] [])).1 = n ∧
    (run (demoCfg .transient L) (feed n) (demoSim .transient L [] [])).2.time = n % W ∧
    (elements (run (demoCfg .transient L) (feed n) (demoSim .transient L [] [])).2).length = 2 ∧
    (∀ m, n = m + 1 → ((run (demoCfg .transient L) (feed n) (demoSim .transient L [] [])).1.getLast? = some .slotDone ↔ n % W % L = 0)) := by
  have r0 : Ready (demoSim .transient L [] []) := (started_spec (demo_started .transient L [] [])).1
  have t0 : (demoSim .transient L [] []).time = 0 := rfl
  have e0 : (elements (demoSim .transient L [] [])).length = 2 := rfl
  generalize demoSim .transient L [] [] = s0 at *
  induction n with
  | zero => exact ⟨rfl, by rw [feed]; simp [run, t0], e0, by intro m h; omega⟩
  | succ n ih =>
    obtain ⟨i1, i2, i3, -⟩ := ih
    rw [feed_succ, run_append]
    have rn := ready_run (cfg := demoCfg .transient L) (feed n) r0
    generalize (run (demoCfg .transient L) (feed n) s0).2 = s at *
    obtain ⟨fs, j1, j2, j3⟩ := insert_spec rn [1, 1]
    have r1 : Ready (insertPowerValues s [1, 1]).1 := ready_exec (cfg := demoCfg .transient L) rn (.insert [1, 1])
    have t1 : (insertPowerValues s [1, 1]).1.time = s.time := by rw [j1]
    have e1 : elements (insertPowerValues s [1, 1]).1 = pushEach (elements s) [1, 1] := by rw [j1]; exact j3
    simp only [run, exec, List.nil_append, List.append_nil]
    generalize (insertPowerValues s [1, 1]).1 = s1 at *
    have hp : ∀ e ∈ elements s1, e.powers ≠ [] := by
      rw [e1]
      match hh : elements s, i3 with
      | [a, b], _ => intro e he; simp [pushEach] at he; rcases he with rfl | rfl <;> simp
    have hlen : (elements s1).length = 2 := by rw [e1, pushEach_length, i3]
    have hh := step_healthy (demo_healthy .transient L) r1
    obtain ⟨-, -, -, hc⟩ := step_spec (cfg := demoCfg .transient L) r1
    rcases hc with ⟨-, h1, -⟩ | ⟨-, -, h1, ⟨e, he, h2⟩, -⟩ | ⟨-, -, h3, h1 | h1⟩
    · exact absurd rfl h1
    · exact absurd h2 (hp e he)
    · exact absurd h1.1 hh
    · obtain ⟨h1, h2, h4⟩ := h1
      have hmod : (s1.time + 1) % W = (n + 1) % W := by rw [t1, i2, Nat.mod_add_mod]
      refine ⟨?_, ?_, ?_, ?_⟩
      · simp [successes, List.countP_append, h1] at i1 ⊢; exact i1
      · rw [h2, hmod]
      · rw [h3]; split <;> simp [hlen]
      · intro m _
        rw [List.getLast?_append]
        simp only [List.getLast?_singleton, Option.some_or, Option.some.injEq]
        rw [h4, hmod]; rfl

/-- **C08** is violated beyond 2^32 steps: the counter is a 32-bit integer (include/analysis.h:92). With slots of 3 steps and values inserted
before every step, after 2^32 steps the simulated time is back to 0, and the step that brought it there reports the end of a slot although
2^32 is not a multiple of 3. -/
theorem C08_wrap_violated : ∃ (cfg : Cfg ℚ Unit) (rs : List (Raw ℚ (List (FlpEl ℚ)))) (s0 : Sim ℚ Unit) (ops : List (Op ℚ)),
    Started cfg rs s0 ∧ cfg.an.stepTime > 0 ∧ successes (run cfg ops s0).1 = 2 ^ 32 ∧ simulatedTime cfg.an (run cfg ops s0).2 = 0 ∧
      (run cfg ops s0).1.getLast? = some .slotDone ∧ ¬ cfg.an.slotLength ∣ 2 ^ 32 := by
  obtain ⟨h1, h2, -, h4⟩ := feed_run 3 (2 ^ 32)
  refine ⟨demoCfg .transient 3, demoRaw [] [], demoSim .transient 3 [] [], feed (2 ^ 32), demo_started _ _ _ _, by norm_num [demoCfg], h1, ?_, ?_, ?_⟩
  · rw [simulatedTime, h2, W_eq]; norm_num
  · refine (h4 (2 ^ 32 - 1) (by norm_num)).mpr ?_
    rw [W_eq]; norm_num
  · show ¬ 3 ∣ 2 ^ 32; decide

end Verif.Emu
