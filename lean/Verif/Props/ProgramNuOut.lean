import Verif.Props.ProgramNuRun
import Verif.Lemmas.NuAlong

/-! # C69: what the program writes for a non-uniform grid, in terms of the description files -/

set_option linter.unusedSectionVars false
set_option linter.unusedSimpArgs false
set_option linter.unusedVariables false

namespace Verif.Prog
open Verif.Gram Verif.Dim Verif.TG Verif.SM Verif.Stk Verif.FE Verif.Emu Verif.Flp

variable {π : Type}
variable {w : World π} {file : String} {s : StackD} {D : Desc NFlps} {an : Analysis ℚ} {G : NU.Grid ℚ} {s0 s' : NU.NSim ℚ π} {log : NLog}

/-! ### Specification -/

/-- The file of a 3D map: the file that was named if it is written once, at the end; otherwise the part of the name before the first dot with
the number of the step or slot. -/
def VtkFile (p : RPoint NFlps) (step slotLength : Nat) (n : String) : Prop :=
  (p.instant = .final ∧ n = p.file) ∨
  (p.instant = .slot ∧ n = String.ofList (p.file.toList.takeWhile (· ≠ '.')) ++ toString (step / slotLength) ++ ".vtk") ∨
  (p.instant ≠ .final ∧ p.instant ≠ .slot ∧ n = String.ofList (p.file.toList.takeWhile (· ≠ '.')) ++ toString step ++ ".vtk")

/-- What an output point writes after `step` steps, when the cells of the grid have these temperatures and heat sources:

* a 3D map: its file is created anew, with the box and the temperature of every cell;
* a map: the positions of the cells of the layer go to a file of their own, created anew, and the values are appended to the file
  of the point (if the other file cannot be created, an empty map is appended);
* anything else: one line is appended to its file. -/
def PointWrites (canOpen : String → Bool) (G : NU.Grid ℚ) (temps sources : List ℚ) (time : ℚ) (step slotLength : Nat) (p : RPoint NFlps)
    (l : NLog) : Prop :=
  match p.target with
  | .t3d => ∃ n, VtkFile p step slotLength n ∧
      l = [⟨n, false, .solid (G.cells.map (boxOf G.d)) ((List.range G.cells.length).map fun i => temps.getD i 0)⟩]
  | .tmap e | .pmap e =>
      (canOpen ("xyaxis_" ++ e.id ++ ".txt") = true ∧ ∃ r, recordNU G temps sources time p.quantity p.target = some r ∧
        l = [⟨"xyaxis_" ++ e.id ++ ".txt", false, .axes ((G.cells.filter fun c => c.layer == sourceLayerOffset e).map
          fun c => (c.x0, c.y0, c.x1 - c.x0, c.y1 - c.y0))⟩, ⟨p.file, true, .record r⟩]) ∨
      (canOpen ("xyaxis_" ++ e.id ++ ".txt") = false ∧ l = [⟨p.file, true, .record (.map [])⟩])
  | _ => ∃ r, recordNU G temps sources time p.quantity p.target = some r ∧ l = [⟨p.file, true, .record r⟩]

/-- What the points of the instant `i` write, one after the other in the order of the stack file. -/
def AllWrite (canOpen : String → Bool) (ps : List (RPoint NFlps)) (i : Out.Instant) (G : NU.Grid ℚ) (x : NU.NSim ℚ π) (time : ℚ) (step slotLength : Nat)
    (l : NLog) : Prop :=
  ∃ ls, List.Forall₂ (PointWrites canOpen G x.temps x.sources time step slotLength) (ps.filter fun p => p.instant = i) ls ∧ l = ls.flatten

/-! ### Proofs -/

theorem record_exists {x : PointD} {p : RPoint NFlps} {d : Dims ℚ} {es : List (SElem ℚ NFlps)} (hp : PointIs nuReader d es x p) (h3 : p.target ≠ .t3d)
    (G : NU.Grid ℚ) (temps sources : List ℚ) (time : ℚ) : ∃ r, recordNU G temps sources time p.quantity p.target = some r := by
  have stat : ∀ {q : QuantD} {i : Out.Quantity}, Quant q i → ∀ ms, ∃ v, NU.statNU temps i ms = some v := by
    rintro q i (⟨-, rfl⟩ | ⟨-, rfl⟩ | ⟨-, rfl⟩ | ⟨-, rfl⟩) ms <;> exact ⟨_, rfl⟩
  cases x with
  | tcell => obtain ⟨-, -, -, e, -, -, h⟩ := hp; rw [h]; exact ⟨_, rfl⟩
  | tflp => obtain ⟨-, -, -, e, -, -, b, -, h⟩ := hp; rw [h]; exact ⟨_, rfl⟩
  | tflpel =>
    obtain ⟨-, hq, -, e, -, -, b, i, -, -, -, h⟩ := hp
    rw [h]
    obtain ⟨v, hv⟩ := stat hq ((NU.dieMarks G.d G.ns (placeOf G e)).getD i [])
    exact ⟨.line time [v], by simp only [recordNU, NU.renderNU, hv, Option.map_some]⟩
  | tmap => obtain ⟨-, -, -, e, -, -, h⟩ := hp; rw [h]; exact ⟨_, rfl⟩
  | pmap => obtain ⟨-, -, -, e, -, -, h⟩ := hp; rw [h]; exact ⟨_, rfl⟩
  | t3d => exact absurd hp.2.2.2 h3
  | tcoolant =>
    obtain ⟨-, hq, -, e, -, -, c, -, h⟩ := hp
    rw [h]
    obtain ⟨v, hv⟩ : ∃ v, Out.outletStat c G.d (fromLayerNU G.ls.flatten (sourceLayerOffset e) temps) p.quantity = some v := by
      rcases hq with ⟨-, hq⟩ | ⟨-, hq⟩ | ⟨-, hq⟩ | ⟨-, hq⟩ <;> rw [hq] <;> exact ⟨_, rfl⟩
    exact ⟨.line time [v], by simp only [recordNU, hv, Option.map_some]⟩

theorem inBuffer_eq {a b : String} (h : inBuffer a = some b) : b = a := by
  unfold inBuffer at h
  split_ifs at h
  exact (Option.some.inj h).symm

theorem vtkName_file {p : RPoint NFlps} {step slotLength : Nat} {n : String} (h : vtkName p.file p.instant step slotLength = some n) :
    VtkFile p step slotLength n := by
  unfold vtkName at h
  obtain ⟨f, hf, h⟩ := Option.bind_eq_some_iff.mp h
  obtain rfl := inBuffer_eq hf
  unfold VtkFile
  have hc : (fun c : Char => c != '.') = fun c => decide (c ≠ '.') := by funext c; by_cases hc : c = '.' <;> simp [hc]
  by_cases h1 : p.instant = .final
  · rw [if_pos h1] at h
    exact .inl ⟨h1, (Option.some.inj h).symm⟩
  · rw [if_neg h1] at h
    simp only [hc] at h
    split_ifs at h with h2 h3 h3
    · exact .inr (.inl ⟨h2, inBuffer_eq h⟩)
    · exact .inr (.inr ⟨h1, h2, inBuffer_eq h⟩)

theorem point_writes {x : PointD} {p : RPoint NFlps} {d : Dims ℚ} {es : List (SElem ℚ NFlps)} (hp : PointIs nuReader d es x p) {canOpen : String → Bool}
    (ho : p.target = .t3d ∨ canOpen p.file = true) {G : NU.Grid ℚ} (hn : G.nCells = G.cells.length) {temps sources : List ℚ} {time : ℚ}
    {step slotLength : Nat} {r : NLog × Bool} (h : pointNU canOpen G temps sources time step slotLength p = some r) :
    r.2 = true ∧ PointWrites canOpen G temps sources time step slotLength p r.1 := by
  have single : ∀ (hne : p.target ≠ .t3d), (some ((recordNU G temps sources time p.quantity p.target).toList.map fun r => (⟨p.file, true, .record r⟩ : Write), true)) = some r →
      r.2 = true ∧ ∃ q, recordNU G temps sources time p.quantity p.target = some q ∧ r.1 = [⟨p.file, true, .record q⟩] := by
    intro hne e
    obtain ⟨q, hq⟩ := record_exists hp hne G temps sources time
    rw [hq] at e
    obtain rfl := Option.some.inj e
    exact ⟨rfl, q, hq, rfl⟩
  have maps : ∀ e (hne : p.target ≠ .t3d), ((mapNU canOpen G temps sources time p e).map fun l => (l, true)) = some r → r.2 = true ∧
      ((canOpen ("xyaxis_" ++ e.id ++ ".txt") = true ∧ ∃ q, recordNU G temps sources time p.quantity p.target = some q ∧
        r.1 = [⟨"xyaxis_" ++ e.id ++ ".txt", false, .axes ((G.cells.filter fun c => c.layer == sourceLayerOffset e).map
          fun c => (c.x0, c.y0, c.x1 - c.x0, c.y1 - c.y0))⟩, ⟨p.file, true, .record q⟩]) ∨
      (canOpen ("xyaxis_" ++ e.id ++ ".txt") = false ∧ r.1 = [⟨p.file, true, .record (.map [])⟩])) := by
    intro e hne hh
    unfold mapNU axesName at hh
    rw [Option.map_map] at hh
    obtain ⟨n, hn', hh⟩ := Option.map_eq_some_iff.mp hh
    obtain rfl := inBuffer_eq hn'
    obtain ⟨q, hq⟩ := record_exists hp hne G temps sources time
    rw [← hh]
    cases hc : canOpen ("xyaxis_" ++ e.id ++ ".txt") with
    | true => exact ⟨rfl, .inl ⟨rfl, q, hq, by simp only [Function.comp_apply, hc, if_true, hq]; rfl⟩⟩
    | false => exact ⟨rfl, .inr ⟨rfl, by simp only [Function.comp_apply, hc]; rfl⟩⟩
  unfold pointNU at h
  unfold PointWrites
  cases ht : p.target with
  | t3d =>
    simp only [ht] at h ⊢
    obtain ⟨n, h1, h2⟩ := Option.bind_eq_some_iff.mp h
    split_ifs at h2
    obtain rfl := Option.some.inj h2
    refine ⟨rfl, n, vtkName_file h1, ?_⟩
    rw [hn]
    rfl
  | tmap e =>
    have ho' : canOpen p.file = true := by rcases ho with ho | ho; · rw [ht] at ho; cases ho
                                           · exact ho
    simp only [ht, ho', if_true] at h
    have := maps e (by rw [ht]; intro h; cases h) h
    rw [ht] at this; exact this
  | pmap e =>
    have ho' : canOpen p.file = true := by rcases ho with ho | ho; · rw [ht] at ho; cases ho
                                           · exact ho
    simp only [ht, ho', if_true] at h
    have := maps e (by rw [ht]; intro h; cases h) h
    rw [ht] at this; exact this
  | cell e x y row col =>
    have ho' : canOpen p.file = true := by rcases ho with ho | ho; · rw [ht] at ho; cases ho
                                           · exact ho
    simp only [ht, ho', if_true] at h
    have := single (by rw [ht]; intro h; cases h) (by rw [ht]; exact h)
    rw [ht] at this; exact this
  | flp e f =>
    have ho' : canOpen p.file = true := by rcases ho with ho | ho; · rw [ht] at ho; cases ho
                                           · exact ho
    simp only [ht, ho', if_true] at h
    have := single (by rw [ht]; intro h; cases h) (by rw [ht]; exact h)
    rw [ht] at this; exact this
  | flpel e f i =>
    have ho' : canOpen p.file = true := by rcases ho with ho | ho; · rw [ht] at ho; cases ho
                                           · exact ho
    simp only [ht, ho', if_true] at h
    have := single (by rw [ht]; intro h; cases h) (by rw [ht]; exact h)
    rw [ht] at this; exact this
  | coolant e c =>
    have ho' : canOpen p.file = true := by rcases ho with ho | ho; · rw [ht] at ho; cases ho
                                           · exact ho
    simp only [ht, ho', if_true] at h
    have := single (by rw [ht]; intro h; cases h) (by rw [ht]; exact h)
    rw [ht] at this; exact this

theorem writes_flps (canOpen : String → Bool) (G : NU.Grid ℚ) (fl : List (Option (List (NU.FEl ℚ)))) (temps sources : List ℚ) (time : ℚ) (step slotLength : Nat) :
    PointWrites canOpen { G with flps := fl } temps sources time step slotLength = PointWrites canOpen G temps sources time step slotLength := by
  funext p l
  obtain ⟨i, q, f, t⟩ := p
  cases t <;> rfl

theorem points_write {canOpen : String → Bool} {G : NU.Grid ℚ} (hn : G.nCells = G.cells.length) {temps sources : List ℚ} {time : ℚ} {step slotLength : Nat}
    {d : Dims ℚ} {es : List (SElem ℚ NFlps)} : ∀ {ps : List (RPoint NFlps)} {r : NLog × Bool},
      (∀ p ∈ ps, (∃ x, PointIs nuReader d es x p) ∧ (p.target = .t3d ∨ canOpen p.file = true)) →
      pointsNU canOpen G temps sources time step slotLength ps = some r →
      ∃ ls, List.Forall₂ (PointWrites canOpen G temps sources time step slotLength) ps ls ∧ r.1 = ls.flatten
  | [], r, _, h => by
    obtain rfl := Option.some.inj h
    exact ⟨[], .nil, rfl⟩
  | p :: ps, r, hp, h => by
    unfold pointsNU at h
    obtain ⟨r1, h1, h2⟩ := Option.bind_eq_some_iff.mp h
    obtain ⟨⟨x, hx⟩, ho⟩ := hp p (by simp)
    obtain ⟨ht, hw⟩ := point_writes hx ho hn h1
    rw [if_pos ht] at h2
    obtain ⟨r2, h3, rfl⟩ := Option.map_eq_some_iff.mp h2
    obtain ⟨ls, h4, h5⟩ := points_write hn (fun q hq => hp q (by simp [hq])) h3
    exact ⟨r1.1 :: ls, .cons hw h4, by rw [List.flatten_cons, h5]⟩

theorem SessionNU.points (h : SessionNU w file s D an G s0 log s') :
    ∀ p ∈ D.points, (∃ x, PointIs nuReader D.parsed.dims D.parsed.elems x p) ∧ (p.target = .t3d ∨ w.canOpen p.file = true) := by
  intro p hp
  obtain ⟨x, -, hx⟩ := forall₂_mem_right h.means.points hp
  refine ⟨⟨x, hx⟩, ?_⟩
  have := h.writable
  unfold headersNU at this
  rw [List.all_eq_true] at this
  have := this p hp
  cases ht : p.target <;> simp only [ht] at this <;> simp [this]

theorem all_write (h : SessionNU w file s D an G s0 log s') {x : NU.NSim ℚ π} (hn : x.G.nCells = x.G.cells.length) {i : Out.Instant} {l : NLog}
    {fl : List (Option (List (NU.FEl ℚ)))} (hG : x.G = { G with flps := fl })
    (ho : outputNU w.canOpen D.points an x i = some l) : AllWrite w.canOpen D.points i G x (x.time * an.stepTime) x.time an.slotLength l := by
  unfold outputNU at ho
  obtain ⟨r, h1, rfl⟩ := Option.map_eq_some_iff.mp ho
  obtain ⟨ls, h2, h3⟩ := points_write hn (fun p hp => h.points p (List.mem_of_mem_filter hp)) h1
  refine ⟨ls, ?_, h3⟩
  rw [hG, writes_flps] at h2
  exact h2

/-- The steps of the loop, with what is written after each. -/
theorem loopNU_spec {canOpen : String → Bool} {ps : List (RPoint NFlps)} {cfg : NU.NCfg ℚ π} (ht : cfg.an.type = .transient)
    {d0 : Dims ℚ} {decl : Option (Channel ℚ)} {rs : List (Raw ℚ (List (NU.FEl ℚ)))} {ns : List (NU.NElem ℚ)} {x x' : NU.NSim ℚ π} {l : NLog}
    (hv : NU.Valid cfg d0 decl rs ns x) (h : LoopNU canOpen ps cfg.an (NU.stepNU cfg) x l x') :
    ∃ n, (∀ k, k < n → Succeeded (NU.stepNU cfg (NU.afterSteps cfg x k)).1) ∧
      ((NU.stepNU cfg (NU.afterSteps cfg x n)).1 = .endOfSimulation ∨ (NU.stepNU cfg (NU.afterSteps cfg x n)).1 = .solverError) ∧
      x' = NU.afterSteps cfg x (n + 1) ∧
      ∃ ls : Nat → NLog, (∀ k, k < n → afterNU canOpen ps cfg.an (NU.stepNU cfg (NU.afterSteps cfg x k)).1 (NU.afterSteps cfg x (k + 1)) = some (ls k)) ∧
        l = (List.range n).flatMap ls := by
  induction h with
  | @stop x r x' l h1 h2 h3 =>
    refine ⟨0, by simp, ?_, ?_, fun _ => [], by simp, ?_⟩
    · have e : (NU.stepNU cfg (NU.afterSteps cfg x 0)).1 = r := by show (NU.stepNU cfg x).1 = r; rw [h1]
      rw [e]; exact h2
    · show x' = (NU.stepNU cfg x).2
      rw [h1]
    · rcases h2 with rfl | rfl <;> simp [afterNU] at h3 <;> simp [h3]
  | @again x r x1 l log x' h1 h2 h3 h4 h5 ih =>
    have e1 : (NU.stepNU cfg x).2 = x1 := by rw [h1]
    have e0 : (NU.stepNU cfg x).1 = r := by rw [h1]
    have hr1 : NU.Valid cfg d0 decl rs ns x1 := by rw [← e1]; exact (NU.step_spec hv).1
    obtain ⟨n, a, b, c, ls, e, f⟩ := ih hr1
    have ha : ∀ k, NU.afterSteps cfg x (k + 1) = NU.afterSteps cfg x1 k := by
      intro k
      rw [NU.afterSteps_first, e1]
    refine ⟨n + 1, ?_, ?_, ?_, fun k => match k with | 0 => l | k + 1 => ls k, ?_, ?_⟩
    · intro k hk
      cases k with
      | zero =>
        show Succeeded (NU.stepNU cfg x).1
        obtain ⟨-, -, -, hc⟩ := NU.step_spec (cfg := cfg) hv
        rcases hc with ⟨-, h5, -⟩ | ⟨h5, -⟩ | ⟨-, -, -, ⟨h5, -⟩ | ⟨h5, -⟩⟩
        · exact absurd ht h5
        · rw [e0] at h5; exact absurd h5 h2
        · rw [e0] at h5; exact absurd h5 h3
        · exact h5
      | succ k => rw [ha]; exact a k (by omega)
    · rw [ha]; exact b
    · rw [ha]; exact c
    · intro k hk
      cases k with
      | zero =>
        show afterNU canOpen ps cfg.an (NU.stepNU cfg x).1 (NU.stepNU cfg x).2 = some l
        rw [h1]; exact h4
      | succ k => rw [ha, ha]; exact e k (by omega)
    · rw [List.range_succ_eq_map, List.flatMap_cons, List.flatMap_map, f]

theorem valid_cells {cfg : NU.NCfg ℚ π} {d0 : Dims ℚ} {decl : Option (Channel ℚ)} {rs : List (Raw ℚ (List (NU.FEl ℚ)))} {ns : List (NU.NElem ℚ)}
    {x : NU.NSim ℚ π} (h : NU.Valid cfg d0 decl rs ns x) : x.G.nCells = x.G.cells.length := (NU.C54_cells_fit_arrays h.grid).1.symm

/-- The power values that the floorplan files give. -/
theorem begun_traces (h : StartedNU w s D an G s0) (hs : Sensible w.eff (filesOf w.read) s) :
    NU.traces s0 = filePowers (filesOf w.read) s := by
  obtain ⟨d0, raws, he, hb, -⟩ := h.begun hs
  have h1 := NU.begun_elements hb (f := fun e => e.powers) (by intro n e; unfold NU.fixEl; split_ifs <;> rfl)
  have h2 : NU.traces s0 = (NU.fileElements (raws.map (rawMap (List.map (elOf D.mats))))).map (·.powers) := h1
  rw [h2]
  unfold NU.fileElements filePowers layerRaws
  rw [← List.map_reverse, List.flatMap_map, List.map_flatten, List.map_flatMap]
  have key : ∀ (es : List ElD) (rs : List (Raw ℚ NFlps)), List.Forall₂ (ElemIs nuReader (filesOf w.read) s d0) es rs →
      (rs.flatMap fun a => ((match (rawMap (List.map (elOf D.mats)) a).body with | .die x => x.flp | _ => []) : List (NU.FEl ℚ)).map (·.powers)) =
        ((es.flatMap (elemRaws (filesOf w.read) s)).map (List.map fun (r : RawEl ℚ) => r.powers)).flatten := by
    intro es rs hf
    induction hf with
    | nil => rfl
    | @cons e r es rs hr _ ih =>
      rw [List.flatMap_cons, List.flatMap_cons, List.map_append, List.flatten_append, ih]
      congr 1
      have hz : ∀ {α : Type} (l : List α), ((l.map fun _ => ([] : List (RawEl ℚ))).map (List.map fun (r : RawEl ℚ) => r.powers)).flatten = [] := by
        intro α l; induction l with
        | nil => rfl
        | cons a l ih => simpa using ih
      cases e with
      | layer id ref o => obtain ⟨l, -, rfl⟩ := hr; rfl
      | channel id =>
        have hr' : r = ⟨id, .channel⟩ := hr
        subst hr'
        unfold elemRaws
        cases s.chan with
        | none => rfl
        | some c => cases c <;> rfl
      | die id ref p o =>
        obtain ⟨q, f, g, ⟨y, hy, hy', -⟩, hf, hg, rfl⟩ := hr
        have hfind := find_named h.means.dieNames hy
        rw [hy'] at hfind
        have hg' : g = f := by
          obtain ⟨z, -, hz⟩ := Option.map_eq_some_iff.mp (show (uniformReader.read d0 f).map (fun _ => f) = some g from hg)
          exact hz.symm
        subst hg'
        simp only [elemRaws, hfind, hf]
        rw [List.map_append, List.map_append, List.flatten_append, List.flatten_append, hz, hz]
        simp only [List.nil_append, List.append_nil, List.map_cons, List.map_nil, List.flatten_cons, List.flatten_nil]
        show (List.map (elOf D.mats) g).map _ = _
        unfold elRaws
        rw [List.map_map, List.map_map]
        apply List.map_congr_left
        intro x _
        show (elOf D.mats x).powers = x.powers
        unfold elOf
        cases x.area with
        | one => rfl
        | many rs => cases rs <;> rfl
  refine Eq.trans ?_ ((key _ _ (forall₂_reverse he)).trans ?_)
  · apply List.flatMap_congr
    intro a _
    obtain ⟨i, b⟩ := a
    cases b <;> rfl
  · rfl

theorem times_nu {φ : Type} {D : Desc φ} (hm : ∀ x, w.mul10 x = x * 10) (h : Analysed w.mul10 D.init D.times an) :
    an.initTemp = D.init ∧ 0 < an.stepTime ∧ 0 < an.slotLength ∧
      (D.times = none ∧ an.type = .steady ∨ ∃ slot, D.times = some (an.stepTime, slot) ∧ an.type = .transient) := by
  have hm' : w.mul10 = (· * 10) := funext hm
  rw [hm'] at h
  generalize ht : D.times = t at h
  cases h with
  | steady => exact ⟨rfl, by norm_num [Solver.steadySolver], by norm_num [Solver.steadySolver], .inl ⟨rfl, rfl⟩⟩
  | transient h =>
    obtain ⟨rfl, h2, h3⟩ := Solver.C37_never_zero h
    exact ⟨rfl, h2, h3, .inr ⟨_, rfl, rfl⟩⟩

/-- **C69** What a transient simulation of a sensible file writes: after every step what the `step` points write, after every slot also what
the `slot` points write, at the end what the `final` points write. -/
theorem C69_transient_outputs (h : SessionNU w file s D an G s0 log s') (hs : Sensible w.eff (filesOf w.read) s) (hm : ∀ x, w.mul10 x = x * 10)
    {step slot : ℚ} (ht : s.solver.kind = some (step, slot))
    (hW : ∃ t ∈ filePowers (filesOf w.read) s, t.length * an.slotLength < 2 ^ 32) :
    ∃ n, (∀ k, k < n → Succeeded (NU.stepNU (configNU w an) (NU.afterSteps (configNU w an) s0 k)).1) ∧
      ((NU.stepNU (configNU w an) (NU.afterSteps (configNU w an) s0 n)).1 = .endOfSimulation ∨
        (NU.stepNU (configNU w an) (NU.afterSteps (configNU w an) s0 n)).1 = .solverError) ∧
      s' = NU.afterSteps (configNU w an) s0 (n + 1) ∧
      ∃ (steps slots : Nat → NLog) (final : NLog),
        log = ((List.range n).flatMap fun k => steps k ++ if an.slotLength ∣ k + 1 then slots k else []) ++ final ∧
        (∀ k, k < n → AllWrite w.canOpen D.points .step G (NU.afterSteps (configNU w an) s0 (k + 1)) ((k + 1 : Nat) * step) (k + 1) an.slotLength (steps k)) ∧
        (∀ k, k < n → an.slotLength ∣ k + 1 →
          AllWrite w.canOpen D.points .slot G (NU.afterSteps (configNU w an) s0 (k + 1)) ((k + 1 : Nat) * step) (k + 1) an.slotLength (slots k)) ∧
        AllWrite w.canOpen D.points .final G s' (n * step) n an.slotLength final := by
  obtain ⟨d0, raws, -, hb, hGG, -⟩ := h.begun hs
  obtain ⟨hv, h0, -⟩ := NU.begun_valid hb
  obtain ⟨t1, t2, t3, t4⟩ := times_nu hm h.times
  have htr : an.type = .transient ∧ an.stepTime = step := by
    rcases t4 with ⟨t4, -⟩ | ⟨sl, t4, t5⟩
    · rw [h.means.times.1, ht] at t4; cases t4
    · rw [h.means.times.1, ht] at t4
      have := Option.some.inj t4
      exact ⟨t5, (Prod.mk.inj this).1.symm⟩
  have hty : (configNU w an).an.type = .transient := htr.1
  have hL : 0 < (configNU w an).an.slotLength := t3
  rw [← begun_traces h.start hs] at hW
  obtain ⟨f, log1, log2, h1, h2, h3, h4⟩ := h.emulated
  have hf : f = NU.stepNU (configNU w an) := by unfold emulateNU at h1; rw [hty] at h1; exact (Option.some.inj h1).symm
  subst hf
  obtain ⟨n, a, b, c, ls, e, g⟩ := loopNU_spec hty hv h2
  obtain ⟨t, htt, hWt⟩ := hW
  have hWt' : t.length * an.slotLength < W := by unfold W; omega
  have hn : n < W := lt_of_le_of_lt (NU.run_bound hty hL hv h0 a htt hWt') hWt'
  obtain ⟨g1, g2, g3, -, fn, -, gn⟩ := NU.steps_along hty hL hv h0 n hn a
  have htime : s'.time = n := by
    rw [c]
    show (NU.stepNU (configNU w an) (NU.afterSteps (configNU w an) s0 n)).2.time = n
    obtain ⟨-, -, -, hc⟩ := NU.step_spec (cfg := configNU w an) g1
    rcases hc with ⟨-, h5, -⟩ | ⟨-, -, -, -, h5, -⟩ | ⟨-, -, -, ⟨-, h5⟩ | ⟨h5, -⟩⟩
    · exact absurd hty h5
    · rw [h5, g2]
    · rw [h5, g2]
    · rcases b with b | b <;> rw [b] at h5 <;> simp [Succeeded] at h5
  have hv' : NU.Valid (configNU w an) d0 D.chan (raws.map (rawMap (List.map (elOf D.mats)))) (nElems D) s' := by
    rw [c]; exact (NU.step_spec g1).1
  have hG' : ∃ fl, s'.G = { G with flps := fl } := by
    obtain ⟨-, -, ⟨fl, -, e⟩, -⟩ := NU.step_spec (cfg := configNU w an) g1
    refine ⟨fl, ?_⟩
    rw [c]
    show (NU.stepNU (configNU w an) (NU.afterSteps (configNU w an) s0 n)).2.G = _
    rw [e, gn, hGG]
  obtain ⟨flf, hG'⟩ := hG'
  have hfin := all_write h (valid_cells hv') hG' h3
  rw [htime, htr.2] at hfin
  -- what is written after step `k`
  have each : ∀ k, k < n → ∃ l1 l2, AllWrite w.canOpen D.points .step G (NU.afterSteps (configNU w an) s0 (k + 1)) ((k + 1 : Nat) * step) (k + 1) an.slotLength l1 ∧
      (an.slotLength ∣ k + 1 → AllWrite w.canOpen D.points .slot G (NU.afterSteps (configNU w an) s0 (k + 1)) ((k + 1 : Nat) * step) (k + 1) an.slotLength l2) ∧
      ls k = l1 ++ if an.slotLength ∣ k + 1 then l2 else [] := by
    intro k hk
    have hek := e k hk
    have hsk : (NU.stepNU (configNU w an) (NU.afterSteps (configNU w an) s0 k)).1 = .stepDone ∨
        (NU.stepNU (configNU w an) (NU.afterSteps (configNU w an) s0 k)).1 = .slotDone := a k hk
    obtain ⟨vk, tk, -, -, fk, -, gk⟩ := NU.steps_along hty hL hv h0 (k + 1) (by omega) (fun j hj => a j (by omega))
    rw [hGG] at gk
    have hsl : (NU.stepNU (configNU w an) (NU.afterSteps (configNU w an) s0 k)).1 = .slotDone ↔ an.slotLength ∣ k + 1 := g3 k hk
    unfold afterNU at hek
    rw [if_pos hsk] at hek
    obtain ⟨l1, m1, hek⟩ := Option.bind_eq_some_iff.mp hek
    obtain ⟨l2, m2, hek⟩ := Option.map_eq_some_iff.mp hek
    have w1 := all_write h (valid_cells vk) gk m1
    rw [tk, htr.2] at w1
    by_cases hd : an.slotLength ∣ k + 1
    · rw [if_pos (hsl.mpr hd)] at m2
      have w2 := all_write h (valid_cells vk) gk m2
      rw [tk, htr.2] at w2
      exact ⟨l1, l2, w1, fun _ => w2, by rw [if_pos hd]; exact hek.symm⟩
    · rw [if_neg (fun hh => hd (hsl.mp hh))] at m2
      have : l2 = [] := (Option.some.inj m2).symm
      subst this
      exact ⟨l1, [], w1, fun hh => absurd hh hd, by rw [if_neg hd]; exact hek.symm⟩
  choose! l1 l2 q1 q2 q3 using each
  refine ⟨n, a, b, c, l1, l2, log2, ?_, q1, q2, hfin⟩
  rw [h4, g]
  congr 1
  apply List.flatMap_congr
  intro k hk
  exact q3 k (List.mem_range.mp hk)

/-- **C69** Number of steps: if the solver does not fail, the run lasts the slots of the shortest power trace of the floorplan files. -/
theorem C69_run_length (h : SessionNU w file s D an G s0 log s') (hs : Sensible w.eff (filesOf w.read) s) (hm : ∀ x, w.mul10 x = x * 10)
    {step slot : ℚ} (ht : s.solver.kind = some (step, slot))
    (hW : ∃ t ∈ filePowers (filesOf w.read) s, t.length * an.slotLength < 2 ^ 32) {n : Nat}
    (hok : ∀ k, k < n → Succeeded (NU.stepNU (configNU w an) (NU.afterSteps (configNU w an) s0 k)).1)
    (hend : (NU.stepNU (configNU w an) (NU.afterSteps (configNU w an) s0 n)).1 = .endOfSimulation) :
    (∃ t ∈ filePowers (filesOf w.read) s, n = t.length * an.slotLength) ∧ ∀ t ∈ filePowers (filesOf w.read) s, n ≤ t.length * an.slotLength := by
  obtain ⟨d0, raws, -, hb, -⟩ := h.begun hs
  obtain ⟨hv, h0, -⟩ := NU.begun_valid hb
  obtain ⟨t1, t2, t3, t4⟩ := times_nu hm h.times
  rcases t4 with ⟨t4, -⟩ | ⟨sl, t4, t5⟩
  · rw [h.means.times.1, ht] at t4; cases t4
  · rw [← begun_traces h.start hs] at hW ⊢
    exact NU.run_length (cfg := configNU w an) t5 t3 hv h0 hW hok hend

/-- The result of a steady simulation. -/
theorem steady_result {cfg : NU.NCfg ℚ π} {d0 : Dims ℚ} {decl : Option (Channel ℚ)} {rs : List (Raw ℚ (List (NU.FEl ℚ)))} {ns : List (NU.NElem ℚ)}
    {s0 : NU.NSim ℚ π} (hv : NU.Valid cfg d0 decl rs ns s0) (hty : cfg.an.type = .steady) :
    ((NU.steadyNU cfg s0).1 = .endOfSimulation ∨ (NU.steadyNU cfg s0).1 = .solverError) ∧
      (NU.steadyNU cfg s0).2.time = s0.time ∧ ∃ fl, (NU.steadyNU cfg s0).2.G = { s0.G with flps := fl } := by
    obtain ⟨S, fl, e, -⟩ := NU.updateSources_spec hv
    unfold NU.steadyNU
    rw [if_neg (by rw [hty]; decide)]
    simp only [e]
    cases s0.G.g.top with
    | none =>
      simp only
      split_ifs
      · split <;> exact ⟨by simp, rfl, _, rfl⟩
      · exact ⟨by simp, rfl, _, rfl⟩
    | some t =>
      cases t with
      | ambient k =>
        simp only
        split_ifs
        · split <;> exact ⟨by simp, rfl, _, rfl⟩
        · exact ⟨by simp, rfl, _, rfl⟩
      | pluggable a b => exact ⟨by simp, rfl, _, rfl⟩

/-- **C69** A steady simulation of a sensible file writes what the `final` points write, once. -/
theorem C69_steady_outputs (h : SessionNU w file s D an G s0 log s') (hs : Sensible w.eff (filesOf w.read) s) (hm : ∀ x, w.mul10 x = x * 10)
    (ht : s.solver.kind = none) :
    s' = (NU.steadyNU (configNU w an) s0).2 ∧ AllWrite w.canOpen D.points .final G s' 0 0 an.slotLength log := by
  obtain ⟨d0, raws, -, hb, hGG, -⟩ := h.begun hs
  obtain ⟨hv, h0, -⟩ := NU.begun_valid hb
  obtain ⟨t1, t2, t3, t4⟩ := times_nu hm h.times
  have hty : (configNU w an).an.type = .steady := by
    rcases t4 with ⟨-, t4⟩ | ⟨sl, t4, t5⟩
    · exact t4
    · rw [h.means.times.1, ht] at t4; cases t4
  obtain ⟨f, log1, log2, h1, h2, h3, h4⟩ := h.emulated
  have hf : f = NU.steadyNU (configNU w an) := by unfold emulateNU at h1; rw [hty] at h1; exact (Option.some.inj h1).symm
  subst hf
  have hres := steady_result hv hty
  obtain ⟨r1, r2, fl, r3⟩ := hres
  have hs' : s' = (NU.steadyNU (configNU w an) s0).2 ∧ log1 = [] := by
    cases h2 with
    | @stop _ r _ _ k1 k2 k3 =>
      rw [k1]
      refine ⟨rfl, ?_⟩
      rcases k2 with rfl | rfl <;> simp [afterNU] at k3 <;> exact k3
    | @again _ r _ _ _ _ k1 k2 k3 k4 k5 =>
      rw [k1] at r1
      rcases r1 with r1 | r1
      · exact absurd r1 k2
      · exact absurd r1 k3
  obtain ⟨rfl, rfl⟩ := hs'
  refine ⟨rfl, ?_⟩
  have := all_write h (by rw [r3]; exact valid_cells hv) (by rw [r3, hGG]) h3
  rw [r2, h0] at this
  rw [h4, List.nil_append]
  simpa using this

end Verif.Prog
