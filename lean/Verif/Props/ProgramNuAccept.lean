import Verif.Props.ProgramNuOut
import Mathlib.Data.Nat.Digits.Defs

/-! # C69: sensible files are simulated on the non-uniform grid -/

set_option linter.unusedSectionVars false
set_option linter.unusedSimpArgs false
set_option linter.unusedVariables false

namespace Verif.Prog
open Verif.Gram Verif.Dim Verif.TG Verif.SM Verif.Stk Verif.FE Verif.Emu Verif.Flp

variable {π : Type}

/-! ### Specification -/

/-- The names that the program builds fit its buffers: those of the elements with maps, and those of the files of 3D maps. -/
def ShortNames : PointD → Prop
  | .tmap el _ _ => el.length < 39
  | .pmap el _ _ => el.length < 39
  | .t3d file _ => file.length < 37
  | _ => True

/-! ### Proofs -/

/-- The description of sensible files whose floorplans are kept as written is the one of the program. -/
theorem describe_acceptedNU {eff : Bool → ℚ → ℚ} {files : Files} {s : StackD} (hs : Sensible eff files s)
    (hf : ∀ p fs, files.flp p = some fs → fs ≠ [] ∧ ∀ f ∈ fs, f.area.Ok) {D : Desc (List FlpD)} (M : Means plainReader eff files s D) {g : TGrid ℚ}
    (hg : fillGrid D.parsed.dims.nLayers D.parsed.elems D.top D.bottom = some g) : Means nuReader eff files s D := by
  obtain ⟨-, -, -, -, -, hgood, hl, hw, -⟩ := grid_good hs M hg
  obtain ⟨walls, d, spr, hwl, hd, -, -, -, -, -, raws, -, hp⟩ := M.stack
  obtain ⟨-, -, -, -, w5, w6, -⟩ := dims_good hs hwl hd
  obtain ⟨es, n, -, -, -, -, -, -, -, hdim, -⟩ := parseStack_spec hp
  obtain ⟨g1, g2, g3⟩ := goodGrid_of hdim hgood
  have hD : describe plainReader eff files s = some D := (C67_meaning _ _ _ _ _).mpr M
  have h := describe_map (Q := nuReader) (g := id) (eff := eff) (files := files) (s := s) (fun x => rfl) ?_
  · rw [hD, Option.map_some, descMap_id] at h
    exact (C67_meaning _ _ _ _ _).mp h
  · intro d' hd' id' ref p o fs hel hfl
    have : d' = d := by
      rw [dimsOf_iff, ← walls_iff.mp hwl, hd] at hd'
      cases hd'; rfl
    subst this
    obtain ⟨k1, k2⟩ := hf p fs hfl
    have := floorplan_accepted g1 (g2.trans hl) (g3.trans hw) w5 w6 k1 k2 (hs.flps id' ref p o fs hel hfl)
    show (parseFloorplan d' (elRaws fs)).map (fun _ => fs) = some (id fs)
    rw [this]; rfl

theorem inBuffer_some {s : String} (h : s.length < 50) : inBuffer s = some s := if_pos h

theorem digits_short {n : Nat} (h : n < 10 ^ 9) : (toString n).length < 10 := Nat.lt_succ_of_le (Nat.repr_length n 9 (by norm_num) h)

theorem point_defined {d : Dims ℚ} {es : List (SElem ℚ NFlps)} {x : PointD} {p : RPoint NFlps} (hx : PointIs nuReader d es x p) (hn : ShortNames x)
    {canOpen : String → Bool} (ho : ∀ f, canOpen f = true) (G : NU.Grid ℚ) (temps sources : List ℚ) (time : ℚ) {step slotLength : Nat} (hst : step < 10 ^ 9) :
    ∃ r, pointNU canOpen G temps sources time step slotLength p = some r := by
  have hmap : ∀ {e : SElem ℚ NFlps} {el : String}, e.id = el → el.length < 39 → ∃ l, mapNU canOpen G temps sources time p e = some l := by
    rintro e el rfl h
    unfold mapNU axesName
    rw [inBuffer_some (by rw [String.length_append, String.length_append]; show 7 + e.id.length + 4 < 50; omega)]
    exact ⟨_, rfl⟩
  unfold pointNU
  cases x with
  | tcell => obtain ⟨-, -, -, e, -, -, h⟩ := hx; rw [h]; simp [ho]
  | tflp => obtain ⟨-, -, -, e, -, -, b, -, h⟩ := hx; rw [h]; simp [ho]
  | tflpel => obtain ⟨-, -, -, e, -, -, b, i, -, -, -, h⟩ := hx; rw [h]; simp [ho]
  | tcoolant => obtain ⟨-, -, -, e, -, -, b, -, h⟩ := hx; rw [h]; simp [ho]
  | tmap =>
    obtain ⟨-, -, -, e, -, hid, h⟩ := hx
    obtain ⟨l, hl⟩ := hmap hid hn
    rw [h]; simp [ho, hl]
  | pmap =>
    obtain ⟨-, -, -, e, -, hid, h⟩ := hx
    obtain ⟨l, hl⟩ := hmap hid hn
    rw [h]; simp [ho, hl]
  | t3d file w =>
    obtain ⟨-, -, hf, h⟩ := hx
    have hlen : p.file.length < 37 := by rw [hf]; exact hn
    rw [h]
    simp only [ho, if_true]
    have : ∃ n, vtkName p.file p.instant step slotLength = some n := by
      unfold vtkName
      rw [inBuffer_some (by omega), Option.bind_some]
      by_cases h1 : p.instant = .final
      · rw [if_pos h1]; exact ⟨_, rfl⟩
      · rw [if_neg h1]
        have hd : (if p.instant = .slot then step / slotLength else step) < 10 ^ 9 := by
          by_cases h2 : p.instant = .slot
          · rw [if_pos h2]; exact lt_of_le_of_lt (Nat.div_le_self _ _) hst
          · rw [if_neg h2]; exact hst
        have hd' := digits_short hd
        simp only
        generalize toString (if p.instant = .slot then step / slotLength else step) = t at hd' ⊢
        rw [if_pos hd', inBuffer_some]
        · exact ⟨_, rfl⟩
        · rw [String.length_append, String.length_append, String.length_ofList]
          have : (List.takeWhile (fun c => c != '.') p.file.toList).length ≤ p.file.length := by
            rw [← String.length_toList]
            exact List.IsPrefix.length_le (List.takeWhile_prefix _)
          have : (".vtk" : String).length = 4 := rfl
          omega
    obtain ⟨n, hn⟩ := this
    rw [hn]
    exact ⟨_, rfl⟩

theorem points_defined {d : Dims ℚ} {es : List (SElem ℚ NFlps)} {canOpen : String → Bool} (ho : ∀ f, canOpen f = true) (G : NU.Grid ℚ)
    (temps sources : List ℚ) (time : ℚ) {step slotLength : Nat} (hst : step < 10 ^ 9) : ∀ {ps : List (RPoint NFlps)},
      (∀ p ∈ ps, ∃ x, PointIs nuReader d es x p ∧ ShortNames x) → ∃ r, pointsNU canOpen G temps sources time step slotLength ps = some r
  | [], _ => ⟨_, rfl⟩
  | p :: ps, hp => by
    obtain ⟨x, hx, hn⟩ := hp p (by simp)
    obtain ⟨r, hr⟩ := point_defined hx hn ho G temps sources time (slotLength := slotLength) hst
    obtain ⟨r', hr'⟩ := points_defined ho G temps sources time (slotLength := slotLength) hst (ps := ps) fun q hq => hp q (by simp [hq])
    unfold pointsNU
    rw [hr, Option.bind_some, hr']
    split_ifs
    · exact ⟨_, rfl⟩
    · exact ⟨_, rfl⟩

theorem output_defined {d : Dims ℚ} {es : List (SElem ℚ NFlps)} {canOpen : String → Bool} (ho : ∀ f, canOpen f = true) {ps : List (RPoint NFlps)}
    (hp : ∀ p ∈ ps, ∃ x, PointIs nuReader d es x p ∧ ShortNames x) (an : Analysis ℚ) (x : NU.NSim ℚ π) (hst : x.time < 10 ^ 9) (i : Out.Instant) :
    ∃ l, outputNU canOpen ps an x i = some l := by
  obtain ⟨r, hr⟩ := points_defined ho x.G x.temps x.sources (x.time * an.stepTime) (slotLength := an.slotLength) hst (ps := pointsAt i ps)
    fun p hp' => hp p (List.mem_of_mem_filter hp')
  exact ⟨r.1, by unfold outputNU; rw [hr]; rfl⟩

theorem after_defined {d : Dims ℚ} {es : List (SElem ℚ NFlps)} {canOpen : String → Bool} (ho : ∀ f, canOpen f = true) {ps : List (RPoint NFlps)}
    (hp : ∀ p ∈ ps, ∃ x, PointIs nuReader d es x p ∧ ShortNames x) (an : Analysis ℚ) (r : SimResult) (x : NU.NSim ℚ π) (hst : x.time < 10 ^ 9) :
    ∃ l, afterNU canOpen ps an r x = some l := by
  obtain ⟨l1, h1⟩ := output_defined ho hp an x hst .step
  obtain ⟨l2, h2⟩ := output_defined ho hp an x hst .slot
  unfold afterNU
  rw [h1, h2]
  split_ifs <;> exact ⟨_, rfl⟩

/-- The loop, when its steps are known. -/
theorem loop_exists {canOpen : String → Bool} {ps : List (RPoint NFlps)} {cfg : NU.NCfg ℚ π} : ∀ (n : Nat) (x : NU.NSim ℚ π),
    (∀ k, k < n → Succeeded (NU.stepNU cfg (NU.afterSteps cfg x k)).1) →
    ((NU.stepNU cfg (NU.afterSteps cfg x n)).1 = .endOfSimulation ∨ (NU.stepNU cfg (NU.afterSteps cfg x n)).1 = .solverError) →
    (∀ k, k ≤ n → ∃ l, afterNU canOpen ps cfg.an (NU.stepNU cfg (NU.afterSteps cfg x k)).1 (NU.afterSteps cfg x (k + 1)) = some l) →
    ∃ l, LoopNU canOpen ps cfg.an (NU.stepNU cfg) x l (NU.afterSteps cfg x (n + 1))
  | 0, x, _, h2, h3 => by
    obtain ⟨l, hl⟩ := h3 0 le_rfl
    exact ⟨l, .stop (r := (NU.stepNU cfg x).1) rfl h2 hl⟩
  | n + 1, x, h1, h2, h3 => by
    obtain ⟨l, hl⟩ := h3 0 (by omega)
    have hs : Succeeded (NU.stepNU cfg x).1 := h1 0 (by omega)
    obtain ⟨l', hl'⟩ := loop_exists n (NU.stepNU cfg x).2 (fun k hk => by rw [← NU.afterSteps_first]; exact h1 (k + 1) (by omega))
      (by rw [← NU.afterSteps_first]; exact h2) (fun k hk => by rw [← NU.afterSteps_first, ← NU.afterSteps_first]; exact h3 (k + 1) (by omega))
    rw [NU.afterSteps_first]
    refine ⟨l ++ l', .again (r := (NU.stepNU cfg x).1) (s1 := (NU.stepNU cfg x).2) rfl ?_ ?_ hl hl'⟩
    · intro e; rw [e] at hs; simp [Succeeded] at hs
    · intro e; rw [e] at hs; simp [Succeeded] at hs

/-- **C69** Sensible files that ask for a non-uniform grid are simulated on it: if every name is declared once and every reference is to a
declaration (`D` is the meaning of the document), the grid can be filled, there is a top sink, the times have few enough decimals (C37), the
names of the output files fit their buffers, the run is not too long, all files can be created, the plug-in can be loaded and
initialized and the matrix can be factored, the program runs the simulation and succeeds. -/
theorem C69_runs {w : World π} (hm : ∀ x, w.mul10 x = x * 10) {file : String} {s : StackD} (hc : Contains w file s)
    (hs : Sensible w.eff (filesOf w.read) s) {D : Desc (List FlpD)} (M : Means plainReader w.eff (filesOf w.read) s D) {g : TGrid ℚ}
    (hg : fillGrid D.parsed.dims.nLayers D.parsed.elems D.top D.bottom = some g) (hu : s.dims.nonUniform = some true) (htop : s.top ≠ none)
    (ht : ∀ step slot, s.solver.kind = some (step, slot) → ∃ k, Solver.HasDecimals k step ∧ Solver.HasDecimals k slot ∧ slot * 10 ^ k < (4294967296 : Nat) ∧
      ∃ t ∈ filePowers (filesOf w.read) s, t.length * ⌊slot / step⌋₊ < 10 ^ 9)
    (hn : ∀ p ∈ s.points, ShortNames p)
    (hopen : ∀ f, w.canOpen f = true) (hfac : ∀ A, w.factor A = true) (hp : ∀ f, w.canLoad f = true) (hi : ∀ f a, ∃ q, w.init f a = some q) :
    ∃ an G s0 log s', SessionNU w file s D an G s0 log s' ∧ G.g = g ∧ MainNU w [file] .success (buildLog D ++ log) (some s') := by
  have M' := describe_acceptedNU hs (files_ok w.read) M hg
  have hm' : w.mul10 = (· * 10) := funext hm
  have hu' : D.nonUniform = true := M'.nonUniform.mpr hu
  obtain ⟨an, han, hlen⟩ : ∃ an, Analysed w.mul10 D.init D.times an ∧
      (an.type = .transient → ∃ t ∈ filePowers (filesOf w.read) s, t.length * an.slotLength < 10 ^ 9) := by
    cases hk : D.times with
    | none => exact ⟨_, .steady, fun h => by cases h⟩
    | some x =>
      obtain ⟨step, slot⟩ := x
      have hk' : s.solver.kind = some (step, slot) := M'.times.1 ▸ hk
      obtain ⟨k, k1, k2, k3, k4⟩ := ht step slot hk'
      have := ((Solver.C37_slot_length_partial k1 k2 k3).1 (M'.times.2 step slot hk')).1
      rw [hm']
      exact ⟨_, .transient this, fun _ => k4⟩
  obtain ⟨q, hq⟩ : ∃ q, initPlugin w D an = some q := by
    unfold initPlugin
    split
    · exact hi _ _
    · exact ⟨_, rfl⟩
  have hh : headersNU w.canOpen D.points = true := by
    unfold headersNU
    rw [List.all_eq_true]
    intro p _
    cases p.target <;> simp [hopen]
  have htop' : D.top ≠ none := by
    obtain ⟨_, _, _, _, _, _, _, hb, _⟩ := M'.stack
    intro h
    rw [h] at hb
    cases hst : s.top with
    | none => exact htop hst
    | some x => rw [hst] at hb; exact hb
  obtain ⟨G, hG, hGg⟩ : ∃ G, gridNU D = some G ∧ G.g = g := by
    have e : fillGrid D.parsed.dims.nLayers (((nElems D).map NU.fixDiscr).map (·.elem)) D.top D.bottom = some g := by
      rw [NU.fillGrid_fix, nElems_elems M']
      exact (fillGrid_map _ _ _ _ _).trans hg
    obtain ⟨n, hn⟩ : ∃ n, NU.numberOfCells D.parsed.dims D.top (nElems D) = some n := by
      unfold NU.numberOfCells
      cases hD : D.top with
      | none => exact absurd hD htop'
      | some t => cases t <;> exact ⟨_, rfl⟩
    unfold gridNU NU.buildNU
    rw [hn, Option.bind_some]
    simp only
    rw [e]
    exact ⟨_, rfl, rfl⟩
  have hruns := NU.runs_sequential (NU.regions G.d.nLayers G.ty G.ls)
  generalize NU.sequential (NU.regions G.d.nLayers G.ty G.ls) = L at hruns
  obtain ⟨s0, hs0⟩ : ∃ s0, startNU w an G L q = some s0 := by
    unfold startNU NU.buildSim
    simp only
    rw [if_pos (by exact hfac _)]
    exact ⟨_, rfl⟩
  have st : StartedNU w s D an G s0 := ⟨M', hG, q, L, hq, hruns, hs0⟩
  obtain ⟨d0, raws, -, hb, -⟩ := st.begun hs
  obtain ⟨hv, h0, -⟩ := NU.begun_valid hb
  have hpts : ∀ p ∈ D.points, ∃ x, PointIs nuReader D.parsed.dims D.parsed.elems x p ∧ ShortNames x := by
    intro p hp
    obtain ⟨x, hx, hx'⟩ := forall₂_mem_right M'.points hp
    exact ⟨x, hx', hn x hx⟩
  obtain ⟨log, s', hem⟩ : ∃ log s', EmulatedNU w.canOpen D.points (configNU w an) s0 log s' := by
    obtain ⟨t1, t2, t3, t4⟩ := times_nu hm han
    rcases t4 with ⟨-, t4⟩ | ⟨sl, -, t5⟩
    · obtain ⟨r1, r2, -⟩ := steady_result hv t4
      obtain ⟨l1, hl1⟩ := after_defined hopen hpts an (NU.steadyNU (configNU w an) s0).1 (NU.steadyNU (configNU w an) s0).2 (by rw [r2, h0]; norm_num)
      obtain ⟨l2, hl2⟩ := output_defined hopen hpts an (NU.steadyNU (configNU w an) s0).2 (by rw [r2, h0]; norm_num) .final
      exact ⟨_, _, NU.steadyNU (configNU w an), _, _, by unfold emulateNU; rw [show (configNU w an).an.type = .steady from t4],
        .stop (r := (NU.steadyNU (configNU w an) s0).1) rfl r1 hl1, hl2, rfl⟩
    · obtain ⟨t, htt, htl⟩ := hlen t5
      rw [← begun_traces st hs] at htt
      have hW : t.length * (configNU w an).an.slotLength < W := by
        have : t.length * (configNU w an).an.slotLength < 10 ^ 9 := htl
        unfold W; omega
      have hex : ∃ n, ¬ Succeeded (NU.stepNU (configNU w an) (NU.afterSteps (configNU w an) s0 n)).1 := by
        by_contra hno
        have hno : ∀ n, Succeeded (NU.stepNU (configNU w an) (NU.afterSteps (configNU w an) s0 n)).1 := fun n => by
          by_contra h; exact hno ⟨n, h⟩
        have := NU.run_bound (n := t.length * (configNU w an).an.slotLength + 1) t5 t3 hv h0 (fun k _ => hno k) htt hW
        omega
      classical
      let n := Nat.find hex
      have hn1 : ¬ Succeeded (NU.stepNU (configNU w an) (NU.afterSteps (configNU w an) s0 n)).1 := Nat.find_spec hex
      have hn2 : ∀ k, k < n → Succeeded (NU.stepNU (configNU w an) (NU.afterSteps (configNU w an) s0 k)).1 := fun k hk =>
        not_not.mp (Nat.find_min hex hk)
      have hnb := NU.run_bound (n := n) t5 t3 hv h0 hn2 htt hW
      have hn9 : n < 10 ^ 9 := lt_of_le_of_lt hnb htl
      have hnW : n < W := lt_of_le_of_lt hnb hW
      have along := fun k (hk : k ≤ n) => NU.steps_along (cfg := configNU w an) t5 t3 hv h0 k (by omega) (fun j hj => hn2 j (by omega))
      have hend : ((NU.stepNU (configNU w an) (NU.afterSteps (configNU w an) s0 n)).1 = .endOfSimulation ∨
          (NU.stepNU (configNU w an) (NU.afterSteps (configNU w an) s0 n)).1 = .solverError) ∧ (NU.afterSteps (configNU w an) s0 (n + 1)).time = n := by
        obtain ⟨g1, g2, -⟩ := along n le_rfl
        show _ ∧ (NU.stepNU (configNU w an) (NU.afterSteps (configNU w an) s0 n)).2.time = n
        obtain ⟨-, -, -, hc⟩ := NU.step_spec (cfg := configNU w an) g1
        rcases hc with ⟨-, h5, -⟩ | ⟨h6, -, -, -, h5, -⟩ | ⟨-, -, -, ⟨h6, h5⟩ | ⟨h5, -⟩⟩
        · exact absurd t5 h5
        · exact ⟨.inl h6, by rw [h5, g2]⟩
        · exact ⟨.inr h6, by rw [h5, g2]⟩
        · exact absurd h5 hn1
      obtain ⟨l1, hl1⟩ := loop_exists (canOpen := w.canOpen) (ps := D.points) n s0 hn2 hend.1 (fun k hk => by
        refine after_defined hopen hpts _ _ _ ?_
        rcases Nat.lt_or_ge k n with hlt | hge
        · rw [(along (k + 1) (by omega)).2.1]; omega
        · obtain rfl : k = n := by omega
          rw [hend.2]; exact hn9)
      obtain ⟨l2, hl2⟩ := output_defined hopen hpts an (NU.afterSteps (configNU w an) s0 (n + 1)) (by rw [hend.2]; exact hn9) .final
      exact ⟨_, _, NU.stepNU (configNU w an), _, _, by unfold emulateNU; rw [show (configNU w an).an.type = .transient from t5], hl1, hl2, rfl⟩
  have hS : SessionNU w file s D an G s0 log s' := ⟨hc, M', fun p _ => hp _, han, hh, hu', hG, hopen _, ⟨q, L, hq, hruns, hs0⟩, hem⟩
  exact ⟨an, G, s0, log, s', hS, hGg, C69_session.mpr ⟨_, _, _, _, _, _, _, _, rfl, rfl, rfl, hS⟩⟩

end Verif.Prog
