import Verif.Props.ProgramHeat

/-! # C68: steady simulations, errors of the solver, and the end of every run -/

set_option linter.unusedSectionVars false
set_option linter.unusedSimpArgs false
set_option linter.unusedVariables false

namespace Verif.Prog
open Verif.Gram Verif.Dim Verif.TG Verif.SM Verif.Stk Verif.FE Verif.Out Verif.Emu Verif.Flp

variable {π : Type}

/-! ### Specification -/

/-- No channel is listed directly after another one. -/
def NoDoubleChannel (s : StackD) : Prop := ∀ (i : Nat) a b, s.elems[i]? = some (.channel a) → s.elems[i + 1]? ≠ some (.channel b)

/-- The heat that the files, the ambients and the coolant bring to cell `(l, r, c)` during slot `j`. -/
noncomputable def cellHeat (files : Files) (s : StackD) (g : TGrid ℚ) (d : Dims ℚ) (j l r c : Nat) : ℚ :=
  cellPower files s d j l r c + sinkTerm g d l r c + inletTerm g d l r c

/-! ### Proofs -/

theorem isChain_reverse' {α : Type} {R : α → α → Prop} {l : List α} (h : l.IsChain fun a b => R b a) : l.reverse.IsChain R := by
  rw [List.isChain_reverse]; exact h

section
variable {w : World π} {file : String} {s : StackD} {D : Desc Flps} {an : Analysis ℚ} {s0 s' : Sim ℚ π} {log : Log ℚ}

theorem spec_ends {decl : Option (Channel ℚ)} (hd : DeclOk decl) {φ : Type} {r : Raw ℚ φ} (hr : r.body = .channel → decl ≠ none) :
    specTypes decl r ≠ [] ∧ (specTypes decl r).IsChain (fun a b => ¬ (a = .topWall ∧ b = .bottomWall)) ∧
    ((specTypes decl r).getLast? = some .topWall → r.body = .channel) ∧ ((specTypes decl r).head? = some .bottomWall → r.body = .channel) := by
  obtain ⟨id, b⟩ := r
  have hcon : ∀ L : List LType, (∀ t ∈ L, t ≠ .topWall) → L.IsChain (fun a b => ¬ (a = .topWall ∧ b = .bottomWall)) := by
    intro L hL
    refine List.isChain_iff_getElem.mpr fun i hi h => ?_
    exact hL _ (List.getElem_mem _) h.1
  cases b with
  | layer l => exact ⟨by simp [specTypes], by simp [specTypes], by simp [specTypes], by simp [specTypes]⟩
  | channel =>
    have hdec := hr rfl
    refine ⟨?_, ?_, fun _ => rfl, fun _ => rfl⟩
    · cases hc : decl with
      | none => exact absurd hc hdec
      | some c => have := hd c hc; unfold specTypes; simp only [Option.map_some]; cases hm : c.model <;> simp_all
    · cases hc : decl with
      | none => exact absurd hc hdec
      | some c => have := hd c hc; unfold specTypes; simp only [Option.map_some]; cases hm : c.model <;> simp_all
  | die x =>
    have hmem : ∀ t ∈ specTypes decl (⟨id, .die x⟩ : Raw ℚ φ), t = .solid ∨ t = .source := by
      intro t ht
      simp only [specTypes, List.mem_append, List.mem_map, List.mem_singleton] at ht
      rcases ht with (⟨_, _, rfl⟩ | rfl) | ⟨_, _, rfl⟩ <;> simp
    refine ⟨by simp [specTypes], hcon _ fun t ht => ?_, fun h => ?_, fun h => ?_⟩
    · rcases hmem t ht with rfl | rfl <;> simp
    · rcases hmem _ (List.mem_of_getLast? h) with e | e <;> cases e
    · rcases hmem _ (List.mem_of_head? h) with e | e <;> cases e

/-- Channels that are not listed one after the other are not stacked. -/
theorem not_stacked {d0 d1 : Dims ℚ} {files : Files} {raws : List (Raw ℚ Flps)} {p : Parsed ℚ Flps} {g : TGrid ℚ} {decl : Option (Channel ℚ)}
    (hr : List.Forall₂ (fun x r => ∃ d0, ElemIs uniformReader files s d0 x r) s.elems raws) (hb : BuiltFrom d0 decl raws p g)
    (hdbl : NoDoubleChannel s) (hd : p.dims = d1) : NotStacked g d1 := by
  obtain ⟨es, n, hf, -⟩ := parseStack_spec hb.parse
  have hdec : ∀ r ∈ raws, r.body = .channel → decl ≠ none := by
    intro r hrm hc hn
    obtain ⟨e, -, he⟩ := forall₂_mem_left hf hrm
    rw [resolve] at he
    rw [hc, hn] at he
    simp at he
  have hchain : (stackTypes decl raws).IsChain (fun a b => ¬ (a = .topWall ∧ b = .bottomWall)) := by
    unfold stackTypes
    rw [List.flatMap_def, List.isChain_flatten]
    · constructor
      · intro l hl
        obtain ⟨r, hrm, rfl⟩ := List.mem_map.mp hl
        exact (spec_ends hb.ok (hdec r (List.mem_reverse.mp hrm))).2.1
      · rw [List.isChain_map, List.isChain_reverse]
        refine List.isChain_iff_getElem.mpr fun i hi => ?_
        intro x hx y hy ⟨h1, h2⟩
        subst h1; subst h2
        have c1 := (spec_ends hb.ok (hdec (raws[i + 1]) (List.getElem_mem _))).2.2.1 hx
        have c2 := (spec_ends hb.ok (hdec (raws[i]) (List.getElem_mem _))).2.2.2 hy
        have hlen := hr.length_eq
        have key : ∀ j (hj : j < raws.length), raws[j].body = .channel → ∃ a, s.elems[j]? = some (.channel a) := by
          intro j hj hc
          have hj' : j < s.elems.length := by omega
          have := List.forall₂_iff_get.mp hr |>.2 j hj' hj
          obtain ⟨dd, he⟩ := this
          simp only [List.get_eq_getElem] at he
          rw [List.getElem?_eq_getElem hj']
          cases hx : s.elems[j] with
          | channel a => exact ⟨a, rfl⟩
          | layer a b c => rw [hx] at he; obtain ⟨l, -, e⟩ := he; rw [e] at hc; cases hc
          | die a b c o => rw [hx] at he; obtain ⟨q, f, gg, -, -, -, e⟩ := he; rw [e] at hc; cases hc
        obtain ⟨a, ha⟩ := key (i + 1) hi c1
        obtain ⟨b, hb'⟩ := key i (by omega) c2
        exact hdbl i b a hb' ha
    · intro hmem
      obtain ⟨r, hrm, he⟩ := List.mem_map.mp hmem
      exact (spec_ends hb.ok (hdec r (List.mem_reverse.mp hrm))).1 he
  intro l hl ⟨h1, h2⟩
  obtain ⟨hn, -⟩ := C16_layers_match_file hb.ok hb.parse
  rw [hd] at hn
  rw [hn] at hl
  have hsame : ∀ i (hi : i < (stackTypes decl raws).length) t, solidish t = false → typeAt g i = t → (stackTypes decl raws)[i] = t := by
    intro i hi t hst ht
    have := same_type hb (List.getElem?_eq_getElem hi)
    rcases this with e | ⟨-, e⟩
    · rw [← e, ht]
    · rw [ht, hst] at e; cases e
  have a1 := hsame l (by omega) .topWall rfl h1
  have a2 := hsame (l + 1) hl .bottomWall rfl h2
  exact (List.isChain_iff_getElem.mp hchain l (by omega)) ⟨a1, a2⟩

/-- **C68** The result of a steady simulation of sensible files without a pluggable sink, if the solver does not fail: a steady state of the
heat equation of the files, with the first power value of every element. -/
theorem C68_steady_state (h : Session w file s D an s0 log s') (hs : Sensible w.eff (filesOf w.read) s) (hm : ∀ x, w.mul10 x = x * 10)
    (ht : s.solver.kind = none) (hcor : Correct (config w D an))
    (hpow : ∀ t ∈ filePowers (filesOf w.read) s, t ≠ []) (hok : (emulateSteady (config w D an) s0).1 ≠ .solverError) :
    SteadyState s0.g D.parsed.dims (cellHeat (filesOf w.read) s s0.g D.parsed.dims 0) s'.temps := by
  rw [(C68_steady_outputs h hs hm ht).1]
  obtain ⟨raws, g1, g2, g3, g4, -, -, -, g5⟩ := h.good hs
  have hty : an.type = .steady := by
    obtain ⟨t1, t2, t3, t4⟩ := times_good hm h.times
    rcases t4 with ⟨-, t4⟩ | ⟨sl, t4, t5⟩
    · exact t4
    · rw [h.means.times.1, ht] at t4; cases t4
  have hend : (emulateSteady (config w D an) s0).1 = .endOfSimulation := by
    rcases (steady_result (cfg := config w D an) s0 hty).1 with e | e
    · exact e
    · exact absurd e hok
  have := C46_steady_result (started_reachable g1) hcor g3 (by rw [g4]; exact hpow) hend
  intro l r c hl hr hc
  refine (this l r c hl hr hc).trans ?_
  unfold heatIn cellHeat
  congr 2
  refine powerIn_eq ?_ r c
  exact layer_powers (cfg := config w D an) g5 rfl (by simp [show (List.drop 0 : List ℚ → List ℚ) = id from rfl]) l

/-- In a stack with a conventional sink where no channel follows another one, all the heat can leave. -/
theorem heat_leaves (h : Session w file s D an s0 log s') (hs : Sensible w.eff (filesOf w.read) s) (hp : ∀ p, s.top ≠ some (.plug p)) (hdbl : NoDoubleChannel s)
    (hsink : s.top ≠ none ∨ s.bottom ≠ none) :
    Built Flps s0.g D.parsed.dims ∧ Physical s0.g D.parsed.dims ∧ NotStacked s0.g D.parsed.dims ∧ HeatLeaves s0.g D.parsed.dims ∧ spreaderOf s0.g = none := by
  obtain ⟨q, -, hst⟩ := h.started
  obtain ⟨raws, hr, g1, g2, -, -, -, -, -, g5, g6, -⟩ := start_good hs h.means hst
  have hsp := no_spreader h hs hp
  obtain ⟨d0, decl, p, q', hbf, hd, -⟩ := g1
  have hd' : p.dims = D.parsed.dims := hd.symm
  have hB : Built Flps s0.g D.parsed.dims := by
    have := hbf.built; rw [hd'] at this; exact this
  have hns : NotStacked s0.g D.parsed.dims := not_stacked hr hbf hdbl hd'
  refine ⟨hB, g2, hns, ?_, hsp⟩
  refine C46_sink_suffices hB ?_
  rcases hsink with hk | hk
  · left
    rw [g5]
    cases hx : D.top with
    | none =>
      obtain ⟨walls, d, spr, -, -, -, -, htt, -⟩ := h.means.stack
      rw [hx] at htt
      cases hy : s.top with
      | none => exact absurd hy hk
      | some y => rw [hy] at htt; exact htt.elim
    | some y =>
      cases y with
      | ambient sk => exact ⟨sk, rfl⟩
      | pluggable a m => obtain ⟨pp, hpp⟩ := top_plug h.means hx; exact absurd hpp (hp pp)
  · right
    rw [g6, h.means.bottom]
    cases hx : s.bottom with
    | none => exact absurd hx hk
    | some y => exact ⟨_, rfl⟩

/-- **C68** If moreover the file has a conventional sink and no channel follows another one, that steady state is the only one. -/
theorem C68_steady_only (h : Session w file s D an s0 log s') (hs : Sensible w.eff (filesOf w.read) s) (hm : ∀ x, w.mul10 x = x * 10)
    (ht : s.solver.kind = none) (hcor : Correct (config w D an)) (hp : ∀ p, s.top ≠ some (.plug p))
    (hpow : ∀ t ∈ filePowers (filesOf w.read) s, t ≠ []) (hok : (emulateSteady (config w D an) s0).1 ≠ .solverError) (hdbl : NoDoubleChannel s)
    (hsink : s.top ≠ none ∨ s.bottom ≠ none) {T : List ℚ}
    (hT : SteadyState s0.g D.parsed.dims (cellHeat (filesOf w.read) s s0.g D.parsed.dims 0) T) : SameTemps D.parsed.dims T s'.temps := by
  have h1 := C68_steady_state h hs hm ht hcor hpow hok
  obtain ⟨hB, g2, hns, hleave, hsp⟩ := heat_leaves h hs hp hdbl hsink
  obtain ⟨T0, hT0, hu⟩ := C46_steady_unique hB g2 hns hleave hsp (cellHeat (filesOf w.read) s s0.g D.parsed.dims 0)
  intro i hi
  exact (hu _ hT i hi).trans (hu _ h1 i hi).symm

/-- **C68: a failure of the solver is not reported by the exit status, and in a steady simulation the heat flows are printed as temperatures**:
if the solver fails, the program still exits with success, and the value left in the place of the temperature of each cell, which the
`final` outputs show, is the heat that enters the cell. -/
theorem C68_solver_error_unreported_violated (h : Session w file s D an s0 log s') (hs : Sensible w.eff (filesOf w.read) s) (hm : ∀ x, w.mul10 x = x * 10)
    (ht : s.solver.kind = none) (hp : ∀ p, s.top ≠ some (.plug p)) (hpow : ∀ t ∈ filePowers (filesOf w.read) s, t ≠ [])
    (hfail : ∀ A b, w.solve A b = none) :
    Main w [file] .success log (some s') ∧ log = entries (config w D an) s' 0 (ofInstant .final (pointsOf D)) ∧
      ∀ l r c, l < D.parsed.dims.nLayers → r < D.parsed.dims.nRows → c < D.parsed.dims.nCols →
        tempIn D.parsed.dims s' l r c = cellHeat (filesOf w.read) s s0.g D.parsed.dims 0 l r c := by
  obtain ⟨h1, h2⟩ := C68_steady_outputs h hs hm ht
  refine ⟨C68_session.mpr ⟨file, s, D, an, s0, s', rfl, rfl, h⟩, h2, ?_⟩
  obtain ⟨raws, g1, g2, g3, g4, -, -, -, g5⟩ := h.good hs
  have hty : an.type = .steady := by
    obtain ⟨t1, t2, t3, t4⟩ := times_good hm h.times
    rcases t4 with ⟨-, t4⟩ | ⟨sl, t4, t5⟩
    · exact t4
    · rw [h.means.times.1, ht] at t4; cases t4
  have hg := reachable_good (started_reachable g1)
  have hv := steady_value (config w D an) s0 hg hty (no_spreader h hs hp) (by rw [g4]; exact hpow) (by rw [(started_spec g1).2.2.2.1, List.length_replicate])
  have hnone : ∀ A b, (config w D an).solve A b = none := hfail
  rw [hnone] at hv
  simp only [Prod.mk.injEq] at hv
  intro l r c hl hr hc
  unfold tempIn
  rw [h1, hv.2]
  obtain ⟨-, -, -, o4⟩ := wf_off hg.wf hl hr hc
  have e : ((List.range (chip (config w D an).d)).map fun i => (slotSources (config w D an).d s0).getD i 0).getD (offInStack D.parsed.dims l r c) 0 =
      (slotSources (config w D an).d s0).getD (offInStack D.parsed.dims l r c) 0 := by
    have o5 : offInStack D.parsed.dims l r c < chip (config w D an).d := o4
    rw [List.getD_eq_getElem?_getD, List.getElem?_map, List.getElem?_range o5]; rfl
  rw [e]
  have hsl := slot_at hg g3 hl hr hc
  refine hsl.trans ?_
  unfold cellHeat
  congr 2
  refine powerIn_eq ?_ r c
  exact layer_powers (cfg := config w D an) g5 rfl (by simp [show (List.drop 0 : List ℚ → List ℚ) = id from rfl]) l

/-! #### Every run ends -/

/-- The simulation of a stack has a floorplan element. -/
theorem has_elements (hs : Sensible w.eff (filesOf w.read) s) (M : Means uniformReader w.eff (filesOf w.read) s D) {q : π}
    (hst : start w D an q = some s0) : elements s0 ≠ [] := by
  obtain ⟨raws, hr, g1, -⟩ := start_good hs M hst
  rw [(started_spec g1).2.1]
  obtain ⟨d0, decl, p, q', hbf, -, -⟩ := g1
  obtain ⟨es, n, hf, -, -, ⟨e, he, hdie⟩, -⟩ := parseStack_spec hbf.parse
  obtain ⟨r, hrm, hre⟩ := forall₂_mem_right hf he
  obtain ⟨x, -, dd, hx⟩ := forall₂_mem_right hr hrm
  have hb : ∃ y, r.body = .die y ∧ y.flp ≠ [] := by
    cases x with
    | layer a b c => obtain ⟨l, -, e'⟩ := hx; rw [e', resolve] at hre; cases hre; simp [isDie] at hdie
    | channel a =>
      have e' : r = ⟨a, .channel⟩ := hx
      rw [e', resolve] at hre
      cases decl with
      | none => simp at hre
      | some c => simp at hre; rw [← hre] at hdie; simp [isDie] at hdie
    | die a b c o =>
      obtain ⟨y, f, gg, -, -, hread, e'⟩ := hx
      refine ⟨_, by rw [e'], ?_⟩
      have hr' : parseFloorplan dd (elRaws f) = some gg := hread
      unfold parseFloorplan at hr'
      split_ifs at hr' with hne
      have := (mapM_some_iff.mp hr').length_eq
      intro hnil
      have hnil' : gg = [] := hnil
      rw [hnil'] at this
      exact hne (List.length_eq_zero_iff.mp this)
  obtain ⟨y, hy, hne⟩ := hb
  intro hnil
  unfold fileElements at hnil
  rw [List.flatMap_eq_nil_iff] at hnil
  have := hnil r (List.mem_reverse.mpr hrm)
  rw [hy] at this
  exact hne this

/-- **C68** The program always ends: if the document of the file (when there is one) is sensible, asks for a uniform grid, and its times have
few enough decimals (C37), there is an outcome — and only one (`C68_one_outcome`) —, whatever the solver and the plug-in do. -/
theorem C68_always_ends {args : List String} (hm : ∀ x, w.mul10 x = x * 10)
    (hdoc : ∀ f s, args = [f] → Contains w f s → Sensible w.eff (filesOf w.read) s ∧ s.dims.nonUniform ≠ some true ∧
      ∀ step slot, s.solver.kind = some (step, slot) → ∃ k, Solver.HasDecimals k step ∧ Solver.HasDecimals k slot ∧ slot * 10 ^ k < (4294967296 : Nat)) :
    ∃ st log o, Main w args st log o := by
  have hm' : w.mul10 = (· * 10) := funext hm
  by_cases hl : args.length = 1
  · obtain ⟨f, rfl⟩ := List.length_eq_one_iff.mp hl
    cases hr : readInput w f with
    | none => exact ⟨_, _, _, .refused hr⟩
    | some D =>
      obtain ⟨⟨s, hc, M⟩, -⟩ := readInput_iff.mp hr
      obtain ⟨hs, hu, htm⟩ := hdoc f s rfl hc
      have hu' : D.nonUniform = false := by
        cases hh : D.nonUniform with
        | false => rfl
        | true => exact absurd (M.nonUniform.mp hh) hu
      obtain ⟨an, han⟩ : ∃ an, Analysed w.mul10 D.init D.times an := by
        cases hk : D.times with
        | none => exact ⟨_, .steady⟩
        | some x =>
          obtain ⟨step, slot⟩ := x
          have hk' : s.solver.kind = some (step, slot) := M.times.1 ▸ hk
          obtain ⟨k, k1, k2, k3⟩ := htm step slot hk'
          have := ((Solver.C37_slot_length_partial k1 k2 k3).1 (M.times.2 step slot hk')).1
          rw [hm']
          exact ⟨_, .transient this⟩
      cases hq : initPlugin w D an with
      | none => exact ⟨_, _, _, .noPlugin hr han hq⟩
      | some q =>
        cases hh : Srv.headersOk w.canOpen (outputOf D.points) with
        | false => exact ⟨_, _, _, .unwritable hr han hq hh⟩
        | true =>
          cases hst : start w D an q with
          | none => exact ⟨_, _, _, .unbuilt hr han hq hh hu' hst⟩
          | some s0 =>
            have hem : ∃ log s', Emulated w.canOpen (outputOf D.points) (config w D an) s0 log s' := by
              obtain ⟨t1, t2, t3, t4⟩ := times_good hm han
              rcases t4 with ⟨-, t4⟩ | ⟨sl, -, t5⟩
              · have hsr := (steady_result (cfg := config w D an) s0 t4).1
                exact ⟨_, _, emulateSteady (config w D an), _, by unfold emulateFn; rw [show (config w D an).an.type = .steady from t4], .stop rfl hsr, rfl⟩
              · obtain ⟨raws, -, g1, -⟩ := start_good hs M hst
                exact C32_simulation_ends g1 t5 t3 (has_elements hs M hst)
            obtain ⟨log, s', hem⟩ := hem
            exact ⟨_, _, _, .ran hr han hq hh hu' hst hem⟩
  · exact ⟨_, _, _, .usage hl⟩

end

end Verif.Prog
