import Verif.Props.NuSame
import Verif.Props.ProgramNuSteady
import Verif.Props.ProgramEx

/-! # C74: bounds and comparison of the temperatures that the program computes on non-uniform grids without coolant -/

set_option linter.unusedSectionVars false
set_option linter.unusedSimpArgs false
set_option linter.unusedVariables false

namespace Verif.Prog
open Verif.Gram Verif.Dim Verif.TG Verif.SM Verif.Stk Verif.FE Verif.Emu Verif.Flp

variable {π ρ : Type}

/-! ### Specification -/

/-- Two elements of a floorplan file: the same name and area, with higher power values. -/
def HotterEl (x y : FlpD) : Prop := y.id = x.id ∧ y.area = x.area ∧ List.Forall₂ (· ≤ ·) x.powers y.powers

/-- Two stack files without a cooling channel and the files they refer to: the second ones have higher powers, ambient temperatures and initial temperature,
and may have other output instructions and another number of cores. Everything else is the same. -/
structure Hotter (files files' : Files) (s s' : StackD) : Prop where
  mats : s'.mats = s.mats
  dims : s'.dims = s.dims
  layers : s'.layers = s.layers
  dies : s'.dies = s.dies
  elems : s'.elems = s.elems
  dry : s.chan = none ∧ s'.chan = none
  kind : s'.solver.kind = s.solver.kind
  init : s.solver.init ≤ s'.solver.init
  top : ∃ x x' : SinkD, s.top = some (.conv x) ∧ s'.top = some (.conv x') ∧ x'.htc = x.htc ∧ x.temp ≤ x'.temp
  bottom : (s.bottom = none ∧ s'.bottom = none) ∨ ∃ x x' : SinkD, s.bottom = some x ∧ s'.bottom = some x' ∧ x'.htc = x.htc ∧ x.temp ≤ x'.temp
  lay : ∀ l ∈ s.layers, ∀ p, l.layout = some p → files'.lay p = files.lay p
  flp : ∀ id ref p o f, .die id ref p o ∈ s.elems → files.flp p = some f → ∃ f', files'.flp p = some f' ∧ List.Forall₂ HotterEl f f'

/-! ### Proofs -/

variable {w : World π} {file : String} {s : StackD} {D : Desc NFlps} {an : Analysis ℚ} {G : NU.Grid ℚ} {s0 s1 : NU.NSim ℚ π} {log : NLog}
variable {w' : World ρ} {file' : String} {s' : StackD} {D' : Desc NFlps} {an' : Analysis ℚ} {G' : NU.Grid ℚ} {t0 t1 : NU.NSim ℚ ρ} {log' : NLog}

theorem dry_chan (M : Means nuReader w.eff (filesOf w.read) s D) (h : s.chan = none) : D.chan = none := by
  obtain ⟨walls, d, spr, -, -, -, hch, -⟩ := M.stack
  rw [h] at hch
  cases hD : D.chan with
  | none => rfl
  | some c => rw [hD] at hch; exact hch.elim

theorem dry_double (M : Means nuReader w.eff (filesOf w.read) s D) (h : s.chan = none) : NoDoubleChannel s := by
  intro i a b h1 h2
  obtain ⟨walls, d, spr, -, -, -, hch, -, -, -, raws, he, hp⟩ := M.stack
  rw [dry_chan M h] at hp
  obtain ⟨es, m, hf, -⟩ := parseStack_spec hp
  obtain ⟨r, hr, hx⟩ := forall₂_mem_left he (List.mem_of_getElem? h1)
  obtain ⟨e, -, hy⟩ := forall₂_mem_left hf hr
  have hx : r = ⟨a, .channel⟩ := hx
  rw [hx] at hy
  simp [resolve] at hy

theorem begun_init (h : StartedNU w s D an G s0) (hs : Sensible w.eff (filesOf w.read) s)
    (htm : Analysed w.mul10 D.init D.times an) (hm : ∀ x, w.mul10 x = x * 10) (i : Nat) (hi : i < G.cells.length) : s0.temps.getD i 0 = s.solver.init := by
  obtain ⟨d0, rs, -, h1, h2, -⟩ := h.begun hs
  obtain ⟨-, -, h3, -⟩ := NU.begun_valid h1
  obtain ⟨t1, -⟩ := times_nu hm htm
  rw [h3, h2, List.getD_eq_getElem?_getD, List.getElem?_replicate, if_pos hi]
  show an.initTemp = _
  rw [t1, h.means.init]

theorem no_error {cfg : NU.NCfg ℚ π} {x : NU.NSim ℚ π} {n : Nat} (hok : ∀ k, k < n → (NU.stepNU cfg (NU.afterSteps cfg x k)).1 ≠ .solverError) :
    .solverError ∉ (NU.run cfg (List.replicate n .step) x).1 := by
  induction n generalizing x with
  | zero => simp [NU.run]
  | succ n ih =>
    rw [List.replicate_succ, NU.run]
    simp only [List.mem_append, not_or]
    refine ⟨?_, ih (x := (NU.stepNU cfg x).2) fun k hk => by rw [← NU.afterSteps_first]; exact hok (k + 1) (by omega)⟩
    show .solverError ∉ [(NU.stepNU cfg x).1]
    rw [List.mem_singleton]
    exact fun e => hok 0 (by omega) e.symm

theorem cells_along {cfg : NU.NCfg ℚ π} {d0 : Dims ℚ} {decl : Option (Channel ℚ)} {rs : List (Raw ℚ (List (NU.FEl ℚ)))} {ns : List (NU.NElem ℚ)}
    {x : NU.NSim ℚ π} (h : NU.ReachableNU cfg d0 decl rs ns x) : ∀ k, (NU.afterSteps cfg x k).G.cells = x.G.cells
  | 0 => rfl
  | k + 1 => by
    obtain ⟨-, -, ⟨fl, -, hfl⟩, -⟩ := NU.step_spec (cfg := cfg) (NU.reachable_valid (after_reach h k))
    show (NU.stepNU _ _).2.G.cells = _
    rw [hfl]; exact cells_along h k

theorem dry_begun (h : StartedNU w s D an G s0) (hs : Sensible w.eff (filesOf w.read) s) (hdry : s.chan = none) :
    ∃ d0 rs, NU.Begun (configNU w an) d0 none rs (nElems D) s0 ∧ s0.G = G ∧ s0.time = 0 ∧ NU.traces s0 = filePowers (filesOf w.read) s := by
  obtain ⟨d0, raws, -, h1, h2, -⟩ := h.begun hs
  rw [dry_chan h.means hdry] at h1
  exact ⟨d0, _, h1, h2, (NU.begun_valid h1).2.1, begun_traces h hs⟩

/-- What the bounds need. -/
theorem dry_start (h : StartedNU w s D an G s0) (hs : Sensible w.eff (filesOf w.read) s) (hg : GoodDivision (filesOf w.read) s)
    (hdry : s.chan = none) {x : SinkD} (hx : s.top = some (.conv x)) :
    ∃ d0 rs, NU.Begun (configNU w an) d0 none rs (nElems D) s0 ∧ s0.G = G ∧ s0.G.g.top = some (.ambient ⟨x.htc, x.temp⟩) ∧
      s0.G.g.bottom = s.bottom.map (fun b => ⟨b.htc, b.temp⟩) ∧ NU.PhysicalNU s0.G ∧ NU.Full s0.G ∧ s0.time = 0 ∧ NU.traces s0 = filePowers (filesOf w.read) s := by
  obtain ⟨d0, rs, h1, h2, h3, h4, gg, h6⟩ := h.good hs hg
  rw [dry_chan h.means hdry] at h1
  exact ⟨d0, rs, h1, h2, by rw [h2]; exact h3.trans (top_ambient h.means hx), by rw [h2, h4, h.means.bottom], by rw [h2]; exact gg.phys, by rw [h2]; exact gg.full,
    (NU.begun_valid h1).2.1, begun_traces h hs⟩

theorem steady_of (h : StartedNU w s D an G s0) (htm : Analysed w.mul10 D.init D.times an) (hm : ∀ x, w.mul10 x = x * 10) (ht : s.solver.kind = none) :
    (configNU w an).an.type = .steady := by
  obtain ⟨-, -, -, t4⟩ := times_nu hm htm
  rcases t4 with ⟨-, t4⟩ | ⟨sl, t4, t5⟩
  · exact t4
  · rw [h.means.times.1, ht] at t4; cases t4

/-- **C74 (program, lower bound)** Without a channel and with power values that are not negative, the program never computes a temperature below the lower
one of the initial temperature and the ambient temperature of the file, as long as the solver does not fail. -/
theorem C74_program_never_below (h : SessionNU w file s D an G s0 log s1) (hs : Sensible w.eff (filesOf w.read) s) (hg : GoodDivision (filesOf w.read) s)
    (hm : ∀ x, w.mul10 x = x * 10) {step slot : ℚ} (ht : s.solver.kind = some (step, slot)) (hdry : s.chan = none) {x : SinkD} (hx : s.top = some (.conv x))
    (hbot : ∀ b, s.bottom = some b → 0 ≤ b.temp) (hc : NU.CorrectNU (configNU w an)) (hpow : ∀ t ∈ filePowers (filesOf w.read) s, ∀ v ∈ t, 0 ≤ v) {n : Nat}
    (hok : ∀ k, k < n → (NU.stepNU (configNU w an) (NU.afterSteps (configNU w an) s0 k)).1 ≠ .solverError) :
    ∀ i, i < G.cells.length → min x.temp s.solver.init ≤ (NU.afterSteps (configNU w an) s0 n).temps.getD i 0 := by
  obtain ⟨d0, rs, h1, h2, h3, h4, h5, h6, h7, h8⟩ := dry_start h.start hs hg hdry hx
  obtain ⟨t1, t2, t3, t4⟩ := transient_of h.start h.times hm ht
  have key := NU.C74_never_below (.begun h1) (μ := min x.temp s.solver.init) (by rw [h7]; exact dvd_zero _) hc
    (by show 0 < an.stepTime; rw [t2]; exact t3) h5 h6 h3 (min_le_left _ _)
    (by
      intro b hb
      rw [h4] at hb
      obtain ⟨y, hy, rfl⟩ := Option.map_eq_some_iff.mp hb
      exact hbot y hy)
    (by intro i hi; rw [h2] at hi; rw [begun_init h.start hs h.times hm i hi]; exact min_le_right _ _)
    (by rw [h8]; exact hpow) (List.replicate n .step)
    (by intro o ho; rw [List.eq_of_mem_replicate ho]; trivial) (no_error hok)
  rw [← NU.afterSteps_run] at key
  intro i hi
  exact key i (by rw [cells_along (.begun h1), h2]; exact hi)

/-- **C74 (program, upper bound)** Without a channel, without a bottom sink and without power (or with negative powers), the program never computes a
temperature above the higher one of the initial temperature and the ambient temperature of the file. -/
theorem C74_program_never_above (h : SessionNU w file s D an G s0 log s1) (hs : Sensible w.eff (filesOf w.read) s) (hg : GoodDivision (filesOf w.read) s)
    (hm : ∀ x, w.mul10 x = x * 10) {step slot : ℚ} (ht : s.solver.kind = some (step, slot)) (hdry : s.chan = none) {x : SinkD} (hx : s.top = some (.conv x))
    (hbot : s.bottom = none) (hc : NU.CorrectNU (configNU w an)) (hpow : ∀ t ∈ filePowers (filesOf w.read) s, ∀ v ∈ t, v ≤ 0) {n : Nat}
    (hok : ∀ k, k < n → (NU.stepNU (configNU w an) (NU.afterSteps (configNU w an) s0 k)).1 ≠ .solverError) :
    ∀ i, i < G.cells.length → (NU.afterSteps (configNU w an) s0 n).temps.getD i 0 ≤ max x.temp s.solver.init := by
  obtain ⟨d0, rs, h1, h2, h3, h4, h5, h6, h7, h8⟩ := dry_start h.start hs hg hdry hx
  obtain ⟨t1, t2, t3, t4⟩ := transient_of h.start h.times hm ht
  have key := NU.C74_never_above (.begun h1) (μ := max x.temp s.solver.init) (by rw [h7]; exact dvd_zero _) hc
    (by show 0 < an.stepTime; rw [t2]; exact t3) h5 h6 h3 (le_max_left _ _) (by rw [h4, hbot]; rfl)
    (by intro i hi; rw [h2] at hi; rw [begun_init h.start hs h.times hm i hi]; exact le_max_right _ _)
    (by rw [h8]; exact hpow) (List.replicate n .step)
    (by intro o ho; rw [List.eq_of_mem_replicate ho]; trivial) (no_error hok)
  rw [← NU.afterSteps_run] at key
  intro i hi
  exact key i (by rw [cells_along (.begun h1), h2]; exact hi)

/-- **C74 (program, steady state)** The steady temperatures of a chip without a channel whose powers are not negative are not below the ambient. -/
theorem C74_program_steady_never_below (h : SessionNU w file s D an G s0 log s1) (hs : Sensible w.eff (filesOf w.read) s)
    (hg : GoodDivision (filesOf w.read) s) (hm : ∀ x, w.mul10 x = x * 10) (ht : s.solver.kind = none) (hdry : s.chan = none) {x : SinkD}
    (hx : s.top = some (.conv x)) (hbot : ∀ b, s.bottom = some b → 0 ≤ b.temp) (hsh : NU.Sharp G) (hgap : NoGaps (filesOf w.read) s)
    (hcm : NU.CompleteNU (configNU w an)) (hc : NU.CorrectNU (configNU w an)) (hp : ∀ t ∈ filePowers (filesOf w.read) s, t ≠ [])
    (hpow : ∀ t ∈ filePowers (filesOf w.read) s, ∀ v ∈ t, 0 ≤ v) : ∀ i, i < G.cells.length → x.temp ≤ s1.temps.getD i 0 := by
  obtain ⟨d0, rs, h1, h2, h3, h4, h5, h6, h7, h8⟩ := dry_start h.start hs hg hdry hx
  have hdbl : NoDoubleChannel s := dry_double h.means hdry
  obtain ⟨d0', rs', -, -, -, -, gg, -⟩ := h.start.good hs hg
  obtain ⟨hend, -⟩ := C72_program_steady h hs hg hm ht hx hsh hdbl hgap hcm hc hp
  obtain ⟨e1, -⟩ := C69_steady_outputs h hs hm ht
  have key := NU.C74_steady_never_below (.begun h1) hc (steady_of h.start h.times hm ht) (by rw [h2]; exact gg.fit) (by rw [h2]; exact hsh)
    (by rw [h2]; exact no_holes h.start hs hg hdbl hgap ⟨_, by rw [← h2]; exact h3⟩) h5 h6 h3
    (by
      intro b hb
      rw [h4] at hb
      obtain ⟨y, hy, rfl⟩ := Option.map_eq_some_iff.mp hb
      exact hbot y hy)
    (by intro e he; refine hp _ ?_; rw [← h8]; exact List.mem_map_of_mem he) (by rw [h8]; exact hpow) hend
  intro i hi
  rw [e1]
  exact key i (by rw [h2]; exact hi)

/-! ### Comparison -/

/-- A floorplan file without its power values. -/
def noPower (f : FlpD) : FlpD := { f with powers := [] }

theorem hotter_noPower {f f' : List FlpD} (h : List.Forall₂ HotterEl f f') : f'.map noPower = f.map noPower := by
  induction h with
  | nil => rfl
  | cons h _ ih =>
    rw [List.map_cons, List.map_cons, ih]
    obtain ⟨h1, h2, -⟩ := h
    congr 1
    unfold noPower
    rw [h1, h2]

theorem elOf_noPower (mats : Table (Material ℚ)) (f : FlpD) : elOf mats (noPower f) = { elOf mats f with powers := [] } := by
  obtain ⟨i, a, p⟩ := f
  cases a with
  | one x y l w m o => rfl
  | many rs => cases rs <;> rfl

theorem powerless_elem (mats : Table (Material ℚ)) (e : SElem ℚ NFlps) (a b : Nat) :
    NU.powerless ⟨elemMap (List.map (elOf mats)) e, a, b⟩ = ⟨elemMap (List.map (elOf mats)) (elemMap (List.map noPower) e), a, b⟩ := by
  obtain ⟨id, bd, o⟩ := e
  cases bd with
  | die d =>
    simp only [NU.powerless, elemMap, bodyMap, List.map_map]
    congr 5
    funext f
    exact (elOf_noPower mats f).symm
  | layer l => rfl
  | channel c => rfl

theorem powerless_elems (mats : Table (Material ℚ)) (es : List (SElem ℚ NFlps)) (ds : List (Nat × Nat)) :
    (List.zipWith (fun e n => (⟨elemMap (List.map (elOf mats)) e, n.1, n.2⟩ : NU.NElem ℚ)) es ds).map NU.powerless =
      List.zipWith (fun e n => (⟨elemMap (List.map (elOf mats)) e, n.1, n.2⟩ : NU.NElem ℚ)) (es.map (elemMap (List.map noPower))) ds := by
  rw [List.map_zipWith, List.zipWith_map_left]
  congr 1
  funext e n
  exact powerless_elem mats e n.1 n.2

/-- The descriptions of two such documents. -/
theorem hotter_desc (M : Means nuReader w.eff (filesOf w.read) s D) (M' : Means nuReader w'.eff (filesOf w'.read) s' D')
    (hh : Hotter (filesOf w.read) (filesOf w'.read) s s') :
    (nElems D').map NU.powerless = (nElems D).map NU.powerless ∧ D'.parsed.dims = D.parsed.dims ∧ D'.times = D.times := by
  have a := (C67_meaning nuReader w.eff (filesOf w.read) s D).mpr M
  have b := (C67_meaning nuReader w'.eff (filesOf w'.read) s' D').mpr M'
  have hx : SameFiles s' (filesOf w'.read) ⟨(filesOf w'.read).flp, (filesOf w.read).lay⟩ :=
    ⟨fun _ _ _ _ _ => rfl, fun l hl p h => hh.lay l (by rw [← hh.layers]; exact hl) p h⟩
  rw [describe_files _ _ hx] at b
  clear hx
  unfold describe at a b
  simp only [Option.bind_eq_some_iff] at a b
  obtain ⟨mats, a1, d, a2, chan, a3, top, a4, layers, a5, dies, a6, raws, a7, p, a8, a9⟩ := a
  obtain ⟨mats', b1, d', b2, chan', b3, top', b4, layers', b5, dies', b6, raws', b7, p', b8, b9⟩ := b
  obtain ⟨c1, c2⟩ := hh.dry
  obtain ⟨x, x', c3, c4, -⟩ := hh.top
  rw [hh.mats, a1] at b1; cases b1
  rw [hh.dims, c2, ← c1, a2] at b2; cases b2
  rw [c1] at a3; rw [c2] at b3
  have e3 : chan = none := by simpa [channelOpt] using a3.symm
  have e3' : chan' = none := by simpa [channelOpt] using b3.symm
  subst e3 e3'
  have e4 : sprOf top = none := by rw [c3] at a4; simp only [topOf, Option.some.injEq] at a4; rw [← a4]; rfl
  have e4' : sprOf top' = none := by rw [c4] at b4; simp only [topOf, Option.some.injEq] at b4; rw [← b4]; rfl
  have hlay : FE.layerOf ⟨(filesOf w'.read).flp, (filesOf w.read).lay⟩ mats d = FE.layerOf (filesOf w.read) mats d := rfl
  rw [hlay, hh.layers, a5] at b5; cases b5
  rw [hh.dies, a6] at b6; cases b6
  have er : raws'.map (rawMap (List.map noPower)) = raws.map (rawMap (List.map noPower)) := by
    rw [hh.elems] at b7
    rw [mapM_some_iff] at a7 b7
    clear a8 b8 a9 b9
    have hfl := hh.flp
    generalize s.elems = els at a7 b7 hfl
    induction els generalizing raws raws' with
    | nil => cases a7; cases b7; rfl
    | cons y ys ih =>
      cases a7 with
      | cons u1 u2 =>
      cases b7 with
      | cons v1 v2 =>
        rw [List.map_cons, List.map_cons, ih _ _ u2 v2 fun id ref p o f h => hfl id ref p o f (by simp [h])]
        congr 1
        cases y with
        | layer id ref o =>
          simp only [elemOf] at u1 v1
          rw [u1] at v1; cases v1; rfl
        | channel id =>
          simp only [elemOf] at u1 v1
          rw [u1] at v1; cases v1; rfl
        | die id ref path o =>
          simp only [elemOf, Option.bind_eq_some_iff, Option.map_eq_some_iff] at u1 v1
          obtain ⟨q, q1, f, q2, g, q3, rfl⟩ := u1
          obtain ⟨q', r1, f', r2, g', r3, rfl⟩ := v1
          rw [q1] at r1; cases r1
          obtain ⟨f'', k1, k2⟩ := hfl id ref path o f (by simp) q2
          rw [k1] at r2; cases r2
          have n1 : g = f := by
            obtain ⟨_, -, e⟩ := Option.map_eq_some_iff.mp q3; exact e.symm
          have n2 : g' = f' := by
            obtain ⟨_, -, e⟩ := Option.map_eq_some_iff.mp r3; exact e.symm
          subst n1 n2
          simp only [rawMap, rawBodyMap]
          rw [hotter_noPower k2]
  have ep : parsedMap (List.map noPower) p' = parsedMap (List.map noPower) p := by
    rw [e4'] at b8; rw [e4] at a8
    have h1 := parseStack_map (List.map noPower) d none none raws
    have h2 := parseStack_map (List.map noPower) d none none raws'
    rw [er, h1, a8, b8] at h2
    simpa using h2.symm
  have hp1 : p'.dims = p.dims := (by injection ep)
  have hp2 : p'.elems.map (elemMap (List.map noPower)) = p.elems.map (elemMap (List.map noPower)) := (by injection ep)
  split_ifs at a9 with k1
  split_ifs at b9 with k2
  obtain ⟨pts, -, rfl⟩ := Option.map_eq_some_iff.mp a9
  obtain ⟨pts', -, rfl⟩ := Option.map_eq_some_iff.mp b9
  refine ⟨?_, hp1, hh.kind⟩
  unfold nElems
  simp only
  rw [powerless_elems, powerless_elems, hp2, hh.elems, hh.dims]

/-- The grids of two such documents. -/
theorem hotter_grid (h : StartedNU w s D an G s0) (h' : StartedNU w' s' D' an' G' t0) (hh : Hotter (filesOf w.read) (filesOf w'.read) s s')
    (hGb : G.g.bottom = D.bottom) {x x' : SinkD}
    (hx : s.top = some (.conv x)) (hx' : s'.top = some (.conv x')) : ∃ b, (∀ k, G.g.bottom = some k → k.tAmb ≤ b) ∧ NU.SameGrid x'.temp b G G' := by
  obtain ⟨e1, e2, -⟩ := hotter_desc h.means h'.means hh
  have g1 := h.grid
  have g2 := h'.grid
  obtain ⟨y, y', f1, f2, f3, f4⟩ := hh.top
  rw [hx] at f1; cases f1
  rw [hx'] at f2; cases f2
  unfold gridNU at g1 g2
  rw [top_ambient h.means hx] at g1
  rw [top_ambient h'.means hx', e2, f3] at g2
  rcases hh.bottom with ⟨b1, b2⟩ | ⟨y, y', b1, b2, b3, b4⟩
  · refine ⟨0, ?_, ?_⟩
    · intro k hk; rw [hGb, h.means.bottom, b1] at hk; cases hk
    · rw [h.means.bottom, b1] at g1
      rw [h'.means.bottom, b2] at g2
      exact NU.build_same (t := ⟨x.htc, x.temp⟩) (bottom := none) e1 g1 g2
  · refine ⟨y'.temp, ?_, ?_⟩
    · intro k hk
      rw [hGb, h.means.bottom, b1] at hk
      cases hk; exact b4
    · rw [h.means.bottom, b1] at g1
      rw [h'.means.bottom, b2] at g2
      refine NU.build_same (t := ⟨x.htc, x.temp⟩) (bottom := some ⟨y.htc, y.temp⟩) (b := y'.temp) e1 g1 ?_
      rw [← g2]
      simp only [Option.map_some]
      rw [b3]

theorem hotter_powers {files files' : Files} (hh : Hotter files files' s s') (hf : ∀ id ref p o, ElD.die id ref p o ∈ s.elems → (files.flp p).isSome) :
    List.Forall₂ (List.Forall₂ (· ≤ ·)) (filePowers files s) (filePowers files' s') := by
  have key : ∀ x ∈ s.elems, List.Forall₂ (List.Forall₂ fun a b : RawEl ℚ => List.Forall₂ (· ≤ ·) a.powers b.powers) (elemRaws files s x) (elemRaws files' s' x) := by
    intro x hx
    cases x with
    | layer => exact .cons .nil .nil
    | channel => simp only [elemRaws, hh.dry.1, hh.dry.2]; exact .nil
    | die id ref p o =>
      simp only [elemRaws, hh.dies]
      cases s.dies.find? fun x => x.id == ref with
      | none => exact .nil
      | some y =>
        obtain ⟨f, e⟩ := Option.isSome_iff_exists.mp (hf id ref p o hx)
        obtain ⟨f', e1, e2⟩ := hh.flp id ref p o f hx e
        rw [e, e1]
        have hnil : ∀ l : List DLayD, List.Forall₂ (List.Forall₂ fun a b : RawEl ℚ => List.Forall₂ (· ≤ ·) a.powers b.powers) (l.map fun _ => []) (l.map fun _ => []) := by
          intro l
          induction l with
          | nil => exact .nil
          | cons a l ih => exact .cons .nil ih
        refine List.rel_append (List.rel_append (hnil _) (.cons ?_ .nil)) (hnil _)
        unfold elRaws
        rw [List.forall₂_map_left_iff, List.forall₂_map_right_iff]
        exact e2.imp fun a b h => h.2.2
  have k2 : List.Forall₂ (List.Forall₂ fun a b : RawEl ℚ => List.Forall₂ (· ≤ ·) a.powers b.powers) (layerRaws files s) (layerRaws files' s') := by
    unfold layerRaws
    rw [hh.elems]
    have : ∀ l : List ElD, (∀ x ∈ l, x ∈ s.elems) →
        List.Forall₂ (List.Forall₂ fun a b : RawEl ℚ => List.Forall₂ (· ≤ ·) a.powers b.powers) (l.flatMap (elemRaws files s)) (l.flatMap (elemRaws files' s')) := by
      intro l
      induction l with
      | nil => intro _; exact .nil
      | cons a l ih =>
        intro h
        rw [List.flatMap_cons, List.flatMap_cons]
        exact List.rel_append (key a (h a (by simp))) (ih fun x hx => h x (by simp [hx]))
    exact this _ fun x hx => List.mem_reverse.mp hx
  unfold filePowers
  rw [List.forall₂_map_left_iff, List.forall₂_map_right_iff]
  generalize layerRaws files s = A at k2
  generalize layerRaws files' s' = B at k2
  induction k2 with
  | nil => exact .nil
  | cons h _ ih => exact List.rel_append h ih

theorem means_flps (M : Means nuReader w.eff (filesOf w.read) s D) : ∀ id ref p o, ElD.die id ref p o ∈ s.elems → ((filesOf w.read).flp p).isSome := by
  intro id ref p o hx
  obtain ⟨walls, d, spr, -, -, -, -, -, -, -, raws, he, -⟩ := M.stack
  obtain ⟨r, -, q, f, g, -, hf, -⟩ := forall₂_mem_left he hx
  rw [hf]; rfl

/-- The same times: a step of the two simulations is as long, and so is a slot. -/
theorem hotter_analysis (h : StartedNU w s D an G s0) (h' : StartedNU w' s' D' an' G' t0) (hh : Hotter (filesOf w.read) (filesOf w'.read) s s')
    (htm : Analysed w.mul10 D.init D.times an) (htm' : Analysed w'.mul10 D'.init D'.times an') (hm : ∀ x, w.mul10 x = x * 10) (hm' : ∀ x, w'.mul10 x = x * 10) :
    NU.SameAnalysis (configNU w an) (configNU w' an') := by
  obtain ⟨-, -, e⟩ := hotter_desc h.means h'.means hh
  have hmm : w'.mul10 = w.mul10 := funext fun x => (hm' x).trans (hm x).symm
  rw [hmm, e] at htm'
  have hi : D.init ≤ D'.init := by rw [h.means.init, h'.means.init]; exact hh.init
  generalize D.init = i at htm hi
  generalize D'.init = i' at htm' hi
  generalize D.times = tt at htm htm'
  cases htm with
  | steady => cases htm'; exact ⟨rfl, rfl, rfl, hi⟩
  | transient u =>
    cases htm' with
    | transient v =>
      have hd := analysed_det (i := i) (.transient u) (.transient v)
      injection hd with _ q1 q2
      exact ⟨rfl, q1.symm, q2.symm, hi⟩

/-- **C74 (program, comparison)** Two runs of the program, on files of which the second ones have higher power values, ambient temperatures and initial
temperature (and no channel): after the same number of steps every cell is at least as hot in the second run, whatever the threads, the solvers and the
output instructions are. -/
theorem C74_program_monotone (h : SessionNU w file s D an G s0 log s1) (h' : SessionNU w' file' s' D' an' G' t0 log' t1)
    (hh : Hotter (filesOf w.read) (filesOf w'.read) s s') (hs : Sensible w.eff (filesOf w.read) s) (hs' : Sensible w'.eff (filesOf w'.read) s')
    (hg : GoodDivision (filesOf w.read) s) (hm : ∀ x, w.mul10 x = x * 10) (hm' : ∀ x, w'.mul10 x = x * 10)
    {step slot : ℚ} (ht : s.solver.kind = some (step, slot)) (hc : NU.CorrectNU (configNU w an)) (hc' : NU.CorrectNU (configNU w' an')) {n : Nat}
    (hok : ∀ k, k < n → (NU.stepNU (configNU w an) (NU.afterSteps (configNU w an) s0 k)).1 ≠ .solverError)
    (hok' : ∀ k, k < n → (NU.stepNU (configNU w' an') (NU.afterSteps (configNU w' an') t0 k)).1 ≠ .solverError) :
    G'.cells = G.cells ∧ ∀ i, i < G.cells.length →
      (NU.afterSteps (configNU w an) s0 n).temps.getD i 0 ≤ (NU.afterSteps (configNU w' an') t0 n).temps.getD i 0 := by
  obtain ⟨x, x', hx, hx', hht, hxt⟩ := hh.top
  obtain ⟨d0, rs, h1, h2, h3, h4, h5, h6, h7, h8⟩ := dry_start h.start hs hg hh.dry.1 hx
  obtain ⟨d0', rs', h1', h2', h7', h8'⟩ := dry_begun h'.start hs' hh.dry.2
  obtain ⟨t1, t2, t3, t4⟩ := transient_of h.start h.times hm ht
  obtain ⟨b, hb, hsg⟩ := hotter_grid h.start h'.start hh (by rw [← h2, h4, h.means.bottom]) hx hx'
  refine ⟨hsg.cells, ?_⟩
  have key := NU.C74_monotone (hotter_analysis h.start h'.start hh h.times h'.times hm hm') (.begun h1) (.begun h1') (by rw [h7, h7'])
    (by rw [h7]; exact dvd_zero _) hc hc' (by show 0 < an.stepTime; rw [t2]; exact t3) h5 h6 h3 (a := x'.temp) (b := b) hxt
    (by rw [h2]; exact hb) (by rw [h2, h2']; exact hsg)
    (by
      intro i hi
      rw [h2] at hi
      rw [begun_init h.start hs h.times hm i hi, begun_init h'.start hs' h'.times hm' i (by rw [hsg.cells]; exact hi)]
      exact hh.init)
    (by rw [h8, h8']; exact hotter_powers hh (means_flps h.means)) (List.replicate n .step) (List.replicate n .step)
    (by clear hok hok'; induction n with
        | zero => exact .nil
        | succ n ih => exact .cons .step ih) (no_error hok) (no_error hok')
  rw [← NU.afterSteps_run, ← NU.afterSteps_run, h2] at key
  exact key

/-- **C74 (program, comparison of steady states)** The same for the steady temperatures. -/
theorem C74_program_steady_monotone (h : SessionNU w file s D an G s0 log s1) (h' : SessionNU w' file' s' D' an' G' t0 log' t1)
    (hh : Hotter (filesOf w.read) (filesOf w'.read) s s') (hs : Sensible w.eff (filesOf w.read) s) (hs' : Sensible w'.eff (filesOf w'.read) s')
    (hg : GoodDivision (filesOf w.read) s) (hm : ∀ x, w.mul10 x = x * 10) (hm' : ∀ x, w'.mul10 x = x * 10)
    (ht : s.solver.kind = none) (hsh : NU.Sharp G) (hgap : NoGaps (filesOf w.read) s) (hp : ∀ t ∈ filePowers (filesOf w.read) s, t ≠ [])
    (hc : NU.CorrectNU (configNU w an)) (hc' : NU.CorrectNU (configNU w' an')) (hend : (NU.steadyNU (configNU w an) s0).1 = .endOfSimulation)
    (hend' : (NU.steadyNU (configNU w' an') t0).1 = .endOfSimulation) :
    ∀ i, i < G.cells.length → s1.temps.getD i 0 ≤ t1.temps.getD i 0 := by
  obtain ⟨x, x', hx, hx', hht, hxt⟩ := hh.top
  obtain ⟨d0, rs, h1, h2, h3, h4, h5, h6, h7, h8⟩ := dry_start h.start hs hg hh.dry.1 hx
  obtain ⟨d0', rs', h1', h2', h7', h8'⟩ := dry_begun h'.start hs' hh.dry.2
  obtain ⟨b, hb, hsg⟩ := hotter_grid h.start h'.start hh (by rw [← h2, h4, h.means.bottom]) hx hx'
  obtain ⟨d1, rs1, -, -, -, -, gg, -⟩ := h.start.good hs hg
  obtain ⟨e1, -⟩ := C69_steady_outputs h hs hm ht
  obtain ⟨e1', -⟩ := C69_steady_outputs h' hs' hm' (hh.kind.trans ht)
  have key := NU.C74_steady_monotone (.begun h1) (.begun h1') hc hc' (steady_of h.start h.times hm ht) (steady_of h'.start h'.times hm' (hh.kind.trans ht))
    (by rw [h2]; exact gg.fit) (by rw [h2]; exact hsh) (by rw [h2]; exact no_holes h.start hs hg (dry_double h.means hh.dry.1) hgap ⟨_, by rw [← h2]; exact h3⟩) h5 h6 h3
    (a := x'.temp) (b := b) hxt (by rw [h2]; exact hb) (by rw [h2, h2']; exact hsg)
    (by intro e he; refine hp _ ?_; rw [← h8]; exact List.mem_map_of_mem he)
    (by rw [h8, h8']; exact hotter_powers hh (means_flps h.means)) hend hend'
  intro i hi
  rw [e1, e1']
  exact key i (by rw [h2]; exact hi)

end Verif.Prog
