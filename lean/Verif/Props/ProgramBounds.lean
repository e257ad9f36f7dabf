import Verif.Props.SteadyBounds
import Verif.Props.ProgramSteady
import Verif.Props.ProgramNuBounds

/-! # C75: bounds and comparison of the temperatures that the program computes on uniform grids without coolant, from the files -/

set_option linter.unusedSectionVars false
set_option linter.unusedSimpArgs false
set_option linter.unusedVariables false

namespace Verif.Prog
open Verif.Gram Verif.Dim Verif.TG Verif.SM Verif.Stk Verif.FE Verif.Out Verif.Emu Verif.Flp

variable {π ρ : Type}

/-! ### Specification -/

/-- A sink and the same one at a temperature that is not lower. -/
def WarmerSink (x x' : SinkD) : Prop := x'.htc = x.htc ∧ x.temp ≤ x'.temp

/-- Two stack files without a cooling channel and the files they refer to: the second ones have powers, ambient temperatures and an initial temperature that
are not lower, and may have other output instructions. Everything else is the same. -/
structure Warmer (files files' : Files) (s s' : StackD) : Prop where
  mats : s'.mats = s.mats
  dims : s'.dims = s.dims
  layers : s'.layers = s.layers
  dies : s'.dies = s.dies
  elems : s'.elems = s.elems
  dry : s.chan = none ∧ s'.chan = none
  kind : s'.solver.kind = s.solver.kind
  init : s.solver.init ≤ s'.solver.init
  top : (s.top = none ∧ s'.top = none) ∨ ∃ x x', s.top = some (.conv x) ∧ s'.top = some (.conv x') ∧ WarmerSink x x'
  bottom : (s.bottom = none ∧ s'.bottom = none) ∨ ∃ x x', s.bottom = some x ∧ s'.bottom = some x' ∧ WarmerSink x x'
  lay : ∀ l ∈ s.layers, ∀ p, l.layout = some p → files'.lay p = files.lay p
  flp : ∀ id ref p o f, .die id ref p o ∈ s.elems → files.flp p = some f → ∃ f', files'.flp p = some f' ∧ List.Forall₂ HotterEl f f'

/-! ### Proofs -/

variable {w : World π} {file : String} {s : StackD} {D : Desc Flps} {an : Analysis ℚ} {s0 s1 : Sim ℚ π} {log : Log ℚ}
variable {w' : World ρ} {file' : String} {s' : StackD} {D' : Desc Flps} {an' : Analysis ℚ} {t0 t1 : Sim ℚ ρ} {log' : Log ℚ}

/-- The same rectangles, and powers that are not lower. -/
def HotRaw (a b : RawEl ℚ) : Prop := b.rects = a.rects ∧ List.Forall₂ (· ≤ ·) a.powers b.powers

theorem warmer_raws {files files' : Files} (hh : Warmer files files' s s') (hf : ∀ id ref p o, ElD.die id ref p o ∈ s.elems → (files.flp p).isSome) :
    List.Forall₂ (List.Forall₂ HotRaw) (layerRaws files s) (layerRaws files' s') := by
  have key : ∀ x ∈ s.elems, List.Forall₂ (List.Forall₂ HotRaw) (elemRaws files s x) (elemRaws files' s' x) := by
    intro x hx
    cases x with
    | layer => exact .cons .nil .nil
    | channel => simp only [elemRaws, hh.dry.1, hh.dry.2]; exact .nil
    | die id ref p o =>
      simp only [elemRaws, hh.dies]
      cases s.dies.find? fun x => x.id == ref with
      | none => exact .nil
      | some y =>
        obtain ⟨f, e⟩ := Option.isSome_iff_exists.mp (hf id ref p o hx)
        obtain ⟨f', e1, e2⟩ := hh.flp id ref p o f hx e
        rw [e, e1]
        have hnil : ∀ l : List DLayD, List.Forall₂ (List.Forall₂ HotRaw) (l.map fun _ => []) (l.map fun _ => []) := by
          intro l
          induction l with
          | nil => exact .nil
          | cons a l ih => exact .cons .nil ih
        refine List.rel_append (List.rel_append (hnil _) (.cons ?_ .nil)) (hnil _)
        unfold elRaws
        rw [List.forall₂_map_left_iff, List.forall₂_map_right_iff]
        refine e2.imp fun a b h => ⟨?_, h.2.2⟩
        show areaRects b.area = areaRects a.area
        rw [h.2.1]
  unfold layerRaws
  rw [hh.elems]
  have : ∀ l : List ElD, (∀ x ∈ l, x ∈ s.elems) →
      List.Forall₂ (List.Forall₂ HotRaw) (l.flatMap (elemRaws files s)) (l.flatMap (elemRaws files' s')) := by
    intro l
    induction l with
    | nil => intro _; exact .nil
    | cons a l ih =>
      intro h
      rw [List.flatMap_cons, List.flatMap_cons]
      exact List.rel_append (key a (h a (by simp))) (ih fun x hx => h x (by simp [hx]))
  exact this _ fun x hx => List.mem_reverse.mp hx

theorem warmer_powers {files files' : Files} (h : List.Forall₂ (List.Forall₂ HotRaw) (layerRaws files s) (layerRaws files' s')) :
    List.Forall₂ (List.Forall₂ (· ≤ ·)) (filePowers files s) (filePowers files' s') := by
  unfold filePowers
  rw [List.forall₂_map_left_iff, List.forall₂_map_right_iff]
  generalize layerRaws files s = A at h
  generalize layerRaws files' s' = B at h
  induction h with
  | nil => exact .nil
  | cons h _ ih => exact List.rel_append (h.imp fun _ _ h => h.2) ih

theorem files_there (M : Means uniformReader w.eff (filesOf w.read) s D) : ∀ id ref p o, ElD.die id ref p o ∈ s.elems → ((filesOf w.read).flp p).isSome := by
  intro id ref p o hx
  obtain ⟨walls, d, spr, -, -, -, -, -, -, -, raws, he, -⟩ := M.stack
  obtain ⟨r, -, q, f, g, -, hf, -⟩ := forall₂_mem_left he hx
  rw [hf]; rfl

/-- Where the cells of an element are does not depend on its powers. -/
theorem from_hot {d : Dims ℚ} {a b : RawEl ℚ} (h : HotRaw a b) {el : FlpEl ℚ} (hb : From d b el) : From d a el := by
  obtain ⟨e0, h1, h2, h3⟩ := hb
  unfold parseElement at h1
  rw [h.1] at h1
  by_cases k1 : a.rects = []
  · rw [if_pos k1] at h1; cases h1
  rw [if_neg k1] at h1
  obtain ⟨ics, h4, h5⟩ := Option.bind_eq_some_iff.mp h1
  by_cases k2 : a.rects.any (checkLocation d) = true
  · rw [if_pos k2] at h5; cases h5
  rw [if_neg k2] at h5
  cases h5
  refine ⟨⟨a.name, (a.rects.map fun e => e.length * e.width).sum, ics, a.powers⟩, ?_, h2, h3⟩
  unfold parseElement
  rw [if_neg k1, h4, Option.bind_some, if_neg k2]

theorem readFrom_hot {files files' : Files} {d : Dims ℚ} {x : Sim ℚ ρ} (h : List.Forall₂ (List.Forall₂ HotRaw) (layerRaws files s) (layerRaws files' s'))
    (hr : ReadFrom d (rawsOf files' s') x) : ReadFrom d (rawsOf files s) x := by
  have key : ∀ l, List.Forall₂ HotRaw (rawsOf files s l) (rawsOf files' s' l) := fun l => forall₂_getD h (a := []) (b := []) .nil l
  refine ⟨hr.grid, ?_, ?_⟩
  · intro l hl
    have h1 := key l
    have h2 := hr.from_ l hl
    generalize rawsOf files s l = A at h1
    generalize rawsOf files' s' l = B at h1 h2
    generalize floorplan x l = C at h2
    clear key h hr
    induction h1 generalizing C with
    | nil => cases h2; exact .nil
    | cons u _ ih =>
      cases h2 with
      | cons v1 v2 => exact .cons (from_hot u v1) (ih _ v2)
  · intro l hl raw hraw e he
    obtain ⟨b, hb, hab⟩ := forall₂_mem_left (key l) hraw
    exact hr.inGrid l hl b hb e (by rw [hab.1]; exact he)

/-- The descriptions of two such documents. -/
theorem warmer_desc (M : Means uniformReader w.eff (filesOf w.read) s D) (M' : Means uniformReader w'.eff (filesOf w'.read) s' D')
    (hh : Warmer (filesOf w.read) (filesOf w'.read) s s') :
    D'.parsed.elems.map (elemMap fun _ => ()) = D.parsed.elems.map (elemMap fun _ => ()) ∧ D'.parsed.dims = D.parsed.dims ∧ D'.times = D.times := by
  have a := (C67_meaning uniformReader w.eff (filesOf w.read) s D).mpr M
  have b := (C67_meaning uniformReader w'.eff (filesOf w'.read) s' D').mpr M'
  have hx : SameFiles s' (filesOf w'.read) ⟨(filesOf w'.read).flp, (filesOf w.read).lay⟩ :=
    ⟨fun _ _ _ _ _ => rfl, fun l hl p h => hh.lay l (by rw [← hh.layers]; exact hl) p h⟩
  rw [describe_files _ _ hx] at b
  clear hx
  unfold describe at a b
  simp only [Option.bind_eq_some_iff] at a b
  obtain ⟨mats, a1, d, a2, chan, a3, top, a4, layers, a5, dies, a6, raws, a7, p, a8, a9⟩ := a
  obtain ⟨mats', b1, d', b2, chan', b3, top', b4, layers', b5, dies', b6, raws', b7, p', b8, b9⟩ := b
  obtain ⟨c1, c2⟩ := hh.dry
  rw [hh.mats, a1] at b1; cases b1
  rw [hh.dims, c2, ← c1, a2] at b2; cases b2
  rw [c1] at a3; rw [c2] at b3
  have e3 : chan = none := by simpa [channelOpt] using a3.symm
  have e3' : chan' = none := by simpa [channelOpt] using b3.symm
  subst e3 e3'
  have e4 : sprOf top = none ∧ sprOf top' = none := by
    rcases hh.top with ⟨c3, c4⟩ | ⟨x, x', c3, c4, -⟩
    · rw [c3] at a4; rw [c4] at b4
      simp only [topOf, Option.some.injEq] at a4 b4
      rw [← a4, ← b4]; exact ⟨rfl, rfl⟩
    · rw [c3] at a4; rw [c4] at b4
      simp only [topOf, Option.some.injEq] at a4 b4
      rw [← a4, ← b4]; exact ⟨rfl, rfl⟩
  obtain ⟨e4, e4'⟩ := e4
  have hlay : FE.layerOf ⟨(filesOf w'.read).flp, (filesOf w.read).lay⟩ mats d = FE.layerOf (filesOf w.read) mats d := rfl
  rw [hlay, hh.layers, a5] at b5; cases b5
  rw [hh.dies, a6] at b6; cases b6
  have er : raws'.map (rawMap fun _ => ()) = raws.map (rawMap fun _ => ()) := by
    rw [hh.elems] at b7
    rw [mapM_some_iff] at a7 b7
    clear a8 b8 a9 b9
    generalize s.elems = els at a7 b7
    induction els generalizing raws raws' with
    | nil => cases a7; cases b7; rfl
    | cons y ys ih =>
      cases a7 with
      | cons u1 u2 =>
      cases b7 with
      | cons v1 v2 =>
        rw [List.map_cons, List.map_cons, ih _ _ u2 v2]
        congr 1
        cases y with
        | layer id ref o =>
          simp only [elemOf] at u1 v1
          rw [u1] at v1; cases v1; rfl
        | channel id =>
          simp only [elemOf] at u1 v1
          rw [u1] at v1; cases v1; rfl
        | die id ref path o =>
          simp only [elemOf, Option.bind_eq_some_iff, Option.map_eq_some_iff] at u1 v1
          obtain ⟨q, q1, f, q2, g, q3, rfl⟩ := u1
          obtain ⟨q', r1, f', r2, g', r3, rfl⟩ := v1
          rw [q1] at r1; cases r1
          rfl
  have ep : parsedMap (fun _ => ()) p' = parsedMap (fun _ => ()) p := by
    rw [e4'] at b8; rw [e4] at a8
    have h1 := parseStack_map (fun _ => ()) d none none raws
    have h2 := parseStack_map (fun _ => ()) d none none raws'
    rw [er, h1, a8, b8] at h2
    simpa using h2.symm
  have hp1 : p'.dims = p.dims := (by injection ep)
  have hp2 : p'.elems.map (elemMap fun _ => ()) = p.elems.map (elemMap fun _ => ()) := (by injection ep)
  split_ifs at a9 with k1
  split_ifs at b9 with k2
  obtain ⟨pts, -, rfl⟩ := Option.map_eq_some_iff.mp a9
  obtain ⟨pts', -, rfl⟩ := Option.map_eq_some_iff.mp b9
  exact ⟨hp2, hp1, hh.kind⟩

theorem fillGrid_warm {φ : Type} (n : Nat) (es : List (SElem ℚ φ)) (top : Option (TopSink ℚ)) (bottom : Option (Sink ℚ)) (a b : ℚ)
    (ht : ∀ sp m, top ≠ some (.pluggable sp m)) :
    fillGrid n es (top.map fun t => match t with | .ambient k => .ambient { k with tAmb := a } | t => t) (bottom.map fun k => { k with tAmb := b }) =
      (fillGrid n es top bottom).map fun g => withAmb g a b := by
  unfold fillGrid
  simp only
  have h1 : ∀ (x : Bool) (ts : List LType),
      applyTop (top.map fun t => match t with | .ambient k => .ambient { k with tAmb := a } | t => t) x n ts = applyTop top x n ts := by
    intro x ts
    cases top with
    | none => rfl
    | some t =>
      cases t with
      | ambient k => simp only [applyTop, Option.map_some]; generalize ts.getD (n - 1) LType.none = y; cases y <;> rfl
      | pluggable sp m => exact absurd rfl (ht sp m)
  have h2 : ∀ ts : List LType, applyBottom (bottom.map fun k : Sink ℚ => { k with tAmb := b }) ts = applyBottom bottom ts := by
    intro ts; cases bottom <;> rfl
  rw [h1]
  cases applyTop top (es.any is4rm) n (es.foldl writeTypes (List.replicate n LType.none)) with
  | none => rfl
  | some ts =>
    simp only [Option.bind_some, h2]
    cases applyBottom bottom ts with
    | none => rfl
    | some ts' =>
      cases top with
      | none => simp [withAmb]
      | some t => cases t <;> simp [withAmb]

theorem top_of (M : Means uniformReader w.eff (filesOf w.read) s D) :
    (s.top = none → D.top = none) ∧ ∀ x, s.top = some (.conv x) → D.top = some (.ambient ⟨x.htc, x.temp⟩) := by
  obtain ⟨walls, d, spr, -, -, -, -, ht, -⟩ := M.stack
  constructor
  · intro h
    rw [h] at ht
    cases hx : D.top with
    | none => rfl
    | some y => rw [hx] at ht; exact ht.elim
  · intro x h
    rw [h] at ht
    cases hx : D.top with
    | none => rw [hx] at ht; exact ht.elim
    | some y => rw [hx] at ht; exact congrArg some ht

theorem session_grid (h : Session w file s D an s0 log s1) : fillGrid D.parsed.dims.nLayers D.parsed.elems D.top D.bottom = some s0.g := by
  obtain ⟨q, -, hst⟩ := h.started
  unfold start at hst
  obtain ⟨g, hg, hb⟩ := Option.bind_eq_some_iff.mp hst
  rw [hg]
  unfold Emu.build at hb
  simp only at hb
  split_ifs at hb
  cases hb
  rfl

/-- The grids of two such documents. -/
theorem warmer_grid (h : Session w file s D an s0 log s1) (h' : Session w' file' s' D' an' t0 log' t1) (hh : Warmer (filesOf w.read) (filesOf w'.read) s s') :
    ∃ a b, t0.g = withAmb s0.g a b ∧ (∀ k, D.top = some (.ambient k) → k.tAmb ≤ a) ∧ ∀ k, D.bottom = some k → k.tAmb ≤ b := by
  obtain ⟨e1, e2, -⟩ := warmer_desc h.means h'.means hh
  have g1 := session_grid h
  have g2 := session_grid h'
  rw [← fillGrid_map (fun _ => ())] at g1 g2
  rw [e1, e2] at g2
  obtain ⟨u1, u2⟩ := top_of h.means
  obtain ⟨v1, v2⟩ := top_of h'.means
  have hb := h.means.bottom
  have hb' := h'.means.bottom
  have kt : ∃ a, D'.top = (D.top.map fun t => match t with | .ambient k => .ambient { k with tAmb := a } | t => t) ∧ (∀ k, D.top = some (.ambient k) → k.tAmb ≤ a) ∧
      ∀ sp m, D.top ≠ some (.pluggable sp m) := by
    rcases hh.top with ⟨c1, c2⟩ | ⟨x, x', c1, c2, c3, c4⟩
    · rw [u1 c1, v1 c2]
      exact ⟨0, rfl, fun k hk => by (cases hk), fun _ _ hk => by (cases hk)⟩
    · rw [u2 x c1, v2 x' c2, c3]
      exact ⟨x'.temp, rfl, fun k hk => by (cases hk; exact c4), fun _ _ hk => by (cases hk)⟩
  have kb : ∃ b, D'.bottom = (D.bottom.map fun k => { k with tAmb := b }) ∧ ∀ k, D.bottom = some k → k.tAmb ≤ b := by
    rcases hh.bottom with ⟨c1, c2⟩ | ⟨x, x', c1, c2, c3, c4⟩
    · rw [hb, hb', c1, c2]; exact ⟨0, rfl, fun k hk => by (cases hk)⟩
    · rw [hb, hb', c1, c2]
      refine ⟨x'.temp, ?_, fun k hk => by (cases hk; exact c4)⟩
      simp only [Option.map_some]; rw [c3]
  obtain ⟨a, ka, ka2, ka3⟩ := kt
  obtain ⟨b, kb, kb2⟩ := kb
  rw [ka, kb, fillGrid_warm _ _ _ _ _ _ ka3, g1] at g2
  exact ⟨a, b, (Option.some.inj g2).symm, ka2, kb2⟩

theorem warmer_analysis (h : Session w file s D an s0 log s1) (h' : Session w' file' s' D' an' t0 log' t1) (hh : Warmer (filesOf w.read) (filesOf w'.read) s s')
    (hm : ∀ x, w.mul10 x = x * 10) (hm' : ∀ x, w'.mul10 x = x * 10) : SameAnalysis (config w D an) (config w' D' an') := by
  obtain ⟨-, e0, e⟩ := warmer_desc h.means h'.means hh
  have hmm : w'.mul10 = w.mul10 := funext fun x => (hm' x).trans (hm x).symm
  have htm := h.times
  have htm' := h'.times
  rw [hmm, e] at htm'
  have hi : D.init ≤ D'.init := by rw [h.means.init, h'.means.init]; exact hh.init
  suffices ∃ _ : an'.type = an.type, an'.stepTime = an.stepTime ∧ an'.slotLength = an.slotLength ∧ an.initTemp ≤ an'.initTemp by
    obtain ⟨k1, k2, k3, k4⟩ := this
    exact ⟨e0, k1, k2, k3, k4⟩
  clear e0 e h h' hh
  generalize D.init = i at htm hi
  generalize D'.init = i' at htm' hi
  generalize D.times = tt at htm htm'
  cases htm with
  | steady => cases htm'; exact ⟨rfl, rfl, rfl, hi⟩
  | transient u =>
    cases htm' with
    | transient v =>
      have hd := analysed_det (i := i) (.transient u) (.transient v)
      injection hd with _ q1 q2
      exact ⟨rfl, q1.symm, q2.symm, hi⟩

theorem session_solid (h : Session w file s D an s0 log s1) (hs : Sensible w.eff (filesOf w.read) s) (hp : ∀ p, s.top ≠ some (.plug p)) (hch : s.chan = none) :
    Emu.Solid s0.g := by
  obtain ⟨raws, g1, g2, g3, g4, g5, g6, g7, -⟩ := h.good hs
  refine ⟨?_, ?_⟩
  · rcases g7 with g7 | g7
    · exact g7
    · rw [g7, chan_none h.means hch]
  · intro a b hab
    rw [g5] at hab
    obtain ⟨p, hp'⟩ := top_plug h.means hab
    exact hp p hp'

theorem no_failure {cfg : Cfg ℚ π} {x : Sim ℚ π} {n : Nat} (hok : ∀ k, k < n → Succeeded (emulateStep cfg (after cfg x k)).1) :
    .solverError ∉ (run cfg (List.replicate n .step) x).1 := by
  intro hmem
  have := steps_ok (cfg := cfg) (x := x) (a := 0) (b := n) (fun k hk => hok k (by omega)) _ hmem
  simp [Succeeded] at this

theorem warmer_conv {files files' : Files} (hh : Warmer files files' s s') : ∀ p, s.top ≠ some (.plug p) := by
  intro p hp
  rcases hh.top with ⟨c1, -⟩ | ⟨x, x', c1, -⟩ <;> rw [hp] at c1 <;> cases c1

theorem dry_single (h : Session w file s D an s0 log s1) (hch : s.chan = none) : NoDoubleChannel s := by
  intro i a b h1 h2
  obtain ⟨walls, d, spr, -, -, -, -, -, -, -, raws, he, hp⟩ := h.means.stack
  rw [chan_none h.means hch] at hp
  obtain ⟨es, m, hf, -⟩ := parseStack_spec hp
  obtain ⟨r, hr, hx⟩ := forall₂_mem_left he (List.mem_of_getElem? h1)
  obtain ⟨e, -, hy⟩ := forall₂_mem_left hf hr
  have hx : r = ⟨a, .channel⟩ := hx
  rw [hx] at hy
  simp [resolve] at hy

theorem steady_ends (h : Session w file s D an s0 log s1) (hm : ∀ x, w.mul10 x = x * 10) (ht : s.solver.kind = none)
    (hok : (emulateSteady (config w D an) s0).1 ≠ .solverError) : (emulateSteady (config w D an) s0).1 = .endOfSimulation := by
  obtain ⟨t1, t2, t3, t4⟩ := times_good hm h.times
  rcases t4 with ⟨-, t5⟩ | ⟨sl, t4, -⟩
  · rcases (Out.steady_result (cfg := config w D an) s0 t5).1 with e | e
    · exact e
    · exact absurd e hok
  · rw [h.means.times.1, ht] at t4; cases t4

/-- **C75 (comparison)** Two runs of the program on a uniform grid without coolant, on files of which the second ones have powers, ambient temperatures and
an initial temperature that are not lower: the grids have the same cells, and after the same number of steps every cell is at least as hot in the second run,
whatever solvers and output instructions they use. -/
theorem C75_monotone (h : Session w file s D an s0 log s1) (h' : Session w' file' s' D' an' t0 log' t1) (hh : Warmer (filesOf w.read) (filesOf w'.read) s s')
    (hs : Sensible w.eff (filesOf w.read) s) (hs' : Sensible w'.eff (filesOf w'.read) s') (hm : ∀ x, w.mul10 x = x * 10) (hm' : ∀ x, w'.mul10 x = x * 10)
    (hc : Correct (config w D an)) (hc' : Correct (config w' D' an')) {n : Nat}
    (hok : ∀ k, k < n → Succeeded (emulateStep (config w D an) (after (config w D an) s0 k)).1)
    (hok' : ∀ k, k < n → Succeeded (emulateStep (config w' D' an') (after (config w' D' an') t0 k)).1) :
    D'.parsed.dims = D.parsed.dims ∧ ∀ i, i < D.parsed.dims.nCells →
      (after (config w D an) s0 n).temps.getD i 0 ≤ (after (config w' D' an') t0 n).temps.getD i 0 := by
  obtain ⟨-, ed, -⟩ := warmer_desc h.means h'.means hh
  refine ⟨ed, ?_⟩
  obtain ⟨raws, g1, g2, g3, g4, g5, g6, g7, -⟩ := h.good hs
  obtain ⟨raws', g1', g2', g3', g4', g5', g6', g7', -⟩ := h'.good hs'
  obtain ⟨a, b, ka, kb, kc⟩ := warmer_grid h h' hh
  have hraws := warmer_raws hh (files_there h.means)
  have hsp := started_spec g1
  have hsp' := started_spec g1'
  rw [ed] at g3'
  refine C25_monotone (warmer_analysis h h' hh hm hm') (started_reachable g1) (started_reachable g1') (by rw [hsp.2.2.1, hsp'.2.2.1])
    (by rw [hsp.2.2.1]; exact dvd_zero _) hc hc' (times_good hm h.times).2.1 g2 (session_solid h hs (warmer_conv hh) hh.dry.1) g3 (readFrom_hot hraws g3') ka
    (by rw [g5]; exact kb) (by rw [g6]; exact kc) ?_ (by rw [g4, g4']; exact warmer_powers hraws) (List.replicate n .step) (List.replicate n .step) ?_
    (no_failure hok) (no_failure hok')
  · intro i hi
    have hi' : i < D.parsed.dims.nCells := hi
    rw [C68_initial h hs hm, C68_initial h' hs' hm', ed]
    simp [List.getD_eq_getElem?_getD, hi']
    exact hh.init
  · clear hok hok'
    induction n with
    | zero => exact .nil
    | succ n ih => exact .cons .step ih

/-- **C75 (steady state, lower bound)** A solid stack with a conventional sink whose files contain no negative power: no cell of the steady state that the
program computes is colder than the ambients. -/
theorem C75_steady_never_below (h : Session w file s D an s0 log s1) (hs : Sensible w.eff (filesOf w.read) s) (hm : ∀ x, w.mul10 x = x * 10)
    (ht : s.solver.kind = none) (hcor : Correct (config w D an)) (hp : ∀ p, s.top ≠ some (.plug p)) (hch : s.chan = none)
    (hsink : s.top ≠ none ∨ s.bottom ≠ none) {m : ℚ} (htop : ∀ x, s.top = some (.conv x) → m ≤ x.temp) (hbot : ∀ x, s.bottom = some x → m ≤ x.temp)
    (hne : ∀ t ∈ filePowers (filesOf w.read) s, t ≠ []) (hpow : ∀ t ∈ filePowers (filesOf w.read) s, ∀ v ∈ t, 0 ≤ v)
    (hok : (emulateSteady (config w D an) s0).1 ≠ .solverError) : AtLeast D.parsed.dims s1 m := by
  obtain ⟨raws, g1, g2, g3, g4, g5, g6, g7, -⟩ := h.good hs
  rw [(C68_steady_outputs h hs hm ht).1]
  refine C25_steady_never_below (started_reachable g1) hcor g2 (session_solid h hs hp hch) (heat_leaves h hs hp (dry_single h hch) hsink).2.2.2.1 g3 ?_ ?_
    (by rw [g4]; exact hne) (by rw [g4]; exact hpow) (steady_ends h hm ht hok)
  · intro sk hsk
    rw [g5] at hsk
    obtain ⟨x, hx, rfl⟩ := top_conv h.means hsk
    exact htop x hx
  · intro sk hsk
    rw [g6, h.means.bottom] at hsk
    obtain ⟨x, hx, rfl⟩ := Option.map_eq_some_iff.mp hsk
    exact hbot x hx

/-- **C75 (steady state, upper bound)** If they contain no positive power, no cell of the steady state is hotter than the ambients. -/
theorem C75_steady_never_above (h : Session w file s D an s0 log s1) (hs : Sensible w.eff (filesOf w.read) s) (hm : ∀ x, w.mul10 x = x * 10)
    (ht : s.solver.kind = none) (hcor : Correct (config w D an)) (hp : ∀ p, s.top ≠ some (.plug p)) (hch : s.chan = none)
    (hsink : s.top ≠ none ∨ s.bottom ≠ none) {m : ℚ} (htop : ∀ x, s.top = some (.conv x) → x.temp ≤ m) (hbot : ∀ x, s.bottom = some x → x.temp ≤ m)
    (hne : ∀ t ∈ filePowers (filesOf w.read) s, t ≠ []) (hpow : ∀ t ∈ filePowers (filesOf w.read) s, ∀ v ∈ t, v ≤ 0)
    (hok : (emulateSteady (config w D an) s0).1 ≠ .solverError) : AtMost D.parsed.dims s1 m := by
  obtain ⟨raws, g1, g2, g3, g4, g5, g6, g7, -⟩ := h.good hs
  rw [(C68_steady_outputs h hs hm ht).1]
  refine C25_steady_never_above (started_reachable g1) hcor g2 (session_solid h hs hp hch) (heat_leaves h hs hp (dry_single h hch) hsink).2.2.2.1 g3 ?_ ?_
    (by rw [g4]; exact hne) (by rw [g4]; exact hpow) (steady_ends h hm ht hok)
  · intro sk hsk
    rw [g5] at hsk
    obtain ⟨x, hx, rfl⟩ := top_conv h.means hsk
    exact htop x hx
  · intro sk hsk
    rw [g6, h.means.bottom] at hsk
    obtain ⟨x, hx, rfl⟩ := Option.map_eq_some_iff.mp hsk
    exact hbot x hx

/-- **C75 (steady state, comparison)** The comparison of two steady states: powers and ambient temperatures that are not lower give temperatures that are not
lower. -/
theorem C75_steady_monotone (h : Session w file s D an s0 log s1) (h' : Session w' file' s' D' an' t0 log' t1) (hh : Warmer (filesOf w.read) (filesOf w'.read) s s')
    (hs : Sensible w.eff (filesOf w.read) s) (hs' : Sensible w'.eff (filesOf w'.read) s') (hm : ∀ x, w.mul10 x = x * 10) (hm' : ∀ x, w'.mul10 x = x * 10)
    (ht : s.solver.kind = none) (hc : Correct (config w D an)) (hc' : Correct (config w' D' an')) (hsink : s.top ≠ none ∨ s.bottom ≠ none)
    (hne : ∀ t ∈ filePowers (filesOf w.read) s, t ≠ []) (hok : (emulateSteady (config w D an) s0).1 ≠ .solverError)
    (hok' : (emulateSteady (config w' D' an') t0).1 ≠ .solverError) :
    ∀ i, i < D.parsed.dims.nCells → s1.temps.getD i 0 ≤ t1.temps.getD i 0 := by
  obtain ⟨-, ed, -⟩ := warmer_desc h.means h'.means hh
  obtain ⟨raws, g1, g2, g3, g4, g5, g6, g7, -⟩ := h.good hs
  obtain ⟨raws', g1', g2', g3', g4', g5', g6', g7', -⟩ := h'.good hs'
  obtain ⟨a, b, ka, kb, kc⟩ := warmer_grid h h' hh
  have hraws := warmer_raws hh (files_there h.means)
  rw [ed] at g3'
  have ht' := hh.kind.trans ht
  rw [(C68_steady_outputs h hs hm ht).1, (C68_steady_outputs h' hs' hm' ht').1]
  exact C25_steady_monotone (cfg := config w D an) (cfg' := config w' D' an') ed (started_reachable g1) (started_reachable g1') hc hc' g2
    (session_solid h hs (warmer_conv hh) hh.dry.1) (heat_leaves h hs (warmer_conv hh) (dry_single h hh.dry.1) hsink).2.2.2.1 g3 (readFrom_hot hraws g3') ka
    (by rw [g5]; exact kb) (by rw [g6]; exact kc) (by rw [g4]; exact hne) (by rw [g4, g4']; exact warmer_powers hraws)
    (steady_ends h hm ht hok) (steady_ends h' hm' ht' hok')

end Verif.Prog
