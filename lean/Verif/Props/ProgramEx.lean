import Verif.Props.ProgramAccept
import Verif.Props.FrontEndEx

/-! **C68** Examples: files that meet the hypotheses of the theorems, from the text on. -/

set_option linter.unusedSectionVars false
set_option linter.unusedSimpArgs false
set_option linter.unusedVariables false
set_option linter.unreachableTactic false
set_option linter.unusedTactic false

namespace Verif.Prog
open Verif.Gram Verif.Dim Verif.TG Verif.SM Verif.Stk Verif.FE Verif.Out Verif.Emu Verif.Flp

/-! ### Only the files that are named count -/

/-- The two sets of files agree on the files named by the document. -/
def SameFiles (s : StackD) (f f' : Files) : Prop :=
  (∀ id ref p o, ElD.die id ref p o ∈ s.elems → f.flp p = f'.flp p) ∧ ∀ l ∈ s.layers, ∀ p, l.layout = some p → f.lay p = f'.lay p

theorem describe_files {φ : Type} (R : Reader φ) (eff : Bool → ℚ → ℚ) {s : StackD} {f f' : Files} (h : SameFiles s f f') :
    describe R eff f s = describe R eff f' s := by
  have hfold : ∀ {α : Type} {k k' : LayD → Option (String × α)} (xs : List LayD) acc, (∀ x ∈ xs, k x = k' x) →
      xs.foldlM (addDecl k) acc = xs.foldlM (addDecl k') acc := by
    intro α k k' xs
    induction xs with
    | nil => intro acc _; rfl
    | cons x xs ih =>
      intro acc hx
      rw [List.foldlM_cons, List.foldlM_cons]
      have e : addDecl k acc x = addDecl k' acc x := by unfold addDecl; rw [hx x (by simp)]
      rw [e]
      cases addDecl k' acc x with
      | none => rfl
      | some b => exact ih b fun y hy => hx y (by simp [hy])
  have hl : ∀ mats d, declare (FE.layerOf f mats d) s.layers = declare (FE.layerOf f' mats d) s.layers := by
    intro mats d
    refine hfold _ _ fun x hx => ?_
    unfold FE.layerOf
    congr 1
    funext m
    congr 1
    cases hp : x.layout with
    | none => rfl
    | some p => unfold layoutOf; simp only [h.2 x hx p hp]
  have he : ∀ d layers dies, s.elems.mapM (elemOf R f d layers dies) = s.elems.mapM (elemOf R f' d layers dies) := by
    intro d layers dies
    have := mapM_map_some (g := elemOf R f' d layers dies) (h := elemOf R f d layers dies) (k := id) (l := s.elems) ?_
    · rw [this]; simp
    · intro x hx
      cases x with
      | layer => simp [elemOf]
      | channel => rfl
      | die id ref p o => simp only [elemOf, h.1 id ref p o hx]; simp
  unfold describe
  simp only [hl, he]

theorem sensible_files {eff : Bool → ℚ → ℚ} {s : StackD} {f f' : Files} (h : SameFiles s f f') (hs : Sensible eff f' s) : Sensible eff f s where
  mats := hs.mats
  layMats := fun l hl p y h1 h2 => hs.layMats l hl p y h1 (by rw [← h.2 l hl p h1]; exact h2)
  chip := hs.chip
  rows := hs.rows
  cols := hs.cols
  layers := hs.layers
  dies := hs.dies
  chan := hs.chan
  top := hs.top
  bottom := hs.bottom
  flps := fun id ref p o y h1 h2 => hs.flps id ref p o y h1 (by rw [← h.1 id ref p o h1]; exact h2)

theorem powers_files {s : StackD} {f f' : Files} (h : SameFiles s f f') : filePowers f s = filePowers f' s := by
  unfold filePowers layerRaws
  congr 2
  have : ∀ x ∈ s.elems.reverse, elemRaws f s x = elemRaws f' s x := by
    intro x hx
    cases x with
    | layer => rfl
    | channel => rfl
    | die id ref p o => simp only [elemRaws, h.1 id ref p o (by simpa using hx)]
  exact List.flatMap_congr this

/-! ### The files -/

def progFiles : Files where
  flp p := if p = "core.flp" then some [⟨"A", .one 0 0 500 500 none none, [1, 2]⟩, ⟨"B", .one 500 0 500 500 (some "SI") (some (2, 2)), [3]⟩]
    else if p = "idle.flp" then some [⟨"A", .one 0 0 1000 2000 none none, [0]⟩] else none
  lay p := exFiles.lay p

/-- A chip without a channel, in steady state or not. -/
def dryDoc (k : Option (ℚ × ℚ)) : StackD :=
  { exDoc with chan := none, elems := [.die "TOP" "CORE" "core.flp" none, .layer "L" "PCB" none], dims := ⟨1000, 2000, 100, 100, none⟩,
               bottom := some ⟨2, 300⟩, points := [.tcell "TOP" 1 2 "t.txt" .step, .tmap "L" "m.txt" .unsaid], solver := ⟨k, 300, none⟩ }
/-- With a channel in the 2RM model. -/
def wet2Doc : StackD :=
  { exDoc with chan := some (.rm2 100 50 50 "SI" 42 (.two 3 4) 4 300), dims := ⟨1000, 2000, 100, 100, none⟩ }
/-- With pin fins. -/
def pinDoc : StackD :=
  { exDoc with chan := some (.pin 100 50 100 false "SI" 12 4 300), dims := ⟨1000, 2000, 100, 100, none⟩ }
/-- With a pluggable heat sink, on a heat spreader that is larger than the chip. -/
def plugDoc : StackD :=
  { dryDoc (some (1 / 50, 1 / 5)) with top := some (.plug ⟨2000, 3000, 40, "BEOL", "sink.so", "args"⟩) }

/-- Two chips that consume nothing, the second with a channel and a pluggable heat sink. -/
def idleDoc : StackD := { dryDoc (some (1 / 50, 1 / 5)) with elems := [.die "TOP" "CORE" "idle.flp" none, .layer "L" "PCB" none] }
def idle2Doc : StackD :=
  { wet2Doc with top := some (.plug ⟨2000, 3000, 40, "BEOL", "sink.so", "args"⟩),
                 elems := [.die "TOP" "CORE" "idle.flp" none, .channel "CH", .layer "L" "PCB" (some (2, 3))],
                 points := [.tcoolant "CH" "c.txt" .average .unsaid] }

theorem flp_good {x : DimD} (hl : 1000 ≤ x.chipL) (hw : 2000 ≤ x.chipW) {p : String} (hp : p = "core.flp" ∨ p = "idle.flp") {f : List FlpD}
    (h : progFiles.flp p = some f) : ∀ y ∈ f, ∀ r ∈ areaRects y.area, GoodRect x r := by
  rcases hp with rfl | rfl
  · simp [progFiles] at h
    subst h
    simp [areaRects, GoodRect]
    constructor <;> constructor <;> linarith
  · simp [progFiles] at h
    subst h
    simp [areaRects, GoodRect]
    exact ⟨hl, hw⟩

macro "sensible" : tactic => `(tactic| (
  constructor
  · simp [exDoc, dryDoc, wet2Doc, pinDoc, plugDoc, idleDoc, idle2Doc, GoodMat]
  · simp [exDoc, dryDoc, wet2Doc, pinDoc, plugDoc, idleDoc, idle2Doc, progFiles, exFiles, GoodMat]
  · simp [exDoc, dryDoc, wet2Doc, pinDoc, plugDoc, idleDoc, idle2Doc]
  · exact ⟨20, by norm_num [exDoc, dryDoc, wet2Doc, pinDoc, plugDoc, idleDoc, idle2Doc]⟩
  · first
      | (intro h; exact absurd rfl (h _ _ _ _ _ _ _ _ _ _))
      | exact fun _ => ⟨10, by norm_num [exDoc, dryDoc, wet2Doc, pinDoc, plugDoc, idleDoc, idle2Doc]⟩
  · simp [exDoc, dryDoc, wet2Doc, pinDoc, plugDoc, idleDoc, idle2Doc]
  · simp [exDoc, dryDoc, wet2Doc, pinDoc, plugDoc, idleDoc, idle2Doc, GoodDieLayer]
  · first
      | (intro c hc; cases hc; norm_num [exDoc, dryDoc, wet2Doc, pinDoc, plugDoc, idleDoc, idle2Doc, GoodChan, GoodWall, GoodHtc4, GoodHtc2]; done)
      | (intro c hc; cases hc; norm_num [exDoc, dryDoc, wet2Doc, pinDoc, plugDoc, idleDoc, idle2Doc, GoodChan, GoodWall, GoodHtc4, GoodHtc2]; intro x hx; cases hx; done)
      | (intro c hc; cases hc; done)
  · norm_num [exDoc, dryDoc, wet2Doc, pinDoc, plugDoc, idleDoc, idle2Doc, GoodTop, columns]
  · simp [exDoc, dryDoc, wet2Doc, pinDoc, plugDoc, idleDoc, idle2Doc]
  · intro id ref p o f h1 h2
    have hp : p = "core.flp" ∨ p = "idle.flp" := by
      simp [exDoc, dryDoc, wet2Doc, pinDoc, plugDoc, idleDoc, idle2Doc] at h1
      first | exact Or.inl h1.2.2.1 | exact Or.inr h1.2.2.1
    exact flp_good (by norm_num [exDoc, dryDoc, wet2Doc, pinDoc, plugDoc, idleDoc, idle2Doc])
      (by norm_num [exDoc, dryDoc, wet2Doc, pinDoc, plugDoc, idleDoc, idle2Doc]) hp h2))

abbrev eff1 : Bool → ℚ → ℚ := fun _ x => x

theorem exDoc_sensible : Sensible eff1 progFiles exDoc := by sensible
theorem dryDoc_sensible (k : Option (ℚ × ℚ)) : Sensible eff1 progFiles (dryDoc k) := by sensible
theorem wet2_sensible : Sensible eff1 progFiles wet2Doc := by sensible
theorem pin_sensible : Sensible eff1 progFiles pinDoc := by sensible
theorem idle_sensible : Sensible eff1 progFiles idleDoc := by sensible
theorem idle2_sensible : Sensible eff1 progFiles idle2Doc := by sensible
theorem plug_sensible : Sensible eff1 progFiles plugDoc := by sensible

/-! ### The programs -/

noncomputable def exWorld (n : Nat) (stk flp idl lay : List Char) : World Unit where
  read p := if p = "s.stk" then some stk else if p = "core.flp" then some flp else if p = "idle.flp" then some idl
    else if p = "pcb.lay" then some lay else none
  canOpen _ := true
  eff := eff1
  mul10 x := x * 10
  solve := exactSolve n
  factor _ := true
  plugin u _ f := (u, some (f.map fun _ => 0))
  canLoad _ := true
  init _ _ := some ()
  idle := ()

/-- What the texts of the other files contain. -/
theorem ex_files : ∃ flp idl lay, ∀ n stk, (filesOf (exWorld n stk flp idl lay).read).flp "core.flp" = progFiles.flp "core.flp" ∧
    (filesOf (exWorld n stk flp idl lay).read).flp "idle.flp" = progFiles.flp "idle.flp" ∧
    (filesOf (exWorld n stk flp idl lay).read).lay "pcb.lay" = progFiles.lay "pcb.lay" := by
  obtain ⟨f, hf⟩ : ∃ f, progFiles.flp "core.flp" = some f := ⟨_, rfl⟩
  obtain ⟨i, hi⟩ : ∃ f, progFiles.flp "idle.flp" = some f := ⟨_, rfl⟩
  obtain ⟨l, hl⟩ : ∃ l, progFiles.lay "pcb.lay" = some l := ⟨_, rfl⟩
  obtain ⟨flp, h1⟩ := C66_every_floorplan (fs := f) (by cases hf; exact ⟨by simp, by simp [AreaD.Ok]⟩) (by
    have : (f.flatMap FlpD.toks).all (Scan.check Scan.flpLex) = true := by cases hf; decide +kernel
    exact fun t ht => Scan.check_free (List.all_eq_true.mp this t ht))
  obtain ⟨idl, h3⟩ := C66_every_floorplan (fs := i) (by cases hi; exact ⟨by simp, by simp [AreaD.Ok]⟩) (by
    have : (i.flatMap FlpD.toks).all (Scan.check Scan.flpLex) = true := by cases hi; decide +kernel
    exact fun t ht => Scan.check_free (List.all_eq_true.mp this t ht))
  obtain ⟨lay, h2⟩ := C66_every_layout (l := l) (by cases hl; exact ⟨by simp, by simp [LAreaD.Ok]⟩) (by
    have : l.toks.all (Scan.check Scan.layLex) = true := by cases hl; decide +kernel
    exact fun t ht => Scan.check_free (List.all_eq_true.mp this t ht))
  refine ⟨flp, idl, lay, fun n stk => ⟨?_, ?_, ?_⟩⟩
  · rw [hf]; exact h1
  · rw [hi]; exact h3
  · rw [hl]; exact h2

/-- A session of the program on a document, with a solver that solves exactly the systems that have a solution. -/
structure Example (s : StackD) (w : World Unit) (D : Desc Flps) (an : Analysis ℚ) (s0 : Sim ℚ Unit) (log : Log ℚ) (s' : Sim ℚ Unit) : Prop where
  session : Session w "s.stk" s D an s0 log s'
  sensible : Sensible w.eff (filesOf w.read) s
  times10 : ∀ x, w.mul10 x = x * 10
  correct : Correct (config w D an)
  finds : Finds (config w D an)
  plugin : ∀ q t f, (w.plugin q t f).2 ≠ none
  silent : ∀ T, Silent (config w D an) T
  powers : filePowers (filesOf w.read) s = filePowers progFiles s
  dims : ∃ D0, describe plainReader eff1 progFiles s = some D0 ∧ D.parsed.dims = D0.parsed.dims

theorem ex_runs {s : StackD} (hok : s.Ok) (hchk : s.toks.all (Scan.check Scan.stackLex) = true) (hs : Sensible eff1 progFiles s)
    (hflp : ∀ id ref p o, ElD.die id ref p o ∈ s.elems → p = "core.flp" ∨ p = "idle.flp") (hlay : ∀ l ∈ s.layers, ∀ p, l.layout = some p → p = "pcb.lay")
    (hD : ((describe plainReader eff1 progFiles s).bind fun D => fillGrid D.parsed.dims.nLayers D.parsed.elems D.top D.bottom).isSome = true)
    (hu : s.dims.nonUniform ≠ some true)
    (ht : ∀ step slot, s.solver.kind = some (step, slot) →
      ∃ k, Solver.HasDecimals k step ∧ Solver.HasDecimals k slot ∧ slot * 10 ^ k < (4294967296 : Nat)) :
    ∃ w D an s0 log s', Example s w D an s0 log s' := by
  obtain ⟨g, hD⟩ := Option.isSome_iff_exists.mp hD
  obtain ⟨D, hD, hg⟩ := Option.bind_eq_some_iff.mp hD
  obtain ⟨flp, idl, lay, hfl⟩ := ex_files
  obtain ⟨stk, hstk⟩ := C66_every_document hok (fun t ht => Scan.check_free (List.all_eq_true.mp hchk t ht))
  obtain ⟨f1, f3, f2⟩ := hfl D.parsed.dims.nCells stk
  generalize hw : exWorld D.parsed.dims.nCells stk flp idl lay = w at f1 f2 f3
  have hsame : SameFiles s (filesOf w.read) progFiles :=
    ⟨fun id ref p o h => by rcases hflp id ref p o h with rfl | rfl; exact f1; exact f3, fun l hl p h => by rw [hlay l hl p h]; exact f2⟩
  have heff : w.eff = eff1 := by rw [← hw]; rfl
  have hsen : Sensible w.eff (filesOf w.read) s := by rw [heff]; exact sensible_files hsame hs
  have hm : ∀ x, w.mul10 x = x * 10 := by intro x; rw [← hw]; rfl
  have hc : Contains w "s.stk" s := ⟨stk, by rw [← hw]; rfl, hstk⟩
  have M : Means plainReader w.eff (filesOf w.read) s D := by
    rw [← C67_meaning, heff, describe_files _ _ hsame]; exact hD
  obtain ⟨an, s0, log, s', h, -⟩ := C68_runs hm hc hsen M hg hu ht (by intro f; rw [← hw]; rfl) (by intro f; rw [← hw]; rfl)
    (by intro f; rw [← hw]; rfl) (by intro f a; rw [← hw]; exact ⟨(), rfl⟩)
  refine ⟨w, _, an, s0, log, s', h, hsen, hm, ?_, ?_, ?_, ?_, powers_files hsame, D, hD, rfl⟩
  · intro A b x hx
    have hx' : w.solve A b = some x := hx
    rw [← hw] at hx'
    exact exactSolve_correct hx'
  · intro A b _ h1
    obtain ⟨x, hx⟩ := exactSolve_some h1
    refine ⟨x, ?_⟩
    show w.solve A b = some x
    rw [← hw]; exact hx
  · intro q t f; rw [← hw]; simp [exWorld]
  · intro T st temps prev p q _ hq
    have hq' : w.plugin st temps prev = (p, some q) := hq
    rw [← hw] at hq'
    simp only [exWorld, Prod.mk.injEq, Option.some.injEq] at hq'
    intro x hx
    rw [← hq'.2] at hx
    simp at hx
    exact hx.2

theorem decimals : ∃ k, Solver.HasDecimals k (1 / 50 : ℚ) ∧ Solver.HasDecimals k (1 / 5 : ℚ) ∧ (1 / 5 : ℚ) * 10 ^ k < (4294967296 : Nat) :=
  ⟨2, ⟨2, by norm_num⟩, ⟨20, by norm_num⟩, by norm_num⟩

macro "runs" h:term : tactic => `(tactic| (
  refine ex_runs ⟨by decide, by decide, by decide⟩ (by decide +kernel) $h ?_ ?_ (by decide +kernel) (by decide) ?_
  · intro id ref p o h
    simp [exDoc, dryDoc, wet2Doc, pinDoc, plugDoc, idleDoc, idle2Doc] at h
    first | exact Or.inl h.2.2.1 | exact Or.inr h.2.2.1
  · simp [exDoc, dryDoc, wet2Doc, pinDoc, plugDoc, idleDoc, idle2Doc]
  · intro step slot h
    first | (cases h; exact decimals) | (cases h; done)))

theorem exDoc_runs : ∃ w D an s0 log s', Example exDoc w D an s0 log s' := by runs exDoc_sensible
theorem wet2_runs : ∃ w D an s0 log s', Example wet2Doc w D an s0 log s' := by runs wet2_sensible
theorem pin_runs : ∃ w D an s0 log s', Example pinDoc w D an s0 log s' := by runs pin_sensible
theorem idle_runs : ∃ w D an s0 log s', Example idleDoc w D an s0 log s' := by runs idle_sensible
theorem idle2_runs : ∃ w D an s0 log s', Example idle2Doc w D an s0 log s' := by runs idle2_sensible
theorem plug_runs : ∃ w D an s0 log s', Example plugDoc w D an s0 log s' := by runs plug_sensible
theorem dry_runs : ∃ w D an s0 log s', Example (dryDoc (some (1 / 50, 1 / 5))) w D an s0 log s' := by runs (dryDoc_sensible _)
theorem steady_runs : ∃ w D an s0 log s', Example (dryDoc none) w D an s0 log s' := by runs (dryDoc_sensible _)

/-! ### What the theorems say about them -/

section
variable {s : StackD} {w : World Unit} {D : Desc Flps} {an : Analysis ℚ} {s0 : Sim ℚ Unit} {log : Log ℚ} {s' : Sim ℚ Unit}

/-- The number of steps per slot of the examples. -/
theorem ex_slot (E : Example s w D an s0 log s') (ht : s.solver.kind = some (1 / 50, 1 / 5)) : an.slotLength = 10 := by
  have h := E.session.times
  rw [E.session.means.times.1, ht] at h
  have hm : w.mul10 = (· * 10) := funext E.times10
  rw [hm] at h
  obtain ⟨k, k1, k2, k3⟩ := decimals
  have h0 := ((Solver.C37_slot_length_partial k1 k2 k3).1 ⟨by norm_num, by norm_num⟩).1
  have := analysed_det h (.transient h0)
  rw [this]
  have e : ((1 / 5 : ℚ) / (1 / 50)) = ((10 : Nat) : ℚ) := by norm_num
  first | rfl | (simp only [e, Nat.floor_natCast])

/-- The whole run, if an element has one power value and no element has none: it lasts one slot, ten steps. -/
theorem ex_ten (E : Example s w D an s0 log s') (ht : s.solver.kind = some (1 / 50, 1 / 5)) {ps : List (List ℚ)} (hp : filePowers progFiles s = ps)
    (h1 : ∃ t ∈ ps, t.length = 1) (h2 : ∀ t ∈ ps, 1 ≤ t.length) :
    s' = after (config w D an) s0 11 ∧ ∀ k, k < 10 → Succeeded (emulateStep (config w D an) (after (config w D an) s0 k)).1 := by
  have hsl := ex_slot E ht
  obtain ⟨t0, ht0, hl0⟩ := h1
  obtain ⟨n, ⟨⟨t, k1, k2⟩, k3⟩, h4, -, h5, -⟩ := C68_whole_run E.session E.sensible E.times10 ht E.finds E.plugin
    ⟨t0, by rw [E.powers, hp]; exact ht0, by rw [hsl, hl0]; norm_num⟩
  have hn : n = 10 := by
    rw [E.powers, hp] at k1 k3
    have a1 := k3 t0 ht0
    have a2 := h2 t k1
    rw [hsl] at a1 k2
    rw [hl0] at a1
    omega
  subst hn
  exact ⟨h5, h4⟩

end

example : ∃ w D an s0 log s', Main (π := Unit) w ["s.stk"] .success log (some s') ∧ s' = after (config w D an) s0 11 ∧
    ∀ k, k < 10 → HeatStep s0.g D.parsed.dims (1 / 50) (cellPower (filesOf w.read) exDoc D.parsed.dims (k / an.slotLength))
      (after (config w D an) s0 k).temps (after (config w D an) s0 (k + 1)).temps := by
  obtain ⟨w, D, an, s0, log, s', E⟩ := exDoc_runs
  obtain ⟨h1, h2⟩ := ex_ten E rfl (ps := [[1, 2], [3]]) (by decide +kernel) (by simp) (by simp)
  exact ⟨w, D, an, s0, log, s', C68_session.mpr ⟨_, _, _, _, _, _, rfl, rfl, E.session⟩, h1, fun k hk =>
    C68_heat_equation E.session E.sensible E.times10 rfl E.correct (by norm_num) h2 hk⟩

/-- The energy balance, with a channel, with pin fins, with a pluggable sink. -/
example : (∃ w D an s0 log s', Example exDoc w D an s0 log s' ∧ D.parsed.dims.nRows ≠ 1) ∧
    (∃ w D an s0 log s', Example wet2Doc w D an s0 log s' ∧ D.parsed.dims.nRows ≠ 1) ∧
    (∃ w D an s0 log s', Example pinDoc w D an s0 log s' ∧ D.parsed.dims.nRows ≠ 1) := by
  have key : ∀ {s : StackD} {w D an s0 log s'}, Example s w D an s0 log s' →
      ((describe plainReader eff1 progFiles s).all fun D => decide (D.parsed.dims.nRows ≠ 1)) = true → D.parsed.dims.nRows ≠ 1 := by
    intro s w D an s0 log s' E h
    obtain ⟨D0, h1, h2⟩ := E.dims
    rw [h1] at h
    rw [h2]
    simpa using h
  obtain ⟨w1, D1, a1, x1, l1, y1, E1⟩ := exDoc_runs
  obtain ⟨w2, D2, a2, x2, l2, y2, E2⟩ := wet2_runs
  obtain ⟨w3, D3, a3, x3, l3, y3, E3⟩ := pin_runs
  exact ⟨⟨w1, D1, a1, x1, l1, y1, E1, key E1 (by decide +kernel)⟩, ⟨w2, D2, a2, x2, l2, y2, E2, key E2 (by decide +kernel)⟩,
    ⟨w3, D3, a3, x3, l3, y3, E3, key E3 (by decide +kernel)⟩⟩

/-- The dry chip stays above the ambient. -/
example : ∃ w D an s0 log s', Example (dryDoc (some (1 / 50, 1 / 5))) w D an s0 log s' ∧ AtLeast D.parsed.dims (after (config w D an) s0 10) 300 ∧
    s0.temps = List.replicate D.parsed.dims.nCells 300 := by
  obtain ⟨w, D, an, s0, log, s', E⟩ := dry_runs
  obtain ⟨-, h2⟩ := ex_ten E rfl (ps := [[1, 2], [3]]) (by decide +kernel) (by simp) (by simp)
  refine ⟨w, D, an, s0, log, s', E, C68_never_below E.session E.sensible E.times10 E.correct (fun p h => by simp [dryDoc, exDoc] at h) rfl
    (fun x h => by simp [dryDoc, exDoc] at h; rw [← h]) (fun x h => by simp [dryDoc, exDoc] at h; rw [← h]) (by simp [dryDoc, exDoc]) ?_ h2,
    C68_initial E.session E.sensible E.times10⟩
  rw [E.powers]
  have : filePowers progFiles (dryDoc (some (1 / 50, 1 / 5))) = [[1, 2], [3]] := by decide +kernel
  rw [this]; simp

/-- The steady state of the dry chip exists and the program computes it. -/
example : ∃ w D an s0 log s', Example (dryDoc none) w D an s0 log s' ∧ (emulateSteady (config w D an) s0).1 = .endOfSimulation ∧
    SteadyState s0.g D.parsed.dims (cellHeat (filesOf w.read) (dryDoc none) s0.g D.parsed.dims 0) s'.temps := by
  obtain ⟨w, D, an, s0, log, s', E⟩ := steady_runs
  have hp : ∀ p, (dryDoc none).top ≠ some (.plug p) := fun p h => by simp [dryDoc, exDoc] at h
  have hpow : ∀ t ∈ filePowers (filesOf w.read) (dryDoc none), t ≠ [] := by
    rw [E.powers]
    have : filePowers progFiles (dryDoc none) = [[1, 2], [3]] := by decide +kernel
    rw [this]; simp
  have hend := C68_steady_succeeds E.session E.sensible E.times10 rfl E.finds hp hpow (fun i a b h => by
    rcases i with _ | _ | i <;> simp [dryDoc, exDoc] at h) (Or.inr (by simp [dryDoc]))
  exact ⟨w, D, an, s0, log, s', E, hend, C68_steady_state E.session E.sensible E.times10 rfl E.correct hpow (by rw [hend]; simp)⟩

/-- Chips that consume nothing: they do not get warmer; with a channel and a plug-in that does nothing, they stay as they are. -/
example : (∃ w D an s0 log s', Example idleDoc w D an s0 log s' ∧ AtMost D.parsed.dims (after (config w D an) s0 10) 300) ∧
    ∃ w D an s0 log s', Example idle2Doc w D an s0 log s' ∧ Uniform D.parsed.dims (after (config w D an) s0 10) 300 := by
  constructor
  · obtain ⟨w, D, an, s0, log, s', E⟩ := idle_runs
    have hp : filePowers progFiles idleDoc = [[0]] := by decide +kernel
    obtain ⟨-, h2⟩ := ex_ten E rfl hp (by simp) (by simp)
    exact ⟨w, D, an, s0, log, s', E, C68_never_above E.session E.sensible E.times10 E.correct (fun p h => by simp [idleDoc, dryDoc, exDoc] at h) rfl
      (fun x h => by simp [idleDoc, dryDoc, exDoc] at h; rw [← h]) (fun x h => by simp [idleDoc, dryDoc, exDoc] at h; rw [← h])
      (by simp [idleDoc, dryDoc, exDoc]) (by rw [E.powers, hp]; simp) h2⟩
  · obtain ⟨w, D, an, s0, log, s', E⟩ := idle2_runs
    have hp : filePowers progFiles idle2Doc = [[0]] := by decide +kernel
    obtain ⟨-, h2⟩ := ex_ten E rfl hp (by simp) (by simp)
    have hR : D.parsed.dims.nRows ≠ 1 := by
      have h : ((describe plainReader eff1 progFiles idle2Doc).all fun D => decide (D.parsed.dims.nRows ≠ 1)) = true := by decide +kernel
      obtain ⟨D0, h1, h2⟩ := E.dims
      rw [h1] at h
      rw [h2]
      simpa using h
    exact ⟨w, D, an, s0, log, s', E, C68_equilibrium E.session E.sensible E.times10 E.correct (Or.inl hR)
      (fun x h => by simp [idle2Doc] at h) (fun x h => by simp [idle2Doc, wet2Doc, exDoc] at h)
      (fun x h => by simp [idle2Doc, wet2Doc] at h; subst h; rfl) (E.silent _) (by rw [E.powers, hp]; simp) h2⟩

end Verif.Prog
