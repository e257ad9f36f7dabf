import Verif.Props.ProgramNuAccept
import Verif.Props.ProgramEx
import Verif.Props.NuEnergy

/-! **C69** Examples: files that meet the hypotheses of the theorems, from the text on. -/

set_option linter.unusedSectionVars false
set_option linter.unusedSimpArgs false
set_option linter.unusedVariables false
set_option linter.unreachableTactic false
set_option linter.unusedTactic false

namespace Verif.Prog
open Verif.Gram Verif.Dim Verif.TG Verif.SM Verif.Stk Verif.FE Verif.Emu Verif.Flp

/-! ### The files -/

/-- A floorplan whose elements tile the chip, one divided in four with the material of its layer, one in another material. -/
def nuFiles : Files where
  flp p := if p = "duo.flp" then some [⟨"A", .one 0 0 1000 1000 none (some (2, 2)), [1, 2]⟩, ⟨"B", .one 0 1000 1000 1000 (some "BEOL") none, [3]⟩]
    else if p = "idle.flp" then some [⟨"A", .one 0 0 1000 2000 none (some (1, 2)), [0]⟩] else none
  lay p := exFiles.lay p

def nuDims : DimD := ⟨1000, 2000, 100, 100, some true⟩
/-- A chip without a channel, in steady state or not. -/
def nuDoc (k : Option (ℚ × ℚ)) : StackD :=
  { dryDoc k with dims := nuDims, elems := [.die "TOP" "CORE" "duo.flp" (some (1, 2)), .layer "L" "PCB" (some (2, 3))],
                  points := [.tcell "TOP" 1 2 "t.txt" .step, .tflp "TOP" "f.txt" .average .slot, .tflpel "TOP" "B" "b.txt" .maximum .unsaid,
                    .tmap "L" "m.txt" .slot, .pmap "TOP" "p.txt" .unsaid, .t3d "v.vtk" .slot] }
/-- With a channel in the 2RM model, in the 4RM model. -/
def nuWet2 : StackD :=
  { wet2Doc with dims := nuDims, elems := [.die "TOP" "CORE" "duo.flp" (some (1, 2)), .channel "CH", .layer "L" "PCB" (some (2, 3))],
                 points := [.tcoolant "CH" "c.txt" .average .slot] }
def nuWet4 : StackD :=
  { nuWet2 with chan := exDoc.chan, dims := ⟨1025, 2000, 100, 100, some true⟩ }
/-- A chip that consumes nothing, at the temperature of its ambient, with a channel. -/
def nuIdle : StackD :=
  { nuWet2 with elems := [.die "TOP" "CORE" "idle.flp" none, .channel "CH", .layer "L" "PCB" (some (2, 3))] }
/-- With a pluggable heat sink on a spreader as large as the chip. -/
def nuFlat : StackD := { nuDoc (some (1 / 50, 1 / 5)) with top := some (.plug ⟨1000, 2000, 40, "BEOL", "sink.so", "args"⟩) }
/-- With a pluggable heat sink, on a heat spreader that is larger than the chip. -/
def nuPlug : StackD := { nuDoc (some (1 / 50, 1 / 5)) with top := plugDoc.top }

theorem duo_good {x : DimD} (hl : 1000 ≤ x.chipL) (hw : 2000 ≤ x.chipW) {p : String} {f : List FlpD}
    (h : nuFiles.flp p = some f) : ∀ y ∈ f, ∀ r ∈ areaRects y.area, GoodRect x r := by
  by_cases hp : p = "duo.flp"
  · subst hp
    simp [nuFiles] at h
    subst h
    simp [areaRects, GoodRect]
    constructor <;> (try constructor) <;> linarith
  · by_cases hq : p = "idle.flp"
    · subst hq
      simp [nuFiles] at h
      subst h
      simp [areaRects, GoodRect]
      constructor <;> linarith
    · simp [nuFiles, hp, hq] at h

macro "sensibleNU" : tactic => `(tactic| (
  constructor
  · simp [exDoc, dryDoc, wet2Doc, plugDoc, nuDoc, nuWet2, nuWet4, nuIdle, nuFlat, nuPlug, nuDims, GoodMat]
  · simp [exDoc, dryDoc, wet2Doc, plugDoc, nuDoc, nuWet2, nuWet4, nuIdle, nuFlat, nuPlug, nuDims, nuFiles, exFiles, GoodMat]
  · simp [exDoc, dryDoc, wet2Doc, plugDoc, nuDoc, nuWet2, nuWet4, nuIdle, nuFlat, nuPlug, nuDims]
  · exact ⟨20, by norm_num [exDoc, dryDoc, wet2Doc, plugDoc, nuDoc, nuWet2, nuWet4, nuIdle, nuFlat, nuPlug, nuDims]⟩
  · first
      | (intro h; exact absurd rfl (h _ _ _ _ _ _ _ _ _ _))
      | exact fun _ => ⟨10, by norm_num [exDoc, dryDoc, wet2Doc, plugDoc, nuDoc, nuWet2, nuWet4, nuIdle, nuFlat, nuPlug, nuDims]⟩
  · simp [exDoc, dryDoc, wet2Doc, plugDoc, nuDoc, nuWet2, nuWet4, nuIdle, nuFlat, nuPlug, nuDims]
  · simp [exDoc, dryDoc, wet2Doc, plugDoc, nuDoc, nuWet2, nuWet4, nuIdle, nuFlat, nuPlug, nuDims, GoodDieLayer]
  · first
      | (intro c hc; cases hc; norm_num [exDoc, dryDoc, wet2Doc, plugDoc, nuDoc, nuWet2, nuWet4, nuIdle, nuFlat, nuPlug, nuDims, GoodChan, GoodWall, GoodHtc4, GoodHtc2]; done)
      | (intro c hc; cases hc; norm_num [exDoc, dryDoc, wet2Doc, plugDoc, nuDoc, nuWet2, nuWet4, nuIdle, nuFlat, nuPlug, nuDims, GoodChan, GoodWall, GoodHtc4, GoodHtc2]; intro x hx; cases hx; done)
      | (intro c hc; cases hc; done)
  · norm_num [exDoc, dryDoc, wet2Doc, plugDoc, nuDoc, nuWet2, nuWet4, nuIdle, nuFlat, nuPlug, nuDims, GoodTop, columns]
  · simp [exDoc, dryDoc, wet2Doc, plugDoc, nuDoc, nuWet2, nuWet4, nuIdle, nuFlat, nuPlug, nuDims]
  · intro id ref p o f h1 h2
    exact duo_good (by norm_num [exDoc, dryDoc, wet2Doc, plugDoc, nuDoc, nuWet2, nuWet4, nuIdle, nuFlat, nuPlug, nuDims])
      (by norm_num [exDoc, dryDoc, wet2Doc, plugDoc, nuDoc, nuWet2, nuWet4, nuIdle, nuFlat, nuPlug, nuDims]) h2))

theorem nuDoc_sensible (k : Option (ℚ × ℚ)) : Sensible eff1 nuFiles (nuDoc k) := by sensibleNU
theorem nuWet2_sensible : Sensible eff1 nuFiles nuWet2 := by sensibleNU
theorem nuWet4_sensible : Sensible eff1 nuFiles nuWet4 := by sensibleNU
theorem nuIdle_sensible : Sensible eff1 nuFiles nuIdle := by sensibleNU
theorem nuFlat_sensible : Sensible eff1 nuFiles nuFlat := by sensibleNU
theorem nuPlug_sensible : Sensible eff1 nuFiles nuPlug := by sensibleNU

/-! ### The programs -/

noncomputable def nuWorld (stk flp idle lay : List Char) : World Unit where
  read p := if p = "s.stk" then some stk else if p = "duo.flp" then some flp else if p = "idle.flp" then some idle else if p = "pcb.lay" then some lay else none
  canOpen _ := true
  eff := eff1
  mul10 x := x * 10
  solve A b := exactSolve b.length A b
  factor _ := true
  plugin u _ f := (u, some (f.map fun _ => 0))
  canLoad _ := true
  init _ _ := some ()
  idle := ()

theorem nu_files : ∃ flp idle lay, ∀ stk, (filesOf (nuWorld stk flp idle lay).read).flp "duo.flp" = nuFiles.flp "duo.flp" ∧
    (filesOf (nuWorld stk flp idle lay).read).flp "idle.flp" = nuFiles.flp "idle.flp" ∧
    (filesOf (nuWorld stk flp idle lay).read).lay "pcb.lay" = nuFiles.lay "pcb.lay" := by
  obtain ⟨f, hf⟩ : ∃ f, nuFiles.flp "duo.flp" = some f := ⟨_, rfl⟩
  obtain ⟨g, hg⟩ : ∃ g, nuFiles.flp "idle.flp" = some g := ⟨_, rfl⟩
  obtain ⟨l, hl⟩ : ∃ l, nuFiles.lay "pcb.lay" = some l := ⟨_, rfl⟩
  obtain ⟨flp, h1⟩ := C66_every_floorplan (fs := f) (by cases hf; exact ⟨by simp, by simp [AreaD.Ok]⟩) (by
    have : (f.flatMap FlpD.toks).all (Scan.check Scan.flpLex) = true := by cases hf; decide +kernel
    exact fun t ht => Scan.check_free (List.all_eq_true.mp this t ht))
  obtain ⟨idle, h3⟩ := C66_every_floorplan (fs := g) (by cases hg; exact ⟨by simp, by simp [AreaD.Ok]⟩) (by
    have : (g.flatMap FlpD.toks).all (Scan.check Scan.flpLex) = true := by cases hg; decide +kernel
    exact fun t ht => Scan.check_free (List.all_eq_true.mp this t ht))
  obtain ⟨lay, h2⟩ := C66_every_layout (l := l) (by cases hl; exact ⟨by simp, by simp [LAreaD.Ok]⟩) (by
    have : l.toks.all (Scan.check Scan.layLex) = true := by cases hl; decide +kernel
    exact fun t ht => Scan.check_free (List.all_eq_true.mp this t ht))
  refine ⟨flp, idle, lay, fun stk => ⟨?_, ?_, ?_⟩⟩
  · rw [hf]; exact h1
  · rw [hg]; exact h3
  · rw [hl]; exact h2

/-- A session of the program on a document, with a solver that solves exactly the systems that have one solution. -/
structure ExampleNU (s : StackD) (w : World Unit) (D : Desc NFlps) (an : Analysis ℚ) (G : NU.Grid ℚ) (s0 : NU.NSim ℚ Unit) (log : NLog)
    (s' : NU.NSim ℚ Unit) : Prop where
  session : SessionNU w "s.stk" s D an G s0 log s'
  sensible : Sensible w.eff (filesOf w.read) s
  times10 : ∀ x, w.mul10 x = x * 10
  correct : NU.CorrectNU (configNU w an)
  complete : NU.CompleteNU (configNU w an)
  plugin : ∀ q t f, (w.plugin q t f).2 ≠ none
  powers : filePowers (filesOf w.read) s = filePowers nuFiles s
  same : SameFiles s (filesOf w.read) nuFiles
  means : describe nuReader eff1 nuFiles s = some D
  plain : describe plainReader eff1 nuFiles s = some D
  canOpen : ∀ f, w.canOpen f = true

theorem nu_runs {s : StackD} (hok : s.Ok) (hchk : s.toks.all (Scan.check Scan.stackLex) = true) (hs : Sensible eff1 nuFiles s)
    (hflp : ∀ id ref p o, ElD.die id ref p o ∈ s.elems → p = "duo.flp" ∨ p = "idle.flp") (hlay : ∀ l ∈ s.layers, ∀ p, l.layout = some p → p = "pcb.lay")
    (hD : ((describe plainReader eff1 nuFiles s).bind fun D => fillGrid D.parsed.dims.nLayers D.parsed.elems D.top D.bottom).isSome = true)
    (hu : s.dims.nonUniform = some true) (htop : s.top ≠ none) (hn : ∀ p ∈ s.points, ShortNames p)
    (ht : ∀ step slot, s.solver.kind = some (step, slot) → ∃ k, Solver.HasDecimals k step ∧ Solver.HasDecimals k slot ∧ slot * 10 ^ k < (4294967296 : Nat) ∧
      ∃ t ∈ filePowers nuFiles s, t.length * ⌊slot / step⌋₊ < 10 ^ 9) :
    ∃ w D an G s0 log s', ExampleNU s w D an G s0 log s' := by
  obtain ⟨g, hD⟩ := Option.isSome_iff_exists.mp hD
  obtain ⟨D, hD, hg⟩ := Option.bind_eq_some_iff.mp hD
  obtain ⟨flp, idle, lay, hfl⟩ := nu_files
  obtain ⟨stk, hstk⟩ := C66_every_document hok (fun t ht => Scan.check_free (List.all_eq_true.mp hchk t ht))
  obtain ⟨f1, f3, f2⟩ := hfl stk
  generalize hw : nuWorld stk flp idle lay = w at f1 f2 f3
  have hsame : SameFiles s (filesOf w.read) nuFiles :=
    ⟨fun id ref p o h => by
      rcases hflp id ref p o h with e | e
      · rw [e]; exact f1
      · rw [e]; exact f3, fun l hl p h => by rw [hlay l hl p h]; exact f2⟩
  have heff : w.eff = eff1 := by rw [← hw]; rfl
  have hsen : Sensible w.eff (filesOf w.read) s := by rw [heff]; exact sensible_files hsame hs
  have hm : ∀ x, w.mul10 x = x * 10 := by intro x; rw [← hw]; rfl
  have hc : Contains w "s.stk" s := ⟨stk, by rw [← hw]; rfl, hstk⟩
  have M : Means plainReader w.eff (filesOf w.read) s D := by
    rw [← C67_meaning, heff, describe_files _ _ hsame]; exact hD
  obtain ⟨an, G, s0, log, s', h, -⟩ := C69_runs hm hc hsen M hg hu htop (by rw [powers_files hsame]; exact ht) hn
    (by intro f; rw [← hw]; rfl) (by intro f; rw [← hw]; rfl) (by intro f; rw [← hw]; rfl) (by intro f a; rw [← hw]; exact ⟨(), rfl⟩)
  refine ⟨w, _, an, G, s0, log, s', h, hsen, hm, ?_, ?_, ?_, powers_files hsame, hsame, ?_, hD, by intro f; rw [← hw]; rfl⟩
  · intro A b x hx
    have hx' : w.solve A b = some x := hx
    rw [← hw] at hx'
    exact exactSolve_correct hx'
  · intro A b h1
    obtain ⟨x, hx⟩ := exactSolve_some h1
    refine ⟨x, ?_⟩
    show w.solve A b = some x
    rw [← hw]; exact hx
  · intro q t f; rw [← hw]; simp [nuWorld]
  · rw [← describe_files _ _ hsame, ← heff]; exact (C67_meaning _ _ _ _ _).mpr h.means

theorem decimalsNU {ps : List (List ℚ)} (h : ∃ t ∈ ps, t.length = 1) : ∃ k, Solver.HasDecimals k (1 / 50 : ℚ) ∧ Solver.HasDecimals k (1 / 5 : ℚ) ∧
    (1 / 5 : ℚ) * 10 ^ k < (4294967296 : Nat) ∧ ∃ t ∈ ps, t.length * ⌊(1 / 5 : ℚ) / (1 / 50)⌋₊ < 10 ^ 9 := by
  obtain ⟨k, k1, k2, k3⟩ := decimals
  obtain ⟨t, h1, h2⟩ := h
  refine ⟨k, k1, k2, k3, t, h1, ?_⟩
  have e : ((1 / 5 : ℚ) / (1 / 50)) = ((10 : Nat) : ℚ) := by norm_num
  rw [e, Nat.floor_natCast, h2]
  norm_num

theorem nu_single {s : StackD} (h : filePowers nuFiles s = [[1, 2], [3]] ∨ filePowers nuFiles s = [[0]]) : ∃ t ∈ filePowers nuFiles s, t.length = 1 := by
  rcases h with h | h <;> rw [h]
  · exact ⟨[3], by simp, rfl⟩
  · exact ⟨[0], by simp, rfl⟩

macro "runsNU" h:term : tactic => `(tactic| (
  refine nu_runs ⟨by decide, by decide, by decide⟩ (by decide +kernel) $h ?_ ?_ (by decide +kernel) (by decide) (by simp [exDoc, dryDoc, wet2Doc, plugDoc, nuDoc, nuWet2, nuWet4, nuIdle, nuFlat, nuPlug]) ?_ ?_
  · intro id ref p o h
    simp [exDoc, dryDoc, wet2Doc, plugDoc, nuDoc, nuWet2, nuWet4, nuIdle, nuFlat, nuPlug, nuDims] at h
    first | exact .inl h.2.2.1 | exact .inr h.2.2.1
  · simp [exDoc, dryDoc, wet2Doc, plugDoc, nuDoc, nuWet2, nuWet4, nuIdle, nuFlat, nuPlug, nuDims]
  · simp [exDoc, dryDoc, wet2Doc, plugDoc, nuDoc, nuWet2, nuWet4, nuIdle, nuFlat, nuPlug, nuDims, ShortNames]
    try decide
  · intro step slot h
    first | (cases h; exact decimalsNU (nu_single (by decide +kernel))) | (cases h; done)))

theorem nuDoc_runs : ∃ w D an G s0 log s', ExampleNU (nuDoc (some (1 / 50, 1 / 5))) w D an G s0 log s' := by runsNU (nuDoc_sensible _)
theorem nuSteady_runs : ∃ w D an G s0 log s', ExampleNU (nuDoc none) w D an G s0 log s' := by runsNU (nuDoc_sensible _)
theorem nuWet2_runs : ∃ w D an G s0 log s', ExampleNU nuWet2 w D an G s0 log s' := by runsNU nuWet2_sensible
theorem nuWet4_runs : ∃ w D an G s0 log s', ExampleNU nuWet4 w D an G s0 log s' := by runsNU nuWet4_sensible
theorem nuIdle_runs : ∃ w D an G s0 log s', ExampleNU nuIdle w D an G s0 log s' := by runsNU nuIdle_sensible
theorem nuFlat_runs : ∃ w D an G s0 log s', ExampleNU nuFlat w D an G s0 log s' := by runsNU nuFlat_sensible
theorem nuPlug_runs : ∃ w D an G s0 log s', ExampleNU nuPlug w D an G s0 log s' := by runsNU nuPlug_sensible

/-! ### What the theorems say about them -/

section
variable {s : StackD} {w : World Unit} {D : Desc NFlps} {an : Analysis ℚ} {G : NU.Grid ℚ} {s0 : NU.NSim ℚ Unit} {log : NLog} {s' : NU.NSim ℚ Unit}

/-- The number of steps per slot of the examples. -/
theorem nu_slot (E : ExampleNU s w D an G s0 log s') (ht : s.solver.kind = some (1 / 50, 1 / 5)) : an.slotLength = 10 := by
  have h := E.session.times
  rw [E.session.means.times.1, ht] at h
  have hm : w.mul10 = (· * 10) := funext E.times10
  rw [hm] at h
  obtain ⟨k, k1, k2, k3⟩ := decimals
  have h0 := ((Solver.C37_slot_length_partial k1 k2 k3).1 ⟨by norm_num, by norm_num⟩).1
  have := analysed_det h (.transient h0)
  rw [this]
  have e : ((1 / 5 : ℚ) / (1 / 50)) = ((10 : Nat) : ℚ) := by norm_num
  first | rfl | (simp only [e, Nat.floor_natCast])

end

/-- The outputs of a run that ends for want of power values: of ten steps, of one slot, and at the end. -/
example : ∃ w D an G s0 log s' n, ExampleNU (nuDoc (some (1 / 50, 1 / 5))) w D an G s0 log s' ∧
    MainNU w ["s.stk"] .success (buildLog D ++ log) (some s') ∧ n ≤ 10 ∧ s' = NU.afterSteps (configNU w an) s0 (n + 1) ∧
    ∃ final, AllWrite w.canOpen D.points .final G s' (n * (1 / 50)) n an.slotLength final := by
  obtain ⟨w, D, an, G, s0, log, s', E⟩ := nuDoc_runs
  have hp : filePowers nuFiles (nuDoc (some (1 / 50, 1 / 5))) = [[1, 2], [3]] := by decide +kernel
  have hsl := nu_slot E rfl
  have hW : ∃ t ∈ filePowers (filesOf w.read) (nuDoc (some (1 / 50, 1 / 5))), t.length * an.slotLength < 2 ^ 32 := by
    rw [E.powers, hp, hsl]; exact ⟨[3], by simp, by norm_num⟩
  obtain ⟨n, h1, h2, h3, a, b, f, -, -, -, h4⟩ := C69_transient_outputs E.session E.sensible E.times10 rfl hW
  refine ⟨w, D, an, G, s0, log, s', n, E, C69_session.mpr ⟨_, _, _, _, _, _, _, _, rfl, rfl, rfl, E.session⟩, ?_, h3, f, h4⟩
  obtain ⟨d0, raws, -, hb, -⟩ := E.session.begun E.sensible
  obtain ⟨hv, h0, -⟩ := NU.begun_valid hb
  obtain ⟨t1, t2, t3, t4⟩ := times_nu E.times10 E.session.times
  rw [← begun_traces E.session.start E.sensible] at hW
  have hty : (configNU w an).an.type = .transient := by
    rcases t4 with ⟨t4, -⟩ | ⟨sl, t4, t5⟩
    · rw [E.session.means.times.1] at t4; cases t4
    · exact t5
  have h3' : [3] ∈ filePowers (filesOf w.read) (nuDoc (some (1 / 50, 1 / 5))) := by rw [E.powers, hp]; simp
  rw [← begun_traces E.session.start E.sensible] at h3'
  have := NU.run_bound hty t3 hv h0 h1 h3' (by show 1 * an.slotLength < _; rw [hsl]; unfold W; norm_num)
  show n ≤ 10
  have e : (configNU w an).an.slotLength = 10 := hsl
  rw [e] at this
  simpa using this

/-- In steady state. -/
example : ∃ w D an G s0 log s', ExampleNU (nuDoc none) w D an G s0 log s' ∧ AllWrite w.canOpen D.points .final G s' 0 0 an.slotLength log := by
  obtain ⟨w, D, an, G, s0, log, s', E⟩ := nuSteady_runs
  exact ⟨w, D, an, G, s0, log, s', E, (C69_steady_outputs E.session E.sensible E.times10 rfl).2⟩

end Verif.Prog
