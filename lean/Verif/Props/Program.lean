import Verif.Props.Sensible
import Verif.Props.FrontEndOrder
import Verif.Props.Solver
import Verif.Props.Server
import Verif.Props.Steady
import Verif.Props.Monotone
import Verif.Props.Energy
import Verif.Props.Equilibrium

/-! # C68: the program, from the description files to the output files -/

set_option linter.unusedSectionVars false
set_option linter.unusedSimpArgs false
set_option linter.unusedVariables false

namespace Verif.Prog
open Verif.Gram Verif.Dim Verif.TG Verif.SM Verif.Stk Verif.FE Verif.Out Verif.Emu Verif.Flp

variable {π : Type}

/-! ### Specification -/

/-- The file `file` contains the stack description `s`. -/
def Contains (w : World π) (file : String) (s : StackD) : Prop :=
  ∃ text, w.read file = some text ∧ parseStackFile (Scan.scan Scan.stackRules .initial text) = some s

/-- The inspection points of a file. -/
def pointsOf (D : Desc Flps) : List (Point ℚ) := D.points.map uniformPoint

/-- A session of the program: the file `file` contains the document `s`, which means `D`; the simulation starts in the state `s0`, writes
`log` and ends in the state `s'`. -/
structure Session (w : World π) (file : String) (s : StackD) (D : Desc Flps) (an : Analysis ℚ) (s0 : Sim ℚ π) (log : Log ℚ) (s' : Sim ℚ π) : Prop where
  file : Contains w file s
  means : Means uniformReader w.eff (filesOf w.read) s D
  loaded : ∀ p, D.plugin = some p → w.canLoad p.1 = true
  times : Analysed w.mul10 D.init D.times an
  started : ∃ q, initPlugin w D an = some q ∧ start w D an q = some s0
  writable : Srv.headersOk w.canOpen (outputOf D.points) = true
  uniform : D.nonUniform = false
  emulated : Emulated w.canOpen (outputOf D.points) (config w D an) s0 log s'

/-! ### Proofs -/

theorem readInput_iff {w : World π} {file : String} {D : Desc Flps} : readInput w file = some D ↔
    (∃ s, Contains w file s ∧ Means uniformReader w.eff (filesOf w.read) s D) ∧ ∀ p, D.plugin = some p → w.canLoad p.1 = true := by
  unfold readInput load Contains
  simp only [Option.bind_eq_some_iff]
  constructor
  · rintro ⟨t, ht, D', ⟨s, h1, h2⟩, h3⟩
    have key : D' = D ∧ ∀ p, D.plugin = some p → w.canLoad p.1 = true := by
      cases hp : D'.plugin with
      | none => rw [hp] at h3; cases h3; exact ⟨rfl, fun p h => by rw [hp] at h; cases h⟩
      | some p =>
        rw [hp] at h3
        simp only at h3
        split_ifs at h3 with hc
        cases h3
        refine ⟨rfl, fun q h => ?_⟩
        rw [hp] at h; cases h; exact hc
    obtain ⟨rfl, hk⟩ := key
    exact ⟨⟨s, ⟨t, ht, h1⟩, (C67_meaning _ _ _ _ _).mp h2⟩, hk⟩
  · rintro ⟨⟨s, ⟨t, ht, h1⟩, h2⟩, hk⟩
    refine ⟨t, ht, D, ⟨s, h1, (C67_meaning _ _ _ _ _).mpr h2⟩, ?_⟩
    cases hp : D.plugin with
    | none => rfl
    | some p => simp only; rw [if_pos (hk p hp)]

/-- **C68** The program succeeds exactly in the sessions described above: a file that means something, output files that can be created, and
matrices that can be factored. -/
theorem C68_session {w : World π} {args : List String} {log : Log ℚ} {o : Option (Sim ℚ π)} :
    Main w args .success log o ↔ ∃ file s D an s0 s', args = [file] ∧ o = some s' ∧ Session w file s D an s0 log s' := by
  constructor
  · intro h
    cases h with
    | ran h1 h2 h3 h4 h5 h6 h7 =>
      obtain ⟨⟨s, hs, hm⟩, hp⟩ := readInput_iff.mp h1
      exact ⟨_, s, _, _, _, _, rfl, rfl, hs, hm, hp, h2, ⟨_, h3, h6⟩, h4, h5, h7⟩
  · rintro ⟨file, s, D, an, s0, s', rfl, rfl, h1, h2, h3, h4, ⟨q, h5, h6⟩, h7, h8, h9⟩
    exact .ran (readInput_iff.mpr ⟨⟨s, h1, h2⟩, h3⟩) h4 h5 h7 h8 h6 h9

/-- **C68** If the program fails, it has simulated nothing and written no results. -/
theorem C68_failure {w : World π} {args : List String} {log : Log ℚ} {o : Option (Sim ℚ π)} (h : Main w args .failure log o) : log = [] ∧ o = none := by
  cases h <;> exact ⟨rfl, rfl⟩

/-! #### One outcome -/

theorem scaled_det {mul10 : ℚ → ℚ} {a b c d c' d' : ℚ} (h : Solver.Scaled mul10 a b c d) (h' : Solver.Scaled mul10 a b c' d') : c' = c ∧ d' = d := by
  induction h with
  | stop h1 h2 =>
    cases h' with
    | stop => exact ⟨rfl, rfl⟩
    | again hn => exact absurd ⟨h1, h2⟩ hn
  | again hn _ ih =>
    cases h' with
    | stop h1 h2 => exact absurd ⟨h1, h2⟩ hn
    | again _ h' => exact ih h'

theorem transient_det {mul10 : ℚ → ℚ} {a b : ℚ} {x y : Outcome (ℚ × Nat)} (h : Solver.Transient mul10 a b x) (h' : Solver.Transient mul10 a b y) : x = y := by
  cases h with
  | refused h1 =>
    cases h' with
    | refused => rfl
    | accepted hn => exact absurd h1 hn
    | undefined hn => exact absurd h1 hn
  | accepted hn hs hd =>
    cases h' with
    | refused h1 => exact absurd h1 hn
    | accepted _ hs' hd' =>
      obtain ⟨e1, e2⟩ := scaled_det hs hs'
      rw [e1, e2, hd] at hd'; cases hd'; rfl
    | undefined _ hs' hd' =>
      obtain ⟨e1, e2⟩ := scaled_det hs hs'
      rw [e1, e2, hd] at hd'; cases hd'
  | undefined hn hs hd =>
    cases h' with
    | refused h1 => exact absurd h1 hn
    | undefined _ _ _ => rfl
    | accepted _ hs' hd' =>
      obtain ⟨e1, e2⟩ := scaled_det hs hs'
      rw [e1, e2, hd] at hd'; cases hd'

theorem analysed_det {mul10 : ℚ → ℚ} {i : ℚ} {t : Option (ℚ × ℚ)} {a b : Analysis ℚ} (h : Analysed mul10 i t a) (h' : Analysed mul10 i t b) : a = b := by
  cases h with
  | steady => cases h'; rfl
  | transient h =>
    cases h' with
    | transient h' =>
      have := transient_det h h'
      cases this; rfl

theorem loop_det {canOpen : String → Bool} {o : Output ℚ} {cfg : Cfg ℚ π} {f : Sim ℚ π → SimResult × Sim ℚ π} {s : Sim ℚ π} {l l' : Log ℚ} {a b : Sim ℚ π}
    (h : Loop canOpen o cfg f s l a) (h' : Loop canOpen o cfg f s l' b) : l = l' ∧ a = b := by
  induction h generalizing l' with
  | stop h1 h2 =>
    cases h' with
    | stop h3 h4 => rw [h1] at h3; cases h3; exact ⟨rfl, rfl⟩
    | again h3 h4 h5 _ => rw [h1] at h3; cases h3; rcases h2 with h2 | h2 <;> contradiction
  | again h1 h2 h3 _ ih =>
    cases h' with
    | stop h4 h5 => rw [h1] at h4; cases h4; rcases h5 with h5 | h5 <;> contradiction
    | again h4 h5 h6 h7 =>
      rw [h1] at h4; cases h4
      obtain ⟨rfl, rfl⟩ := ih h7
      exact ⟨rfl, rfl⟩

theorem emulated_det {canOpen : String → Bool} {o : Output ℚ} {cfg : Cfg ℚ π} {s : Sim ℚ π} {l l' : Log ℚ} {a b : Sim ℚ π}
    (h : Emulated canOpen o cfg s l a) (h' : Emulated canOpen o cfg s l' b) : l = l' ∧ a = b := by
  obtain ⟨f, x, h1, h2, h3⟩ := h
  obtain ⟨f', x', h1', h2', h3'⟩ := h'
  rw [h1] at h1'; cases h1'
  obtain ⟨rfl, rfl⟩ := loop_det h2 h2'
  exact ⟨h3.trans h3'.symm, rfl⟩

/-- **C68** What the program does is determined by its arguments and by what surrounds it: the contents of the files, which files can be
created, and the results of the solver and of the plug-in. -/
theorem C68_one_outcome {w : World π} {args : List String} {st st' : Status} {log log' : Log ℚ} {o o' : Option (Sim ℚ π)} (h : Main w args st log o)
    (h' : Main w args st' log' o') : st = st' ∧ log = log' ∧ o = o' := by
  have fin : ∀ {file D an D' an'}, readInput w file = some D → readInput w file = some D' → Analysed w.mul10 D.init D.times an →
      Analysed w.mul10 D'.init D'.times an' → D = D' ∧ an = an' := by
    intro file D an D' an' h1 h2 h3 h4
    rw [h1] at h2; cases h2
    exact ⟨rfl, analysed_det h3 h4⟩
  cases h with
  | usage hl => cases h' <;> first | exact ⟨rfl, rfl, rfl⟩ | (exact absurd rfl hl)
  | refused h1 =>
    cases h' with
    | ran g1 => rw [h1] at g1; cases g1
    | _ => exact ⟨rfl, rfl, rfl⟩
  | noPlugin h1 h2 h3 =>
    cases h' with
    | ran g1 g2 g3 g4 g5 g6 g7 =>
      obtain ⟨rfl, rfl⟩ := fin h1 g1 h2 g2
      rw [h3] at g3; cases g3
    | _ => exact ⟨rfl, rfl, rfl⟩
  | unwritable h1 h2 h3 h4 =>
    cases h' with
    | ran g1 g2 g3 g4 g5 g6 g7 =>
      obtain ⟨rfl, rfl⟩ := fin h1 g1 h2 g2
      rw [h4] at g4; cases g4
    | _ => exact ⟨rfl, rfl, rfl⟩
  | unbuilt h1 h2 h3 h4 h5 h6 =>
    cases h' with
    | ran g1 g2 g3 g4 g5 g6 g7 =>
      obtain ⟨rfl, rfl⟩ := fin h1 g1 h2 g2
      rw [h3] at g3; cases g3
      rw [h6] at g6; cases g6
    | _ => exact ⟨rfl, rfl, rfl⟩
  | ran h1 h2 h3 h4 h5 h6 h7 =>
    cases h' with
    | usage hl => exact absurd rfl hl
    | refused g1 => rw [h1] at g1; cases g1
    | noPlugin g1 g2 g3 =>
      obtain ⟨rfl, rfl⟩ := fin h1 g1 h2 g2
      rw [h3] at g3; cases g3
    | unwritable g1 g2 g3 g4 =>
      obtain ⟨rfl, rfl⟩ := fin h1 g1 h2 g2
      rw [h4] at g4; cases g4
    | unbuilt g1 g2 g3 g4 g5 g6 =>
      obtain ⟨rfl, rfl⟩ := fin h1 g1 h2 g2
      rw [h3] at g3; cases g3
      rw [h6] at g6; cases g6
    | ran g1 g2 g3 g4 g5 g6 g7 =>
      obtain ⟨rfl, rfl⟩ := fin h1 g1 h2 g2
      rw [h3] at g3; cases g3
      rw [h6] at g6; cases g6
      obtain ⟨rfl, rfl⟩ := emulated_det h7 g7
      exact ⟨rfl, rfl, rfl⟩

/-! #### The text of the files -/

/-- **C68** The layout of the files and the order of the declarations change neither the exit status nor the outputs. -/
theorem C68_text {w : World π} {read' : String → Option (List Char)} {file : String} {text text' : List Char} (h1 : w.read file = some text)
    (h2 : read' file = some text') (h : SameContent w.read read' text text') {st : Status} {log : Log ℚ} {o : Option (Sim ℚ π)} :
    Main w [file] st log o ↔ Main { w with read := read' } [file] st log o := by
  have key : (readInput w file).map (fun D => { D with mats := [] }) =
      (readInput { w with read := read' } file).map (fun D => { D with mats := [] }) := by
    have := C67_text (eff := w.eff) h
    unfold readInput
    simp only [h1, h2, Option.bind_some]
    generalize load w.eff w.read text = a at *
    generalize load w.eff read' text' = b at *
    cases a with
    | none => cases b with
      | none => rfl
      | some b => cases this
    | some a => cases b with
      | none => cases this
      | some b =>
        simp only [Option.map_some, Option.some.injEq, Option.bind_some] at this ⊢
        have hp : a.plugin = b.plugin := by injection this
        rw [hp]
        cases b.plugin with
        | none => simp only [Option.map_some, this]
        | some p =>
          simp only
          split_ifs
          · simp only [Option.map_some, this]
          · rfl
  have dir : ∀ {r1 r2 : String → Option (List Char)}, (readInput { w with read := r1 } file).map (fun D => { D with mats := [] }) =
      (readInput { w with read := r2 } file).map (fun D => { D with mats := [] }) →
      Main { w with read := r1 } [file] st log o → Main { w with read := r2 } [file] st log o := by
    intro r1 r2 hk hm
    have hget : ∀ D, readInput { w with read := r1 } file = some D → ∃ D', readInput { w with read := r2 } file = some D' ∧
        { D with mats := [] } = { D' with mats := [] } := by
      intro D hD
      rw [hD, Option.map_some] at hk
      obtain ⟨D', h1, h2⟩ := Option.map_eq_some_iff.mp hk.symm
      exact ⟨D', h1, h2.symm⟩
    cases hm with
    | usage hl => exact absurd rfl hl
    | refused g =>
      rw [g] at hk
      exact .refused (Option.map_eq_none_iff.mp hk.symm)
    | noPlugin g1 g2 g3 =>
      obtain ⟨⟨_, _, _, _, _, _, _, _, _, _, _, _⟩, e1, e2⟩ := hget _ g1
      rename_i D _ _ _ _ _ _ _ _ _ _ _ _ _
      obtain ⟨_, _, _, _, _, _, _, _, _, _, _, _⟩ := D
      cases e2
      exact .noPlugin e1 g2 g3
    | unwritable g1 g2 g3 g4 =>
      obtain ⟨⟨_, _, _, _, _, _, _, _, _, _, _, _⟩, e1, e2⟩ := hget _ g1
      rename_i D _ _ _ _ _ _ _ _ _ _ _ _ _ _
      obtain ⟨_, _, _, _, _, _, _, _, _, _, _, _⟩ := D
      cases e2
      exact .unwritable e1 g2 g3 g4
    | unbuilt g1 g2 g3 g4 g5 g6 =>
      obtain ⟨⟨_, _, _, _, _, _, _, _, _, _, _, _⟩, e1, e2⟩ := hget _ g1
      rename_i D _ _ _ _ _ _ _ _ _ _ _ _ _ _
      obtain ⟨_, _, _, _, _, _, _, _, _, _, _, _⟩ := D
      cases e2
      exact .unbuilt e1 g2 g3 g4 g5 g6
    | ran g1 g2 g3 g4 g5 g6 g7 =>
      obtain ⟨⟨_, _, _, _, _, _, _, _, _, _, _, _⟩, e1, e2⟩ := hget _ g1
      rename_i D _ _ _ _ _ _ _ _ _ _ _ _ _ _ _ _
      obtain ⟨_, _, _, _, _, _, _, _, _, _, _, _⟩ := D
      cases e2
      exact .ran e1 g2 g3 g4 g5 g6 g7
  exact ⟨dir key, dir key.symm⟩

/-! #### The points -/

theorem outputOf_eq (D : Desc Flps) : outputOf D.points = addPoints (pointsOf D) := rfl

/-- The parser builds points that the output functions accept. -/
theorem points_sound {eff : Bool → ℚ → ℚ} {files : Files} {s : StackD} {D : Desc Flps} (M : Means uniformReader eff files s D) :
    ∀ p ∈ pointsOf D, Sound p := by
  intro p hp
  obtain ⟨r, hr, rfl⟩ := List.mem_map.mp hp
  obtain ⟨x, -, hx⟩ := forall₂_mem_right M.points hr
  have hat : ∀ {w : WhenD} {i : Out.Instant}, At w i → i ≠ .none := by
    rintro w i (⟨-, rfl⟩ | ⟨-, rfl⟩ | ⟨-, rfl⟩) <;> simp
  have hqu : ∀ {w : QuantD} {i : Out.Quantity}, Quant w i → i ≠ .none := by
    rintro w i (⟨-, rfl⟩ | ⟨-, rfl⟩ | ⟨-, rfl⟩ | ⟨-, rfl⟩) <;> simp
  unfold Sound uniformPoint
  cases x with
  | tcell => obtain ⟨h1, -, -, e, -, -, h4⟩ := hx; exact ⟨hat h1, by rw [h4]; trivial⟩
  | tflp => obtain ⟨h1, h2, -, e, -, -, b, -, h4⟩ := hx; exact ⟨hat h1, by rw [h4]; exact hqu h2⟩
  | tflpel el sub =>
    obtain ⟨h1, h2, -, e, -, -, b, i, -, h5, -, h4⟩ := hx
    refine ⟨hat h1, ?_⟩
    rw [h4]
    have : ∃ y, b.flp[i]? = some y := by
      have h5' : (b.flp.map (·.name))[i]? = some sub := h5
      rw [List.getElem?_map, Option.map_eq_some_iff] at h5'
      obtain ⟨y, hy, -⟩ := h5'
      exact ⟨y, hy⟩
    obtain ⟨y, hy⟩ := this
    simp only [FE.kindOf, hy, Option.elim_some]
    exact hqu h2
  | tmap => obtain ⟨h1, -, -, e, -, -, h4⟩ := hx; exact ⟨hat h1, by rw [h4]; trivial⟩
  | t3d => obtain ⟨h1, -, -, h4⟩ := hx; exact ⟨hat h1, by rw [h4]; trivial⟩
  | pmap => obtain ⟨h1, -, -, e, -, -, h4⟩ := hx; exact ⟨hat h1, by rw [h4]; trivial⟩
  | tcoolant => obtain ⟨h1, h2, -, e, -, -, b, -, h4⟩ := hx; exact ⟨hat h1, by rw [h4]; exact hqu h2⟩

/-- Headers were written: the files can be written. -/
theorem points_open {canOpen : String → Bool} {ps : List (Point ℚ)} (hs : ∀ p ∈ ps, Sound p) (h : Srv.headersOk canOpen (addPoints ps) = true) :
    ∀ p ∈ ps, p.kind = .t3d ∨ canOpen p.file = true := by
  intro p hp
  unfold Srv.headersOk at h
  rw [addPoints_eq] at h
  simp only [Bool.and_eq_true, List.all_eq_true] at h
  have hk : Srv.headerOk canOpen p = true := by
    have hi := (hs p hp).1
    have mem : ∀ i, p.instant = i → p ∈ ofInstant i ps := fun i e => List.mem_filter.mpr ⟨hp, by simp [e]⟩
    cases hpi : p.instant with
    | none => exact absurd hpi hi
    | final => exact h.1.1 p (mem _ hpi)
    | slot => exact h.1.2 p (mem _ hpi)
    | step => exact h.2 p (mem _ hpi)
  unfold Srv.headerOk at hk
  cases hkk : p.kind <;> rw [hkk] at hk <;> simp_all

/-! #### The simulation -/

section
variable {w : World π} {file : String} {s : StackD} {D : Desc Flps} {an : Analysis ℚ} {s0 s' : Sim ℚ π} {log : Log ℚ}

/-- The times of the simulation, in exact arithmetic. -/
theorem times_good (hm : ∀ x, w.mul10 x = x * 10) (h : Analysed w.mul10 D.init D.times an) :
    an.initTemp = D.init ∧ 0 < an.stepTime ∧ 0 < an.slotLength ∧
      (D.times = none ∧ an.type = .steady ∨ ∃ slot, D.times = some (an.stepTime, slot) ∧ an.type = .transient) := by
  have hm' : w.mul10 = (· * 10) := funext hm
  rw [hm'] at h
  generalize ht : D.times = t at h
  cases h with
  | steady => exact ⟨rfl, by norm_num [Solver.steadySolver], by norm_num [Solver.steadySolver], .inl ⟨rfl, rfl⟩⟩
  | transient h =>
    obtain ⟨rfl, h2, h3⟩ := Solver.C37_never_zero h
    exact ⟨rfl, h2, h3, .inr ⟨_, rfl, rfl⟩⟩

theorem Session.good (h : Session w file s D an s0 log s') (hs : Sensible w.eff (filesOf w.read) s) :
    ∃ raws, Started (config w D an) raws s0 ∧ Physical s0.g D.parsed.dims ∧ ReadFrom D.parsed.dims (rawsOf (filesOf w.read) s) s0 ∧
      traces s0 = filePowers (filesOf w.read) s ∧ s0.g.top = D.top ∧ s0.g.bottom = D.bottom ∧ (s0.g.channel = none ∨ s0.g.channel = D.chan) ∧
      (s0.flps.map fun o => (o.getD []).map (·.powers)) = (layerRaws (filesOf w.read) s).map fun rs => rs.map (·.powers) := by
  obtain ⟨q, -, hst⟩ := h.started
  obtain ⟨raws, -, h1, h2, -, -, h3, h4, -, h5, h6, h7⟩ := start_good hs h.means hst
  exact ⟨raws, h1, h2, h3, h4, h5, h6, h7⟩

/-- A state in which no call was made is reachable. -/
theorem started_reachable {cfg : Cfg ℚ π} {rs : List (Raw ℚ Flps)} {x : Sim ℚ π} (h : Started cfg rs x) : Reachable cfg x := ⟨rs, x, [], h, rfl⟩

theorem after_reachable {cfg : Cfg ℚ π} {rs : List (Raw ℚ Flps)} {x : Sim ℚ π} (h : Started cfg rs x) (k : Nat) : Reachable cfg (after cfg x k) :=
  ⟨rs, x, _, h, rfl⟩

/-- **C68** What a transient simulation of a sensible file writes: after every step the records of the `step` points, after every slot those
of the `slot` points, at the end those of the `final` points; each shows the temperatures of that moment (C32 describes the records). -/
theorem C68_transient_outputs (h : Session w file s D an s0 log s') (hs : Sensible w.eff (filesOf w.read) s) (hm : ∀ x, w.mul10 x = x * 10)
    {step slot : ℚ} (ht : s.solver.kind = some (step, slot))
    (hW : ∃ t ∈ filePowers (filesOf w.read) s, t.length * an.slotLength < 2 ^ 32) :
    ∃ n, (∀ k, k < n → Succeeded (emulateStep (config w D an) (after (config w D an) s0 k)).1) ∧
      ((emulateStep (config w D an) (after (config w D an) s0 n)).1 = .endOfSimulation ∨
        (emulateStep (config w D an) (after (config w D an) s0 n)).1 = .solverError) ∧
      s' = after (config w D an) s0 (n + 1) ∧
      log = ((List.range n).flatMap fun k =>
          entries (config w D an) (after (config w D an) s0 (k + 1)) ((k + 1 : Nat) * step) (ofInstant .step (pointsOf D)) ++
          if an.slotLength ∣ k + 1 then entries (config w D an) (after (config w D an) s0 (k + 1)) ((k + 1 : Nat) * step) (ofInstant .slot (pointsOf D))
          else []) ++
        entries (config w D an) s' (n * step) (ofInstant .final (pointsOf D)) := by
  obtain ⟨raws, g1, -, -, g4, -⟩ := h.good hs
  obtain ⟨t1, t2, t3, t4⟩ := times_good hm h.times
  rcases t4 with ⟨t4, -⟩ | ⟨sl, t4, t5⟩
  · rw [h.means.times.1, ht] at t4; cases t4
  · rw [h.means.times.1, ht] at t4
    simp only [Option.some.injEq, Prod.mk.injEq] at t4
    rw [t4.1]
    exact C32_what_is_written g1 t5 t3 (points_sound h.means) (points_open (points_sound h.means) h.writable) (by rw [g4]; exact hW) h.emulated

/-- **C68** If the solver does not fail, the simulation lasts as many slots as the shortest list of power values of the floorplan files. -/
theorem C68_run_length (h : Session w file s D an s0 log s') (hs : Sensible w.eff (filesOf w.read) s) (hm : ∀ x, w.mul10 x = x * 10)
    {step slot : ℚ} (ht : s.solver.kind = some (step, slot))
    (hW : ∃ t ∈ filePowers (filesOf w.read) s, t.length * an.slotLength < 2 ^ 32) {n : Nat}
    (hok : ∀ k, k < n → Succeeded (emulateStep (config w D an) (after (config w D an) s0 k)).1)
    (hend : (emulateStep (config w D an) (after (config w D an) s0 n)).1 = .endOfSimulation) :
    (∃ t ∈ filePowers (filesOf w.read) s, n = t.length * an.slotLength) ∧ ∀ t ∈ filePowers (filesOf w.read) s, n ≤ t.length * an.slotLength := by
  obtain ⟨raws, g1, -, -, g4, -⟩ := h.good hs
  obtain ⟨t1, t2, t3, t4⟩ := times_good hm h.times
  rcases t4 with ⟨t4, -⟩ | ⟨sl, t4, t5⟩
  · rw [h.means.times.1, ht] at t4; cases t4
  · rw [← g4] at hW ⊢
    exact C32_run_length (canOpen := w.canOpen) g1 t5 t3 hW hok hend

/-- **C68** A steady simulation of a sensible file writes the records of the `final` points once. -/
theorem C68_steady_outputs (h : Session w file s D an s0 log s') (hs : Sensible w.eff (filesOf w.read) s) (hm : ∀ x, w.mul10 x = x * 10)
    (ht : s.solver.kind = none) :
    s' = (emulateSteady (config w D an) s0).2 ∧ log = entries (config w D an) s' 0 (ofInstant .final (pointsOf D)) := by
  obtain ⟨raws, g1, -, -, g4, -⟩ := h.good hs
  obtain ⟨t1, t2, t3, t4⟩ := times_good hm h.times
  rcases t4 with ⟨t4, t5⟩ | ⟨sl, t4, t5⟩
  · exact C32_steady g1 t5 (points_sound h.means) (points_open (points_sound h.means) h.writable) h.emulated
  · rw [h.means.times.1, ht] at t4; cases t4

end

end Verif.Prog
