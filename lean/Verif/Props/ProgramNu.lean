import Verif.Model.ProgramNu
import Verif.Props.ProgramAccept
import Verif.Props.NuSlots

/-! # C69: the program on a non-uniform grid, from the description files to the output files -/

set_option linter.unusedSectionVars false
set_option linter.unusedSimpArgs false
set_option linter.unusedVariables false

namespace Verif.Prog
open Verif.Gram Verif.Dim Verif.TG Verif.SM Verif.Stk Verif.FE Verif.Emu

variable {π : Type}

/-! ### Specification -/

/-- A session of the program: the file `file` contains the document `s`, which means `D` and asks for a non-uniform grid; the cells are those of
`G`; the simulation starts in the state `s0`, writes `log` and ends in the state `s'`. The connections between the cells are found by
threads, in an order of their own. -/
structure SessionNU (w : World π) (file : String) (s : StackD) (D : Desc NFlps) (an : Analysis ℚ) (G : NU.Grid ℚ) (s0 : NU.NSim ℚ π) (log : NLog)
    (s' : NU.NSim ℚ π) : Prop where
  file : Contains w file s
  means : Means nuReader w.eff (filesOf w.read) s D
  loaded : ∀ p, D.plugin = some p → w.canLoad p.1 = true
  times : Analysed w.mul10 D.init D.times an
  writable : headersNU w.canOpen D.points = true
  nonUniform : D.nonUniform = true
  grid : gridNU D = some G
  report : w.canOpen "conductance_layer.txt" = true
  started : ∃ q L, initPlugin w D an = some q ∧ NU.Runs (NU.regions G.d.nLayers G.ty G.ls) L ∧ startNU w an G L q = some s0
  emulated : EmulatedNU w.canOpen D.points (configNU w an) s0 log s'

/-- The same simulation, whatever the order in which the connections were found. -/
def SameSim (s s' : NU.NSim ℚ π) : Prop := s' = { s with conns := s'.conns }

/-! ### Proofs -/

theorem readInputNU_iff {w : World π} {file : String} {D : Desc NFlps} : readInputNU w file = some D ↔
    (∃ s, Contains w file s ∧ Means nuReader w.eff (filesOf w.read) s D) ∧ ∀ p, D.plugin = some p → w.canLoad p.1 = true := by
  unfold readInputNU Contains
  simp only [Option.bind_eq_some_iff]
  constructor
  · rintro ⟨t, ht, s, h1, D', h2, h3⟩
    have key : D' = D ∧ ∀ p, D.plugin = some p → w.canLoad p.1 = true := by
      cases hp : D'.plugin with
      | none => rw [hp] at h3; cases h3; exact ⟨rfl, fun p h => by rw [hp] at h; cases h⟩
      | some p =>
        rw [hp] at h3
        simp only at h3
        split_ifs at h3 with hc
        cases h3
        refine ⟨rfl, fun q h => ?_⟩
        rw [hp] at h; cases h; exact hc
    obtain ⟨rfl, hk⟩ := key
    exact ⟨⟨s, ⟨t, ht, h1⟩, (C67_meaning _ _ _ _ _).mp h2⟩, hk⟩
  · rintro ⟨⟨s, ⟨t, ht, h1⟩, h2⟩, hk⟩
    refine ⟨t, ht, s, h1, D, (C67_meaning _ _ _ _ _).mpr h2, ?_⟩
    cases hp : D.plugin with
    | none => rfl
    | some p => simp only; rw [if_pos (hk p hp)]

/-- **C69** The program succeeds exactly in the sessions described above; what it writes begins with `conductance_layer.txt`. -/
theorem C69_session {w : World π} {args : List String} {log : NLog} {o : Option (NU.NSim ℚ π)} :
    MainNU w args .success log o ↔
      ∃ file s D an G s0 log' s', args = [file] ∧ log = buildLog D ++ log' ∧ o = some s' ∧ SessionNU w file s D an G s0 log' s' := by
  constructor
  · intro h
    cases h with
    | ran h1 h2 h3 h4 h5 h6 h7 h8 h9 h10 =>
      obtain ⟨⟨s, hs, hm⟩, hp⟩ := readInputNU_iff.mp h1
      exact ⟨_, s, _, _, _, _, _, _, rfl, rfl, rfl, hs, hm, hp, h3, h5, h2, h6, h7, ⟨_, _, h4, h8, h9⟩, h10⟩
  · rintro ⟨file, s, D, an, G, s0, log', s', rfl, rfl, rfl, h1, h2, h3, h4, h5, h6, h7, h8, ⟨q, L, h9, h10, h11⟩, h12⟩
    exact .ran (readInputNU_iff.mpr ⟨⟨s, h1, h2⟩, h3⟩) h6 h4 h9 h5 h7 h8 h10 h11 h12

/-- **C69** If the program fails, it has simulated nothing; the only file it may have written is `conductance_layer.txt`. -/
theorem C69_failure {w : World π} {args : List String} {log : NLog} {o : Option (NU.NSim ℚ π)} (h : MainNU w args .failure log o) :
    o = none ∧ ∀ x ∈ log, x.file = "conductance_layer.txt" := by
  cases h <;> simp [buildLog]

/-! #### One outcome -/

theorem steady_conns (cfg : NU.NCfg ℚ π) (s : NU.NSim ℚ π) (L : List (NU.Conn ℚ)) :
    NU.steadyNU cfg { s with conns := L } = ((NU.steadyNU cfg s).1, { (NU.steadyNU cfg s).2 with conns := L }) := by
  cases hu : NU.updateSources s with
  | mk s1 ok =>
  have hu' : NU.updateSources { s with conns := L } = ({ s1 with conns := L }, ok) := by rw [NU.updateSources_conns, hu]
  unfold NU.steadyNU
  by_cases ht : cfg.an.type ≠ .steady
  · rw [if_pos ht, if_pos ht]
  · rw [if_neg ht, if_neg ht]
    simp only [hu, hu']
    cases htop : s.G.g.top with
    | none =>
      simp only
      cases ok with
      | false => rfl
      | true =>
        simp only [if_true]
        cases cfg.solve s1.mat ((List.range s1.G.ls.flatten.length).map fun i => s1.sources.getD i 0) <;> rfl
    | some t =>
      cases t with
      | ambient k =>
        simp only
        cases ok with
        | false => rfl
        | true =>
          simp only [if_true]
          cases cfg.solve s1.mat ((List.range s1.G.ls.flatten.length).map fun i => s1.sources.getD i 0) <;> rfl
      | pluggable a b => rfl

theorem loopNU_conns {canOpen : String → Bool} {ps : List (RPoint NFlps)} {an : Analysis ℚ} {f : NU.NSim ℚ π → SimResult × NU.NSim ℚ π}
    (L : List (NU.Conn ℚ)) (hf : ∀ s, f { s with conns := L } = ((f s).1, { (f s).2 with conns := L })) {s s' : NU.NSim ℚ π} {l : NLog}
    (h : LoopNU canOpen ps an f s l s') : LoopNU canOpen ps an f { s with conns := L } l { s' with conns := L } := by
  induction h with
  | stop h1 h2 h3 => exact .stop (by rw [hf, h1]) h2 h3
  | @again s r s1 l log s' h1 h2 h3 h4 _ ih =>
    exact .again (s1 := { s1 with conns := L }) (by rw [hf, h1]) h2 h3 h4 ih

theorem loopNU_det {canOpen : String → Bool} {ps : List (RPoint NFlps)} {an : Analysis ℚ} {f : NU.NSim ℚ π → SimResult × NU.NSim ℚ π}
    {s a b : NU.NSim ℚ π} {l l' : NLog} (h : LoopNU canOpen ps an f s l a) (h' : LoopNU canOpen ps an f s l' b) : l = l' ∧ a = b := by
  induction h generalizing l' with
  | stop h1 h2 h3 =>
    cases h' with
    | stop g1 g2 g3 => rw [h1] at g1; cases g1; rw [h3] at g3; cases g3; exact ⟨rfl, rfl⟩
    | again g1 g2 g3 _ _ => rw [h1] at g1; cases g1; rcases h2 with h2 | h2 <;> contradiction
  | again h1 h2 h3 h4 _ ih =>
    cases h' with
    | stop g1 g2 g3 => rw [h1] at g1; cases g1; rcases g2 with g2 | g2 <;> contradiction
    | again g1 g2 g3 g4 g5 =>
      rw [h1] at g1; cases g1
      rw [h4] at g4; cases g4
      obtain ⟨rfl, rfl⟩ := ih g5
      exact ⟨rfl, rfl⟩

theorem emulateNU_conns {cfg : NU.NCfg ℚ π} {f : NU.NSim ℚ π → SimResult × NU.NSim ℚ π} (h : emulateNU cfg = some f) (s : NU.NSim ℚ π) (L : List (NU.Conn ℚ)) :
    f { s with conns := L } = ((f s).1, { (f s).2 with conns := L }) := by
  unfold emulateNU at h
  cases ht : cfg.an.type <;> rw [ht] at h <;> simp only [Option.some.injEq, reduceCtorEq] at h
  · subst h; exact NU.step_conns cfg s L
  · subst h; exact steady_conns cfg s L

theorem emulatedNU_det {canOpen : String → Bool} {ps : List (RPoint NFlps)} {cfg : NU.NCfg ℚ π} {s a b : NU.NSim ℚ π} {L : List (NU.Conn ℚ)} {l l' : NLog}
    (h : EmulatedNU canOpen ps cfg s l a) (h' : EmulatedNU canOpen ps cfg { s with conns := L } l' b) : l = l' ∧ b = { a with conns := L } := by
  obtain ⟨f, x, y, h1, h2, h3, rfl⟩ := h
  obtain ⟨f', x', y', h1', h2', h3', rfl⟩ := h'
  rw [h1] at h1'; cases h1'
  obtain ⟨rfl, rfl⟩ := loopNU_det (loopNU_conns L (fun s => emulateNU_conns h1 s L) h2) h2'
  have h3'' : outputNU canOpen ps cfg.an a .final = some y' := h3'
  rw [h3] at h3''; cases h3''
  exact ⟨rfl, rfl⟩

/-- **C69** What the program does is determined by its arguments and by what surrounds it, and not by the order in which the threads find the
connections. -/
theorem C69_one_outcome {w : World π} {args : List String} {st st' : Status} {log log' : NLog} {o o' : Option (NU.NSim ℚ π)} (h : MainNU w args st log o)
    (h' : MainNU w args st' log' o') :
    st = st' ∧ log = log' ∧ ((o = none ∧ o' = none) ∨ ∃ s s', o = some s ∧ o' = some s' ∧ SameSim s s') := by
  have fin : ∀ {file D an D' an'}, readInputNU w file = some D → readInputNU w file = some D' → Analysed w.mul10 D.init D.times an →
      Analysed w.mul10 D'.init D'.times an' → D = D' ∧ an = an' := by
    intro file D an D' an' h1 h2 h3 h4
    rw [h1] at h2; cases h2
    exact ⟨rfl, analysed_det h3 h4⟩
  have sch : ∀ {an : Analysis ℚ} {G : NU.Grid ℚ} {L L' q}, NU.Runs (NU.regions G.d.nLayers G.ty G.ls) L → NU.Runs (NU.regions G.d.nLayers G.ty G.ls) L' →
      startNU w an G L q = none → startNU w an G L' q = none := by
    intro an G L L' q hL hL' hs
    have := NU.C60_schedule_builds (cfg := configNU w an) (q := q) hL hL'
    unfold startNU at hs ⊢
    rw [hs] at this
    cases hb : NU.buildSim (configNU w an) G L' q with
    | none => rfl
    | some x => rw [hb] at this; cases this
  have none2 : ∀ {log log' : NLog}, log = log' → (Status.failure = Status.failure ∧ log = log' ∧
      (((none : Option (NU.NSim ℚ π)) = none ∧ (none : Option (NU.NSim ℚ π)) = none) ∨
        ∃ s s' : NU.NSim ℚ π, none = some s ∧ none = some s' ∧ SameSim s s')) := fun e => ⟨rfl, e, .inl ⟨rfl, rfl⟩⟩
  cases h with
  | usage hl => cases h' <;> first | exact none2 rfl | (exact absurd rfl hl)
  | refused h1 =>
    cases h' with
    | refused => exact none2 rfl
    | usage => exact none2 rfl
    | noPlugin g1 => rw [h1] at g1; cases g1
    | unwritable g1 => rw [h1] at g1; cases g1
    | noGrid g1 => rw [h1] at g1; cases g1
    | unbuilt g1 => rw [h1] at g1; cases g1
    | ran g1 => rw [h1] at g1; cases g1
  | noPlugin h1 h2 h3 h4 =>
    cases h' with
    | refused => exact none2 rfl
    | usage => exact none2 rfl
    | noPlugin g1 => exact none2 rfl
    | unwritable g1 => exact none2 rfl
    | noGrid g1 g2 g3 g4 => obtain ⟨rfl, rfl⟩ := fin h1 g1 h3 g3; rw [h4] at g4; cases g4
    | unbuilt g1 g2 g3 g4 => obtain ⟨rfl, rfl⟩ := fin h1 g1 h3 g3; rw [h4] at g4; cases g4
    | ran g1 g2 g3 g4 => obtain ⟨rfl, rfl⟩ := fin h1 g1 h3 g3; rw [h4] at g4; cases g4
  | unwritable h1 h2 h3 h4 h5 =>
    cases h' with
    | refused => exact none2 rfl
    | usage => exact none2 rfl
    | noPlugin g1 => exact none2 rfl
    | unwritable g1 => exact none2 rfl
    | noGrid g1 g2 g3 g4 g5 => obtain ⟨rfl, rfl⟩ := fin h1 g1 h3 g3; rw [h5] at g5; cases g5
    | unbuilt g1 g2 g3 g4 g5 => obtain ⟨rfl, rfl⟩ := fin h1 g1 h3 g3; rw [h5] at g5; cases g5
    | ran g1 g2 g3 g4 g5 => obtain ⟨rfl, rfl⟩ := fin h1 g1 h3 g3; rw [h5] at g5; cases g5
  | noGrid h1 h2 h3 h4 h5 h6 h7 h8 =>
    cases h' with
    | usage hl => exact absurd rfl hl
    | refused g1 => rw [h1] at g1; cases g1
    | noPlugin g1 g2 g3 g4 => obtain ⟨rfl, rfl⟩ := fin h1 g1 h3 g3; rw [h4] at g4; cases g4
    | unwritable g1 g2 g3 g4 g5 => obtain ⟨rfl, rfl⟩ := fin h1 g1 h3 g3; rw [h5] at g5; cases g5
    | noGrid g1 g2 g3 => obtain ⟨rfl, rfl⟩ := fin h1 g1 h3 g3; exact none2 rfl
    | unbuilt g1 g2 g3 => obtain ⟨rfl, rfl⟩ := fin h1 g1 h3 g3; exact none2 rfl
    | ran g1 g2 g3 g4 g5 g6 => obtain ⟨rfl, rfl⟩ := fin h1 g1 h3 g3; rw [h8] at g6; cases g6
  | unbuilt h1 h2 h3 h4 h5 h6 h7 h8 h9 =>
    cases h' with
    | usage hl => exact absurd rfl hl
    | refused g1 => rw [h1] at g1; cases g1
    | noPlugin g1 g2 g3 g4 => obtain ⟨rfl, rfl⟩ := fin h1 g1 h3 g3; rw [h4] at g4; cases g4
    | unwritable g1 g2 g3 g4 g5 => obtain ⟨rfl, rfl⟩ := fin h1 g1 h3 g3; rw [h5] at g5; cases g5
    | noGrid g1 g2 g3 => obtain ⟨rfl, rfl⟩ := fin h1 g1 h3 g3; exact none2 rfl
    | unbuilt g1 g2 g3 => obtain ⟨rfl, rfl⟩ := fin h1 g1 h3 g3; exact none2 rfl
    | ran g1 g2 g3 g4 g5 g6 g7 g8 g9 =>
      obtain ⟨rfl, rfl⟩ := fin h1 g1 h3 g3
      rw [h4] at g4; cases g4
      rw [h6] at g6; cases g6
      rw [sch h8 g8 h9] at g9; cases g9
  | ran h1 h2 h3 h4 h5 h6 h7 h8 h9 h10 =>
    cases h' with
    | usage hl => exact absurd rfl hl
    | refused g1 => rw [h1] at g1; cases g1
    | noPlugin g1 g2 g3 g4 => obtain ⟨rfl, rfl⟩ := fin h1 g1 h3 g3; rw [h4] at g4; cases g4
    | unwritable g1 g2 g3 g4 g5 => obtain ⟨rfl, rfl⟩ := fin h1 g1 h3 g3; rw [h5] at g5; cases g5
    | noGrid g1 g2 g3 g4 g5 g6 g7 g8 => obtain ⟨rfl, rfl⟩ := fin h1 g1 h3 g3; rw [h6] at g8; cases g8
    | unbuilt g1 g2 g3 g4 g5 g6 g7 g8 g9 =>
      obtain ⟨rfl, rfl⟩ := fin h1 g1 h3 g3
      rw [h4] at g4; cases g4
      rw [h6] at g6; cases g6
      rw [sch g8 h8 g9] at h9; cases h9
    | ran g1 g2 g3 g4 g5 g6 g7 g8 g9 g10 =>
      obtain ⟨rfl, rfl⟩ := fin h1 g1 h3 g3
      rw [h4] at g4; cases g4
      rw [h6] at g6; cases g6
      have hs := (NU.C60_schedule_independent h8 g8 h9 g9 []).2
      simp only [NU.run] at hs
      rw [hs] at g10
      obtain ⟨rfl, hb⟩ := emulatedNU_det h10 g10
      refine ⟨rfl, rfl, .inr ⟨_, _, rfl, rfl, ?_⟩⟩
      unfold SameSim
      rw [hb]

/-! #### The text of the files -/

/-- The materials of the elements are looked up by name. -/
theorem nElems_lookup {D : Desc NFlps} {ms : Table (Material ℚ)} (h : ∀ n, lookup ms n = lookup D.mats n) : nElems { D with mats := ms } = nElems D := by
  have : elOf ms = elOf D.mats := by
    funext f
    unfold elOf
    split <;> simp only [h]
  unfold nElems
  simp only [this]

theorem lookup_same {ms ms' : List MatD} {t t' : Table (Material ℚ)} (hp : ms.Perm ms') (hn : (ms.map (·.id)).Nodup) (h : Declared ms t) (h' : Declared ms' t') :
    ∀ n, lookup t' n = lookup t n := by
  have ht : t = named ms := declared_iff.mp h
  have ht' : t' = named ms' := declared_iff.mp h'
  have hpt : t.Perm t' := by rw [ht, ht']; exact hp.map _
  have hk : t.map (·.1) = ms.map (·.id) := by rw [ht]; unfold named; rw [List.map_map]; rfl
  have hnt : (t.map (·.1)).Nodup := by rw [hk]; exact hn
  have hnt' : (t'.map (·.1)).Nodup := (hpt.map _).nodup_iff.mp hnt
  intro n
  apply Option.ext
  intro v
  rw [lookup_iff hnt, lookup_iff hnt']
  exact hpt.symm.mem_iff

/-- The same description, but for the order of the materials. -/
theorem readInputNU_text {w : World π} {read' : String → Option (List Char)} {file : String} {text text' : List Char} (h1 : w.read file = some text)
    (h2 : read' file = some text') (h : SameContent w.read read' text text') {D : Desc NFlps} (hD : readInputNU w file = some D) :
    ∃ ms, readInputNU { w with read := read' } file = some { D with mats := ms } ∧ ∀ n, lookup ms n = lookup D.mats n := by
  have e1 := C66_text_partial h.ok h.written
  have e2 := C66_text_partial h.ok' h.written'
  obtain ⟨⟨s, ⟨t, ht, hs⟩, hM⟩, hp⟩ := readInputNU_iff.mp hD
  rw [h1] at ht; cases ht
  rw [e1] at hs; cases hs
  have hd : describe nuReader w.eff (filesOf w.read) h.s = some D := (C67_meaning _ _ _ _ _).mpr hM
  have ho := C67_order nuReader w.eff h.files h.same
  rw [← C67_shorthand] at hd
  rw [hd, Option.map_some] at ho
  obtain ⟨D', hd', hDD⟩ := Option.map_eq_some_iff.mp ho.symm
  have hM' := (C67_meaning _ _ _ _ _).mp hd'
  have hM0 := (C67_meaning _ _ _ _ _).mp hd
  have heq : D' = { D with mats := D'.mats } := by
    obtain ⟨_, _, _, _, _, _, _, _, _, _, _, _⟩ := D
    obtain ⟨_, _, _, _, _, _, _, _, _, _, _, _⟩ := D'
    cases hDD
    rfl
  refine ⟨D'.mats, ?_, lookup_same h.same.mats hM0.matNames hM0.mats hM'.mats⟩
  rw [C67_shorthand] at hd'
  refine readInputNU_iff.mpr ⟨⟨h.s', ⟨text', h2, e2⟩, ?_⟩, hp⟩
  rw [← heq]
  exact (C67_meaning _ _ _ _ _).mp hd'

theorem main_text {w : World π} {read' : String → Option (List Char)} {file : String} {text text' : List Char} (h1 : w.read file = some text)
    (h2 : read' file = some text') (h : SameContent w.read read' text text') (h' : SameContent read' w.read text' text) {st : Status} {log : NLog}
    {o : Option (NU.NSim ℚ π)} (hm : MainNU w [file] st log o) : MainNU { w with read := read' } [file] st log o := by
  have get : ∀ {D}, readInputNU w file = some D → ∃ ms, readInputNU { w with read := read' } file = some { D with mats := ms } ∧
      nElems { D with mats := ms } = nElems D := by
    intro D hD
    obtain ⟨ms, a, b⟩ := readInputNU_text h1 h2 h hD
    exact ⟨ms, a, nElems_lookup b⟩
  have hlog : ∀ {D : Desc NFlps} {ms}, nElems { D with mats := ms } = nElems D → buildLog { D with mats := ms } = buildLog D := by
    intro D ms e; unfold buildLog; rw [e]
  have hgrid : ∀ {D : Desc NFlps} {ms}, nElems { D with mats := ms } = nElems D → gridNU { D with mats := ms } = gridNU D := by
    intro D ms e; unfold gridNU; rw [e]
  cases hm with
  | usage hl => exact absurd rfl hl
  | refused g =>
    refine .refused ?_
    by_contra hc
    obtain ⟨D, hD⟩ := Option.ne_none_iff_exists'.mp hc
    obtain ⟨ms, a, -⟩ := readInputNU_text (w := { w with read := read' }) h2 h1 h' hD
    have a' : readInputNU w file = some { D with mats := ms } := a
    rw [g] at a'; cases a'
  | noPlugin g1 g2 g3 g4 =>
    obtain ⟨ms, a, e⟩ := get g1
    exact .noPlugin a g2 g3 g4
  | unwritable g1 g2 g3 g4 g5 =>
    obtain ⟨ms, a, e⟩ := get g1
    exact .unwritable a g2 g3 g4 g5
  | noGrid g1 g2 g3 g4 g5 g6 g7 g8 =>
    obtain ⟨ms, a, e⟩ := get g1
    rw [← hlog e]
    exact .noGrid a g2 g3 g4 g5 g6 g7 (by rw [hgrid e]; exact g8)
  | unbuilt g1 g2 g3 g4 g5 g6 g7 g8 g9 =>
    obtain ⟨ms, a, e⟩ := get g1
    rw [← hlog e]
    exact .unbuilt a g2 g3 g4 g5 (by rw [hgrid e]; exact g6) g7 g8 g9
  | ran g1 g2 g3 g4 g5 g6 g7 g8 g9 g10 =>
    obtain ⟨ms, a, e⟩ := get g1
    rw [← hlog e]
    exact .ran a g2 g3 g4 g5 (by rw [hgrid e]; exact g6) g7 g8 g9 g10

/-- **C69** The layout of the files and the order of the declarations change neither the exit status nor the outputs. -/
theorem C69_text {w : World π} {read' : String → Option (List Char)} {file : String} {text text' : List Char} (h1 : w.read file = some text)
    (h2 : read' file = some text') (h : SameContent w.read read' text text') {st : Status} {log : NLog} {o : Option (NU.NSim ℚ π)} :
    MainNU w [file] st log o ↔ MainNU { w with read := read' } [file] st log o := by
  have h' : SameContent read' w.read text' text := ⟨h.s', h.s, h.ok', h.ok, h.written', h.written, h.same.symm, h.files.symm⟩
  exact ⟨main_text h1 h2 h h', main_text (w := { w with read := read' }) h2 h1 h' h⟩

/-! #### The two modes -/

theorem reader_ok {φ : Type} {R : Reader φ} {eff : Bool → ℚ → ℚ} {files : Files} {s : StackD} {D : Desc φ} (M : Means R eff files s D) :
    ∃ d, dimsOf s.dims s.chan = some d ∧ (∃ n hs k, D.parsed.dims = { d with nLayers := n, heights := hs, nCells := k }) ∧
      ∀ id ref p o fs, ElD.die id ref p o ∈ s.elems → files.flp p = some fs → ∃ y, R.read d fs = some y := by
  obtain ⟨walls, d, spr, hwl, hd, -, -, -, -, -, raws, he, hp⟩ := M.stack
  obtain ⟨es, n, -, -, -, -, -, -, -, hdim, -⟩ := parseStack_spec hp
  refine ⟨d, by rw [dimsOf_iff, ← walls_iff.mp hwl, hd], ⟨_, _, _, hdim⟩, ?_⟩
  intro id ref p o fs hel hf
  obtain ⟨r, -, q, f, y, -, h1, h2, -⟩ := forall₂_mem_left he hel
  rw [hf] at h1; cases h1
  exact ⟨y, h2⟩

theorem elemMap_id {φ : Type} (e : SElem ℚ φ) : elemMap id e = e := by
  obtain ⟨i, b, o⟩ := e; cases b <;> rfl

theorem descMap_id {φ : Type} (D : Desc φ) : descMap id D = D := by
  have h1 : elemMap (ψ := φ) (id : φ → φ) = id := funext elemMap_id
  have h2 : pointMap (ψ := φ) (id : φ → φ) = id := by
    funext p
    obtain ⟨i, q, f, t⟩ := p
    cases t <;> simp [pointMap, targetMap, h1]
  unfold descMap parsedMap
  rw [h1, h2, List.map_id, List.map_id]

theorem onGrid_dims {d d' : Dims ℚ} (h : ∃ n hs k, d' = { d with nLayers := n, heights := hs, nCells := k }) (fs : List FlpD) : onGrid d' fs = onGrid d fs := by
  obtain ⟨n, hs, k, rfl⟩ := h
  rfl

theorem both_readers {eff : Bool → ℚ → ℚ} {files : Files} {s : StackD} {d : Dims ℚ} (hd : dimsOf s.dims s.chan = some d)
    (hr : ∀ id ref p o fs, ElD.die id ref p o ∈ s.elems → files.flp p = some fs → ∃ y, uniformReader.read d fs = some y) :
    describe uniformReader eff files s = (describe nuReader eff files s).map (descMap (onGrid d)) := by
  have hu := describe_map (eff := eff) (files := files) (s := s) (Q := uniformReader) (g := onGrid d) (fun x => onGrid_names _ x) (by
    intro d' hd' id ref p o fs hel hf
    rw [hd] at hd'; cases hd'
    obtain ⟨y, hy⟩ := hr id ref p o fs hel hf
    have hy' : Flp.parseFloorplan d (elRaws fs) = some y := hy
    rw [hy]
    unfold onGrid
    rw [hy']; rfl)
  have hn := describe_map (eff := eff) (files := files) (s := s) (Q := nuReader) (g := id) (fun x => rfl) (by
    intro d' hd' i ref p o fs hel hf
    rw [hd] at hd'; cases hd'
    obtain ⟨y, hy⟩ := hr i ref p o fs hel hf
    show (uniformReader.read d fs).map (fun _ => fs) = some fs
    rw [hy]; rfl)
  have : (fun D : Desc (List FlpD) => descMap id D) = id := funext descMap_id
  rw [show descMap (φ := List FlpD) (id : List FlpD → List FlpD) = id from this, Option.map_id] at hn
  rw [hu, hn]; rfl

theorem nuReader_read {d : Dims ℚ} {fs : List FlpD} {y : NFlps} (h : nuReader.read d fs = some y) : ∃ z, uniformReader.read d fs = some z := by
  obtain ⟨z, hz, -⟩ := Option.map_eq_some_iff.mp (show (uniformReader.read d fs).map (fun _ => fs) = some y from h)
  exact ⟨z, hz⟩

theorem descMap_eq {k l : List FlpD → Flps} (D : Desc NFlps) (h : k = l) : descMap k D = descMap l D := by
  subst h; rfl

theorem map_same {f g : Desc NFlps → Desc Flps} {o : Option (Desc NFlps)} (h : ∀ D, o = some D → f D = g D) : o.map f = o.map g := by
  cases o with
  | none => rfl
  | some D => exact congrArg some (h D rfl)

theorem map_onGrid {d : Dims ℚ} {o : Option (Desc NFlps)} (h : ∀ D, o = some D → onGrid d = onGrid D.parsed.dims) :
    o.map (descMap (onGrid d)) = o.map fun D => descMap (onGrid D.parsed.dims) D := map_same fun D hD => descMap_eq D (h D hD)

theorem describe_onGrid {eff : Bool → ℚ → ℚ} {files : Files} {s : StackD} {d : Dims ℚ} (hd : dimsOf s.dims s.chan = some d) (D : Desc NFlps)
    (h : describe nuReader eff files s = some D) : onGrid d = onGrid D.parsed.dims := by
  obtain ⟨d', hd', hdim, -⟩ := reader_ok ((C67_meaning _ _ _ _ _).mp h)
  rw [hd] at hd'
  have e : d = d' := Option.some.inj hd'
  rw [e]
  exact funext fun fs => (onGrid_dims hdim fs).symm

theorem describe_both (eff : Bool → ℚ → ℚ) (files : Files) (s : StackD) :
    describe uniformReader eff files s = (describe nuReader eff files s).map fun D => descMap (onGrid D.parsed.dims) D := by
  have fin : ∀ {d}, dimsOf s.dims s.chan = some d → (∀ id ref p o fs, ElD.die id ref p o ∈ s.elems → files.flp p = some fs →
      ∃ y, uniformReader.read d fs = some y) → describe uniformReader eff files s = (describe nuReader eff files s).map fun D => descMap (onGrid D.parsed.dims) D := by
    intro d hd hr
    exact (both_readers hd hr).trans (map_onGrid fun D h => describe_onGrid hd D h)
  rcases Option.eq_none_or_eq_some (describe uniformReader eff files s) with h | ⟨D, h⟩
  · rcases Option.eq_none_or_eq_some (describe nuReader eff files s) with h' | ⟨D, h'⟩
    · rw [h, h']; rfl
    · obtain ⟨d, hd, -, hr⟩ := reader_ok ((C67_meaning _ _ _ _ _).mp h')
      exact fin hd fun id ref p o fs hel hf => by
        obtain ⟨y, hy⟩ := hr id ref p o fs hel hf
        exact nuReader_read hy
  · obtain ⟨d, hd, -, hr⟩ := reader_ok ((C67_meaning _ _ _ _ _).mp h)
    exact fin hd hr

/-- **C69** The files that are accepted, and what they mean, do not depend on the mode: the floorplans of the uniform grid are those of the
description, placed on the rows and columns. -/
theorem C69_same_input (w : World π) (file : String) :
    readInput w file = (readInputNU w file).map fun D => descMap (onGrid D.parsed.dims) D := by
  unfold readInput load readInputNU
  cases w.read file with
  | none => rfl
  | some text =>
    simp only [Option.bind_some]
    cases parseStackFile (Scan.scan Scan.stackRules .initial text) with
    | none => rfl
    | some s =>
      simp only [Option.bind_some, describe_both]
      cases describe nuReader w.eff (filesOf w.read) s with
      | none => rfl
      | some D =>
        simp only [Option.map_some, Option.bind_some]
        have : (descMap (onGrid D.parsed.dims) D).plugin = D.plugin := rfl
        rw [this]
        cases D.plugin with
        | none => rfl
        | some p => simp only; split_ifs <;> rfl

/-- **C69** The file decides in which mode the program runs: it never has a simulation in both. -/
theorem C69_one_mode {w : World π} {args : List String} {l : Out.Log ℚ} {o : Option (Sim ℚ π)} {l' : NLog} {o' : Option (NU.NSim ℚ π)}
    (h : Main w args .success l o) : ¬ MainNU w args .success l' o' := by
  intro h'
  cases h with
  | ran h1 h2 h3 h4 h5 h6 h7 =>
    cases h' with
    | ran g1 g2 g3 g4 g5 g6 g7 g8 g9 g10 =>
      rw [C69_same_input, g1, Option.map_some] at h1
      cases h1
      exact absurd (g2.symm.trans h5) (by decide)

end Verif.Prog
