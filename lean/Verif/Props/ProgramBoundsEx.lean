import Verif.Props.ProgramBounds
import Verif.Props.ProgramEx

/-! **C75** Examples: two sets of files that meet the hypotheses of the theorems, from the text on. -/

set_option linter.unusedSectionVars false
set_option linter.unusedSimpArgs false
set_option linter.unusedVariables false

namespace Verif.Prog
open Verif.Gram Verif.Dim Verif.TG Verif.SM Verif.Stk Verif.FE Verif.Out Verif.Emu Verif.Flp

/-- The files of the dry chip of `Props/ProgramEx` with more power. -/
def hotFiles : Files where
  flp p := if p = "core.flp" then some [⟨"A", .one 0 0 500 500 none none, [4, 2]⟩, ⟨"B", .one 500 0 500 500 (some "SI") (some (2, 2)), [3]⟩] else none
  lay p := exFiles.lay p

/-- The dry chip in a hotter room; only the final temperatures of one layer are wanted. -/
def hotDoc (k : Option (ℚ × ℚ)) : StackD :=
  { dryDoc k with top := some (.conv ⟨1, 320⟩), bottom := some ⟨2, 301⟩, points := [.tmap "L" "m.txt" .unsaid], solver := ⟨k, 305, none⟩ }

theorem hot_sensible (k : Option (ℚ × ℚ)) : Sensible eff1 hotFiles (hotDoc k) := by
  have h := dryDoc_sensible k
  refine ⟨h.1, h.2, h.3, h.4, h.5, h.6, h.7, h.8, ?_, ?_, ?_⟩
  · intro t e; cases e; norm_num [GoodTop]
  · intro b e; cases e; norm_num
  · intro id ref p o f h1 h2
    by_cases hp : p = "core.flp"
    · subst hp
      simp [hotFiles] at h2
      subst h2
      simp [areaRects, GoodRect, hotDoc, dryDoc]
      norm_num
    · simp [hotFiles, hp] at h2

/-- A session on a set of files. -/
structure RunOn (F : Files) (s : StackD) (w : World Unit) (D : Desc Flps) (an : Analysis ℚ) (s0 : Sim ℚ Unit) (log : Log ℚ) (s' : Sim ℚ Unit) : Prop where
  session : Session w "s.stk" s D an s0 log s'
  sensible : Sensible w.eff (filesOf w.read) s
  times10 : ∀ x, w.mul10 x = x * 10
  correct : Correct (config w D an)
  finds : Finds (config w D an)
  plugin : ∀ q t f, (w.plugin q t f).2 ≠ none
  same : SameFiles s (filesOf w.read) F

theorem run_on {F : Files} {s : StackD} (hok : s.Ok) (hchk : s.toks.all (Scan.check Scan.stackLex) = true) (hs : Sensible eff1 F s)
    (hflp : ∀ id ref p o, ElD.die id ref p o ∈ s.elems → p = "core.flp") (hlay : ∀ l ∈ s.layers, ∀ p, l.layout = some p → p = "pcb.lay")
    {f : List FlpD} {l : LayoutD} (hf : F.flp "core.flp" = some f) (hl : F.lay "pcb.lay" = some l)
    (hf1 : f ≠ [] ∧ ∀ x ∈ f, x.area.Ok) (hf2 : (f.flatMap FlpD.toks).all (Scan.check Scan.flpLex) = true)
    (hl1 : l.areas ≠ [] ∧ ∀ a ∈ l.areas, a.2.Ok) (hl2 : l.toks.all (Scan.check Scan.layLex) = true)
    (hD : ((describe plainReader eff1 F s).bind fun D => fillGrid D.parsed.dims.nLayers D.parsed.elems D.top D.bottom).isSome = true)
    (hu : s.dims.nonUniform ≠ some true)
    (ht : ∀ step slot, s.solver.kind = some (step, slot) →
      ∃ k, Solver.HasDecimals k step ∧ Solver.HasDecimals k slot ∧ slot * 10 ^ k < (4294967296 : Nat)) :
    ∃ w D an s0 log s', RunOn F s w D an s0 log s' := by
  obtain ⟨g, hD⟩ := Option.isSome_iff_exists.mp hD
  obtain ⟨D, hD, hg⟩ := Option.bind_eq_some_iff.mp hD
  obtain ⟨flp, h1⟩ := C66_every_floorplan (fs := f) hf1 (fun t ht => Scan.check_free (List.all_eq_true.mp hf2 t ht))
  obtain ⟨lay, h2⟩ := C66_every_layout (l := l) hl1 (fun t ht => Scan.check_free (List.all_eq_true.mp hl2 t ht))
  obtain ⟨stk, hstk⟩ := C66_every_document hok (fun t ht => Scan.check_free (List.all_eq_true.mp hchk t ht))
  have hsame : SameFiles s (filesOf (exWorld D.parsed.dims.nCells stk flp [] lay).read) F :=
    ⟨fun id ref p o h => by rw [hflp id ref p o h, hf]; exact h1, fun l' hl' p h => by rw [hlay l' hl' p h, hl]; exact h2⟩
  generalize hw : exWorld D.parsed.dims.nCells stk flp [] lay = w at hsame
  have heff : w.eff = eff1 := by rw [← hw]; rfl
  have hsen : Sensible w.eff (filesOf w.read) s := by rw [heff]; exact sensible_files hsame hs
  have hm : ∀ x, w.mul10 x = x * 10 := by intro x; rw [← hw]; rfl
  have hc : Contains w "s.stk" s := ⟨stk, by rw [← hw]; rfl, hstk⟩
  have M : Means plainReader w.eff (filesOf w.read) s D := by
    rw [← C67_meaning, heff, describe_files _ _ hsame]; exact hD
  obtain ⟨an, s0, log, s', h, -⟩ := C68_runs hm hc hsen M hg hu ht (by intro f; rw [← hw]; rfl) (by intro f; rw [← hw]; rfl)
    (by intro f; rw [← hw]; rfl) (by intro f a; rw [← hw]; exact ⟨(), rfl⟩)
  refine ⟨w, _, an, s0, log, s', h, hsen, hm, ?_, ?_, ?_, hsame⟩
  · intro A b x hx
    have hx' : w.solve A b = some x := hx
    rw [← hw] at hx'
    exact exactSolve_correct hx'
  · intro A b _ h1
    obtain ⟨x, hx⟩ := exactSolve_some h1
    refine ⟨x, ?_⟩
    show w.solve A b = some x
    rw [← hw]; exact hx
  · intro q t f; rw [← hw]; simp [exWorld]

section
variable {F : Files} {s : StackD} {w : World Unit} {D : Desc Flps} {an : Analysis ℚ} {s0 : Sim ℚ Unit} {log : Log ℚ} {s' : Sim ℚ Unit}

theorem run_slot (E : RunOn F s w D an s0 log s') (ht : s.solver.kind = some (1 / 50, 1 / 5)) : an.slotLength = 10 := by
  have h := E.session.times
  rw [E.session.means.times.1, ht] at h
  have hm : w.mul10 = (· * 10) := funext E.times10
  rw [hm] at h
  obtain ⟨k, k1, k2, k3⟩ := decimals
  have h0 := ((Solver.C37_slot_length_partial k1 k2 k3).1 ⟨by norm_num, by norm_num⟩).1
  have := analysed_det h (.transient h0)
  rw [this]
  have e : ((1 / 5 : ℚ) / (1 / 50)) = ((10 : Nat) : ℚ) := by norm_num
  first | rfl | (simp only [e, Nat.floor_natCast])

theorem run_ten (E : RunOn F s w D an s0 log s') (ht : s.solver.kind = some (1 / 50, 1 / 5)) {ps : List (List ℚ)} (hp : filePowers F s = ps)
    (h1 : ∃ t ∈ ps, t.length = 1) (h2 : ∀ t ∈ ps, 1 ≤ t.length) :
    ∀ k, k < 10 → Succeeded (emulateStep (config w D an) (after (config w D an) s0 k)).1 := by
  have hsl := run_slot E ht
  obtain ⟨t0, ht0, hl0⟩ := h1
  obtain ⟨n, ⟨⟨t, k1, k2⟩, k3⟩, h4, -, h5, -⟩ := C68_whole_run E.session E.sensible E.times10 ht E.finds E.plugin
    ⟨t0, by rw [powers_files E.same, hp]; exact ht0, by rw [hsl, hl0]; norm_num⟩
  have hn : n = 10 := by
    rw [powers_files E.same, hp] at k1 k3
    have a1 := k3 t0 ht0
    have a2 := h2 t k1
    rw [hsl] at a1 k2
    rw [hl0] at a1
    omega
  subst hn
  exact h4

end

theorem dry_on (k : Option (ℚ × ℚ)) (hk : k = none ∨ k = some (1 / 50, 1 / 5)) : ∃ w D an s0 log s', RunOn progFiles (dryDoc k) w D an s0 log s' := by
  refine run_on (by rcases hk with rfl | rfl <;> exact ⟨by decide, by decide, by decide⟩) (by rcases hk with rfl | rfl <;> decide +kernel) (dryDoc_sensible k)
    ?_ ?_ (f := [⟨"A", .one 0 0 500 500 none none, [1, 2]⟩, ⟨"B", .one 500 0 500 500 (some "SI") (some (2, 2)), [3]⟩]) rfl rfl
    ⟨by simp, by simp [AreaD.Ok]⟩ (by decide +kernel) ⟨by simp, by simp [LAreaD.Ok]⟩ (by decide +kernel) (by rcases hk with rfl | rfl <;> decide +kernel)
    (by simp [dryDoc]) ?_
  · intro id ref p o h
    simp [dryDoc] at h
    exact h.2.2.1
  · simp [exDoc, dryDoc]
  · intro step slot h
    rcases hk with rfl | rfl
    · cases h
    · cases h; exact decimals

theorem hot_on (k : Option (ℚ × ℚ)) (hk : k = none ∨ k = some (1 / 50, 1 / 5)) : ∃ w D an s0 log s', RunOn hotFiles (hotDoc k) w D an s0 log s' := by
  refine run_on (by rcases hk with rfl | rfl <;> exact ⟨by decide, by decide, by decide⟩) (by rcases hk with rfl | rfl <;> decide +kernel) (hot_sensible k)
    ?_ ?_ (f := [⟨"A", .one 0 0 500 500 none none, [4, 2]⟩, ⟨"B", .one 500 0 500 500 (some "SI") (some (2, 2)), [3]⟩]) rfl rfl
    ⟨by simp, by simp [AreaD.Ok]⟩ (by decide +kernel) ⟨by simp, by simp [LAreaD.Ok]⟩ (by decide +kernel) (by rcases hk with rfl | rfl <;> decide +kernel)
    (by simp [hotDoc, dryDoc]) ?_
  · intro id ref p o h
    simp [hotDoc, dryDoc] at h
    exact h.2.2.1
  · simp [exDoc, dryDoc, hotDoc]
  · intro step slot h
    rcases hk with rfl | rfl
    · cases h
    · cases h; exact decimals

theorem hot_warmer {w w' : World Unit} {k : Option (ℚ × ℚ)} (h : SameFiles (dryDoc k) (filesOf w.read) progFiles) (h' : SameFiles (hotDoc k) (filesOf w'.read) hotFiles) :
    Warmer (filesOf w.read) (filesOf w'.read) (dryDoc k) (hotDoc k) := by
  refine ⟨rfl, rfl, rfl, rfl, rfl, ⟨rfl, rfl⟩, rfl, by norm_num [dryDoc, hotDoc], .inr ⟨_, _, rfl, rfl, by norm_num [WarmerSink], by norm_num⟩,
    .inr ⟨_, _, rfl, rfl, by norm_num, by norm_num⟩, ?_, ?_⟩
  · intro l hl p e
    rw [h.2 l hl p e, h'.2 l hl p e]; rfl
  · intro id ref p o f h1 h2
    rw [h.1 id ref p o h1] at h2
    rw [h'.1 id ref p o h1]
    simp [dryDoc] at h1
    obtain ⟨-, -, rfl, -⟩ := h1
    simp [progFiles] at h2
    subst h2
    refine ⟨_, rfl, ?_⟩
    simp [HotterEl]

/-- The two runs last ten steps; after each of them every cell of the second chip is at least as hot. -/
example : ∃ w D an s0 log s1 w' D' an' t0 log' t1, RunOn progFiles (dryDoc (some (1 / 50, 1 / 5))) w D an s0 log s1 ∧
    RunOn hotFiles (hotDoc (some (1 / 50, 1 / 5))) w' D' an' t0 log' t1 ∧ filePowers (filesOf w.read) (dryDoc (some (1 / 50, 1 / 5))) = [[1, 2], [3]] ∧
    filePowers (filesOf w'.read) (hotDoc (some (1 / 50, 1 / 5))) = [[4, 2], [3]] ∧
    ∀ n, n ≤ 10 → ∀ i, i < D.parsed.dims.nCells → (after (config w D an) s0 n).temps.getD i 0 ≤ (after (config w' D' an') t0 n).temps.getD i 0 := by
  obtain ⟨w, D, an, s0, log, s1, E⟩ := dry_on (some (1 / 50, 1 / 5)) (.inr rfl)
  obtain ⟨w', D', an', t0, log', t1, E'⟩ := hot_on (some (1 / 50, 1 / 5)) (.inr rfl)
  have p1 : filePowers progFiles (dryDoc (some (1 / 50, 1 / 5))) = [[1, 2], [3]] := by decide +kernel
  have p2 : filePowers hotFiles (hotDoc (some (1 / 50, 1 / 5))) = [[4, 2], [3]] := by decide +kernel
  have k1 := run_ten E rfl p1 (by simp) (by simp)
  have k2 := run_ten E' rfl p2 (by simp) (by simp)
  exact ⟨w, D, an, s0, log, s1, w', D', an', t0, log', t1, E, E', by rw [powers_files E.same, p1], by rw [powers_files E'.same, p2], fun n hn =>
    (C75_monotone E.session E'.session (hot_warmer E.same E'.same) E.sensible E'.sensible E.times10 E'.times10 E.correct E'.correct
      (fun k hk => k1 k (by omega)) (fun k hk => k2 k (by omega))).2⟩

/-- Steady states: the first chip is nowhere colder than 300, and nowhere hotter than the second one. -/
example : ∃ w D an s0 log s1 w' D' an' t0 log' t1, RunOn progFiles (dryDoc none) w D an s0 log s1 ∧ RunOn hotFiles (hotDoc none) w' D' an' t0 log' t1 ∧
    AtLeast D.parsed.dims s1 300 ∧ ∀ i, i < D.parsed.dims.nCells → s1.temps.getD i 0 ≤ t1.temps.getD i 0 := by
  obtain ⟨w, D, an, s0, log, s1, E⟩ := dry_on none (.inl rfl)
  obtain ⟨w', D', an', t0, log', t1, E'⟩ := hot_on none (.inl rfl)
  have p1 : filePowers (filesOf w.read) (dryDoc none) = [[1, 2], [3]] := by rw [powers_files E.same]; decide +kernel
  have p2 : filePowers (filesOf w'.read) (hotDoc none) = [[4, 2], [3]] := by rw [powers_files E'.same]; decide +kernel
  have q1 : ∀ p, (dryDoc none).top ≠ some (.plug p) := fun p h => by simp [dryDoc, exDoc] at h
  have q2 : ∀ p, (hotDoc none).top ≠ some (.plug p) := fun p h => by simp [hotDoc] at h
  have e1 := C68_steady_succeeds E.session E.sensible E.times10 rfl E.finds q1 (by rw [p1]; simp) (dry_single E.session rfl) (Or.inr (by simp [dryDoc]))
  have e2 := C68_steady_succeeds E'.session E'.sensible E'.times10 rfl E'.finds q2 (by rw [p2]; simp) (dry_single E'.session rfl) (Or.inr (by simp [hotDoc]))
  refine ⟨w, D, an, s0, log, s1, w', D', an', t0, log', t1, E, E', ?_, ?_⟩
  · exact C75_steady_never_below E.session E.sensible E.times10 rfl E.correct q1 rfl (Or.inr (by simp [dryDoc]))
      (fun x h => by simp [dryDoc, exDoc] at h; rw [← h]) (fun x h => by simp [dryDoc, exDoc] at h; rw [← h]) (by rw [p1]; simp) (by rw [p1]; simp)
      (by rw [e1]; simp)
  · exact C75_steady_monotone E.session E'.session (hot_warmer E.same E'.same) E.sensible E'.sensible E.times10 E'.times10 rfl E.correct E'.correct
      (Or.inr (by simp [dryDoc])) (by rw [p1]; simp) (by rw [e1]; simp) (by rw [e2]; simp)

/-- Without power, in steady state, the chip is nowhere hotter than its room. -/
example : ∃ (s : StackD) (w : World Unit) (D : Desc Flps) (an : Analysis ℚ) (s0 : Sim ℚ Unit) (log : Log ℚ) (s1 : Sim ℚ Unit),
    Example s w D an s0 log s1 ∧ s.solver.kind = none ∧ AtMost D.parsed.dims s1 300 := by
  have hs : Sensible eff1 progFiles { idleDoc with solver := ⟨none, 300, none⟩ } := by
    have h := idle_sensible
    exact ⟨h.1, h.2, h.3, h.4, h.5, h.6, h.7, h.8, h.9, h.10, h.11⟩
  obtain ⟨w, D, an, s0, log, s1, E⟩ := ex_runs (s := { idleDoc with solver := ⟨none, 300, none⟩ }) ⟨by decide, by decide, by decide⟩ (by decide +kernel) hs
    (by intro id ref p o h; simp [idleDoc] at h; exact Or.inr h.2.2.1) (by simp [exDoc, dryDoc, idleDoc]) (by decide +kernel) (by decide) (by intro a b h; cases h)
  have p1 : filePowers (filesOf w.read) { idleDoc with solver := ⟨none, 300, none⟩ } = [[0]] := by rw [E.powers]; decide +kernel
  have q1 : ∀ p, ({ idleDoc with solver := ⟨none, 300, none⟩ } : StackD).top ≠ some (.plug p) := fun p h => by simp [idleDoc, dryDoc, exDoc] at h
  have e1 := C68_steady_succeeds E.session E.sensible E.times10 rfl E.finds q1 (by rw [p1]; simp) (dry_single E.session rfl) (Or.inr (by simp [idleDoc, dryDoc]))
  exact ⟨_, w, D, an, s0, log, s1, E, rfl, C75_steady_never_above E.session E.sensible E.times10 rfl E.correct q1 rfl (Or.inr (by simp [idleDoc, dryDoc]))
      (fun x h => by simp [idleDoc, dryDoc, exDoc] at h; rw [← h]) (fun x h => by simp [idleDoc, dryDoc, exDoc] at h; rw [← h]) (by rw [p1]; simp) (by rw [p1]; simp)
      (by rw [e1]; simp)⟩

end Verif.Prog
