import Verif.Props.ProgramNuBounds
import Verif.Props.ProgramNuSteadyEx

/-! **C74** Examples: files that meet the hypotheses of the theorems, from the text on. -/

set_option linter.unusedSectionVars false
set_option linter.unusedSimpArgs false
set_option linter.unusedVariables false

namespace Verif.Prog
open Verif.Gram Verif.Dim Verif.TG Verif.SM Verif.Stk Verif.FE Verif.Emu Verif.Flp

/-! ### A second set of files, with more power -/

def warmFiles : Files where
  flp p := if p = "duo.flp" then some [⟨"A", .one 0 0 1000 1000 none (some (2, 2)), [4, 2]⟩, ⟨"B", .one 0 1000 1000 1000 (some "BEOL") none, [3]⟩] else none
  lay p := exFiles.lay p

/-- The chip of the other examples in a hotter room; only the final temperatures of one layer are wanted. -/
def warmDoc (k : Option (ℚ × ℚ)) : StackD :=
  { nuDoc k with top := some (.conv ⟨1, 320⟩), bottom := some ⟨2, 301⟩, points := [.tmap "L" "m.txt" .unsaid], solver := ⟨k, 305, none⟩ }

theorem warm_sensible (k : Option (ℚ × ℚ)) : Sensible eff1 warmFiles (warmDoc k) := by
  have h := nuDoc_sensible k
  refine ⟨h.1, h.2, h.3, h.4, h.5, h.6, h.7, h.8, ?_, ?_, ?_⟩
  · intro t e; cases e; norm_num [GoodTop]
  · intro b e; cases e; norm_num
  · intro id ref p o f h1 h2
    by_cases hp : p = "duo.flp"
    · subst hp
      simp [warmFiles] at h2
      subst h2
      simp [areaRects, GoodRect, warmDoc, nuDoc, nuDims]
      norm_num
    · simp [warmFiles, hp] at h2

/-- A session on the second set of files. -/
structure WarmNU (s : StackD) (w : World Unit) (D : Desc NFlps) (an : Analysis ℚ) (G : NU.Grid ℚ) (s0 : NU.NSim ℚ Unit) (log : NLog)
    (s' : NU.NSim ℚ Unit) : Prop where
  session : SessionNU w "s.stk" s D an G s0 log s'
  sensible : Sensible w.eff (filesOf w.read) s
  times10 : ∀ x, w.mul10 x = x * 10
  correct : NU.CorrectNU (configNU w an)
  complete : NU.CompleteNU (configNU w an)
  plugin : ∀ p T prev, (w.plugin p T prev).2 ≠ none
  same : SameFiles s (filesOf w.read) warmFiles

theorem warm_runs (k : Option (ℚ × ℚ)) (hk : k = none ∨ k = some (1 / 50, 1 / 5)) : ∃ w D an G s0 log s', WarmNU (warmDoc k) w D an G s0 log s' := by
  have hok : (warmDoc k).Ok := by rcases hk with rfl | rfl <;> exact ⟨by decide, by decide, by decide⟩
  have hchk : (warmDoc k).toks.all (Scan.check Scan.stackLex) = true := by rcases hk with rfl | rfl <;> decide +kernel
  have hD : ((describe plainReader eff1 warmFiles (warmDoc k)).bind fun D => fillGrid D.parsed.dims.nLayers D.parsed.elems D.top D.bottom).isSome = true := by
    rcases hk with rfl | rfl <;> decide +kernel
  have hpw : filePowers warmFiles (warmDoc k) = [[4, 2], [3]] := by rcases hk with rfl | rfl <;> decide +kernel
  obtain ⟨g, hD⟩ := Option.isSome_iff_exists.mp hD
  obtain ⟨D, hD, hg⟩ := Option.bind_eq_some_iff.mp hD
  obtain ⟨f, hf⟩ : ∃ f, warmFiles.flp "duo.flp" = some f := ⟨_, rfl⟩
  obtain ⟨l, hl⟩ : ∃ l, warmFiles.lay "pcb.lay" = some l := ⟨_, rfl⟩
  obtain ⟨flp, h1⟩ := C66_every_floorplan (fs := f) (by cases hf; exact ⟨by simp, by simp [AreaD.Ok]⟩) (by
    have : (f.flatMap FlpD.toks).all (Scan.check Scan.flpLex) = true := by cases hf; decide +kernel
    exact fun t ht => Scan.check_free (List.all_eq_true.mp this t ht))
  obtain ⟨lay, h2⟩ := C66_every_layout (l := l) (by cases hl; exact ⟨by simp, by simp [LAreaD.Ok]⟩) (by
    have : l.toks.all (Scan.check Scan.layLex) = true := by cases hl; decide +kernel
    exact fun t ht => Scan.check_free (List.all_eq_true.mp this t ht))
  obtain ⟨stk, hstk⟩ := C66_every_document hok (fun t ht => Scan.check_free (List.all_eq_true.mp hchk t ht))
  have hsame : SameFiles (warmDoc k) (filesOf (nuWorld stk flp [] lay).read) warmFiles := by
    refine ⟨?_, ?_⟩
    · intro id ref p o h
      simp [warmDoc, nuDoc] at h
      rw [h.2.2.1, hf]; exact h1
    · intro l' hl' p h
      simp [warmDoc, nuDoc, dryDoc, exDoc] at hl'
      have hp : p = "pcb.lay" := by rcases hl' with rfl | rfl <;> simp at h <;> exact h.symm
      rw [hp, hl]; exact h2
  generalize hw : nuWorld stk flp [] lay = w at hsame
  have heff : w.eff = eff1 := by rw [← hw]; rfl
  have hsen : Sensible w.eff (filesOf w.read) (warmDoc k) := by rw [heff]; exact sensible_files hsame (warm_sensible k)
  have hm : ∀ x, w.mul10 x = x * 10 := by intro x; rw [← hw]; rfl
  have hc : Contains w "s.stk" (warmDoc k) := ⟨stk, by rw [← hw]; rfl, hstk⟩
  have M : Means plainReader w.eff (filesOf w.read) (warmDoc k) D := by
    rw [← C67_meaning, heff, describe_files _ _ hsame]; exact hD
  obtain ⟨an, G, s0, log, s', h, -⟩ := C69_runs hm hc hsen M hg rfl (by simp [warmDoc])
    (by
      intro step slot e
      rw [powers_files hsame, hpw]
      have e : k = some (step, slot) := e
      rcases hk with rfl | rfl
      · cases e
      · cases e; exact decimalsNU ⟨[3], by simp, rfl⟩)
    (by simp [warmDoc, ShortNames]; try decide)
    (by intro f; rw [← hw]; rfl) (by intro f; rw [← hw]; rfl) (by intro f; rw [← hw]; rfl) (by intro f a; rw [← hw]; exact ⟨(), rfl⟩)
  refine ⟨w, _, an, G, s0, log, s', h, hsen, hm, ?_, ?_, (by intro p T prev; rw [← hw]; simp [nuWorld]), hsame⟩
  · intro A b x hx
    have hx' : w.solve A b = some x := hx
    rw [← hw] at hx'
    exact exactSolve_correct hx'
  · intro A b h1
    obtain ⟨x, hx⟩ := exactSolve_some h1
    refine ⟨x, ?_⟩
    show w.solve A b = some x
    rw [← hw]; exact hx

theorem warm_hotter {w w' : World Unit} {k : Option (ℚ × ℚ)} (h : SameFiles (nuDoc k) (filesOf w.read) nuFiles) (h' : SameFiles (warmDoc k) (filesOf w'.read) warmFiles) :
    Hotter (filesOf w.read) (filesOf w'.read) (nuDoc k) (warmDoc k) := by
  refine ⟨rfl, rfl, rfl, rfl, rfl, ⟨rfl, rfl⟩, rfl, by norm_num [nuDoc, dryDoc, warmDoc], ⟨_, _, rfl, rfl, by norm_num, by norm_num⟩,
    .inr ⟨_, _, rfl, rfl, by norm_num, by norm_num⟩, ?_, ?_⟩
  · intro l hl p e
    rw [h.2 l hl p e, h'.2 l hl p e]; rfl
  · intro id ref p o f h1 h2
    rw [h.1 id ref p o h1] at h2
    rw [h'.1 id ref p o h1]
    simp [nuDoc] at h1
    obtain ⟨-, -, rfl, -⟩ := h1
    simp [nuFiles] at h2
    subst h2
    refine ⟨_, rfl, ?_⟩
    simp [HotterEl]

theorem not_error {r : SimResult} (h : Succeeded r) : r ≠ .solverError := by
  rintro rfl; simp [Succeeded] at h

/-! ### The second run also succeeds -/

theorem warm_flp {p : String} {f : List FlpD} (h : warmFiles.flp p = some f) : ∃ f0, nuFiles.flp p = some f0 ∧ ∀ e ∈ f, ∃ e0 ∈ f0, e.area = e0.area := by
  by_cases hp : p = "duo.flp"
  · subst hp
    simp [warmFiles] at h
    subst h
    exact ⟨_, rfl, by simp⟩
  · simp [warmFiles, hp] at h

theorem warm_division (k) : GoodDivision warmFiles (warmDoc k) := by
  have h := nuDoc_division k
  refine ⟨h.1, h.2, h.3, ?_⟩
  intro id ref p o f hm hf e he x y l w m n ha
  obtain ⟨f0, h1, h2⟩ := warm_flp hf
  obtain ⟨e0, h3, h4⟩ := h2 e he
  exact h.mats id ref p o f0 hm h1 e0 h3 x y l w m n (by rw [← h4]; exact ha)

theorem warm_raster (k) : OnRaster (1 / 60) warmFiles (warmDoc k) := by
  have h := nuDoc_raster k
  refine ⟨h.1, h.2, ?_, h.4, ?_⟩
  · intro id ref p o f hm hf e he
    obtain ⟨f0, h1, h2⟩ := warm_flp hf
    obtain ⟨e0, h3, h4⟩ := h2 e he
    rw [h4]
    exact h.dies id ref p o f0 hm h1 e0 h3
  · intro p hp; cases hp

theorem warm_powers {w : World Unit} {k D an G s0 log s'} (E : WarmNU (warmDoc k) w D an G s0 log s') : filePowers (filesOf w.read) (warmDoc k) = [[4, 2], [3]] := by
  rw [powers_files E.same]
  have : filePowers warmFiles (warmDoc none) = [[4, 2], [3]] := by decide +kernel
  exact this

theorem warm_slot {w : World Unit} {D an G s0 log s'} (E : WarmNU (warmDoc (some (1 / 50, 1 / 5))) w D an G s0 log s') : an.slotLength = 10 := by
  have h := E.session.times
  rw [E.session.means.times.1, show (warmDoc (some (1 / 50, 1 / 5))).solver.kind = some (1 / 50, 1 / 5) from rfl] at h
  have hm : w.mul10 = (· * 10) := funext E.times10
  rw [hm] at h
  obtain ⟨k, k1, k2, k3⟩ := decimals
  have h0 := ((Solver.C37_slot_length_partial k1 k2 k3).1 ⟨by norm_num, by norm_num⟩).1
  have := analysed_det h (.transient h0)
  rw [this]
  have e : ((1 / 5 : ℚ) / (1 / 50)) = ((10 : Nat) : ℚ) := by norm_num
  first | rfl | (simp only [e, Nat.floor_natCast])

theorem warm_steps {w : World Unit} {D an G s0 log s'} (E : WarmNU (warmDoc (some (1 / 50, 1 / 5))) w D an G s0 log s') :
    ∀ k, k < 10 → (NU.stepNU (configNU w an) (NU.afterSteps (configNU w an) s0 k)).1 ≠ .solverError := by
  intro k hk
  refine not_error (C70_steps_succeed E.session E.sensible (division_files E.same (warm_division _)) E.times10 rfl
    (C70_raster E.session.start E.sensible (raster_files E.same (warm_raster _))) E.complete E.plugin (n := 9) (by norm_num) ?_ k (by omega))
  intro t ht
  rw [warm_powers E] at ht
  rw [warm_slot E]
  simp only [List.mem_cons, List.not_mem_nil, or_false] at ht
  rcases ht with rfl | rfl <;> simp

theorem doc_gaps {k : Option (ℚ × ℚ)} {w : World Unit} {D an G s0 log s'} (E : ExampleNU (nuDoc k) w D an G s0 log s') : NoGaps (filesOf w.read) (nuDoc k) := by
  intro x y x1 x2 y1 y2 el fs hf
  refine duo_full (s := nuDoc k) rfl ?_ x y x1 x2 y1 y2 el fs (E.floorplan hf)
  rintro el fs ⟨ref, p, o, h1, h2⟩
  simp [nuDoc] at h1
  obtain ⟨-, -, rfl, -⟩ := h1
  simp [nuFiles] at h2
  exact h2.symm

theorem warm_gaps {k : Option (ℚ × ℚ)} {w : World Unit} {D an G s0 log s'} (E : WarmNU (warmDoc k) w D an G s0 log s') : NoGaps (filesOf w.read) (warmDoc k) := by
  intro x y x1 x2 y1 y2 el fs ⟨ref, p, o, h1, h2⟩
  rw [E.same.1 _ _ _ _ h1] at h2
  simp [warmDoc, nuDoc] at h1
  obtain ⟨-, -, rfl, -⟩ := h1
  have hd : hits fs x y = hits duo x y := by
    simp [warmFiles] at h2
    rw [← h2]; rfl
  rw [hd]
  refine duo_full (s := nuDoc k) rfl ?_ x y x1 x2 y1 y2 "TOP" duo ⟨"CORE", "duo.flp", some (1, 2), by simp [nuDoc], rfl⟩
  rintro el fs ⟨ref, p, o, h1, h2⟩
  simp [nuDoc] at h1
  obtain ⟨-, -, rfl, -⟩ := h1
  simp [nuFiles] at h2
  exact h2.symm

/-! ### What the theorems say -/

theorem doc_powers (k : Option (ℚ × ℚ)) : filePowers nuFiles (nuDoc k) = [[1, 2], [3]] := by
  have : filePowers nuFiles (nuDoc none) = [[1, 2], [3]] := by decide +kernel
  exact this

theorem doc_steps {w : World Unit} {D an G s0 log s'} (E : ExampleNU (nuDoc (some (1 / 50, 1 / 5))) w D an G s0 log s') :
    ∀ k, k < 11 → (NU.stepNU (configNU w an) (NU.afterSteps (configNU w an) s0 k)).1 ≠ .solverError := by
  obtain ⟨h1, h2, -⟩ := E.whole (nuDoc_division _) (nuDoc_raster _) rfl (.inl (doc_powers _))
  intro k hk
  rcases Nat.lt_or_ge k 10 with h | h
  · exact not_error (h1 k h)
  · rw [show k = 10 by omega, h2]; simp

/-- Bounds from below: a chip with two blocks that consume 1 and 3 watts, at 300 kelvin; at the end of a run of ten steps no cell is colder than the ambient. -/
example : ∃ w D an G s0 log s', ExampleNU (nuDoc (some (1 / 50, 1 / 5))) w D an G s0 log s' ∧ ∀ i, i < G.cells.length → 300 ≤ s'.temps.getD i 0 := by
  obtain ⟨w, D, an, G, s0, log, s', E⟩ := nuDoc_runs
  obtain ⟨-, -, e⟩ := E.whole (nuDoc_division _) (nuDoc_raster _) rfl (.inl (doc_powers _))
  refine ⟨w, D, an, G, s0, log, s', E, fun i hi => ?_⟩
  have := C74_program_never_below E.session E.sensible (E.division (nuDoc_division _)) E.times10 rfl rfl rfl (by intro b hb; cases hb; norm_num) E.correct
    (by rw [E.powers, doc_powers]; simp) (doc_steps E) i hi
  rw [e]
  refine le_trans ?_ this
  norm_num [nuDoc, dryDoc, exDoc]

/-- Bounds from below, in steady state. -/
example : ∃ w D an G s0 log s', ExampleNU (nuDoc none) w D an G s0 log s' ∧ ∀ i, i < G.cells.length → 300 ≤ s'.temps.getD i 0 := by
  obtain ⟨w, D, an, G, s0, log, s', E⟩ := nuSteady_runs
  refine ⟨w, D, an, G, s0, log, s', E, fun i hi => ?_⟩
  exact C74_program_steady_never_below E.session E.sensible (E.division (nuDoc_division _)) E.times10 rfl rfl rfl (by intro b hb; cases hb; norm_num)
    (E.sharp (nuDoc_raster _)) (doc_gaps E) E.complete E.correct (by rw [E.powers, doc_powers]; simp) (by rw [E.powers, doc_powers]; simp) i hi

/-- Comparison: with more power, a hotter ambient, a hotter board and a hotter start, every cell is at least as hot, after each of the ten steps. -/
example : ∃ w D an G s0 log s' w' D' an' G' t0 log' t', ExampleNU (nuDoc (some (1 / 50, 1 / 5))) w D an G s0 log s' ∧
    WarmNU (warmDoc (some (1 / 50, 1 / 5))) w' D' an' G' t0 log' t' ∧ ∀ n ≤ 10, ∀ i, i < G.cells.length →
      (NU.afterSteps (configNU w an) s0 n).temps.getD i 0 ≤ (NU.afterSteps (configNU w' an') t0 n).temps.getD i 0 := by
  obtain ⟨w, D, an, G, s0, log, s', E⟩ := nuDoc_runs
  obtain ⟨w', D', an', G', t0, log', t', E'⟩ := warm_runs (some (1 / 50, 1 / 5)) (.inr rfl)
  refine ⟨w, D, an, G, s0, log, s', w', D', an', G', t0, log', t', E, E', fun n hn => ?_⟩
  exact (C74_program_monotone E.session E'.session (warm_hotter E.same E'.same) E.sensible E'.sensible (E.division (nuDoc_division _)) E.times10 E'.times10 rfl
    E.correct E'.correct (fun k hk => doc_steps E k (by omega)) (fun k hk => warm_steps E' k (by omega))).2

/-- Comparison, in steady state. -/
example : ∃ w D an G s0 log s' w' D' an' G' t0 log' t', ExampleNU (nuDoc none) w D an G s0 log s' ∧
    WarmNU (warmDoc none) w' D' an' G' t0 log' t' ∧ ∀ i, i < G.cells.length → s'.temps.getD i 0 ≤ t'.temps.getD i 0 := by
  obtain ⟨w, D, an, G, s0, log, s', E⟩ := nuSteady_runs
  obtain ⟨w', D', an', G', t0, log', t', E'⟩ := warm_runs none (.inl rfl)
  have hp : ∀ t ∈ filePowers (filesOf w.read) (nuDoc none), t ≠ [] := by rw [E.powers, doc_powers]; simp
  have hp' : ∀ t ∈ filePowers (filesOf w'.read) (warmDoc none), t ≠ [] := by rw [warm_powers E']; simp
  obtain ⟨h1, -⟩ := C72_program_steady E.session E.sensible (E.division (nuDoc_division _)) E.times10 rfl rfl (E.sharp (nuDoc_raster _))
    (dry_double E.session.means rfl) (doc_gaps E) E.complete E.correct hp
  obtain ⟨h2, -⟩ := C72_program_steady E'.session E'.sensible (division_files E'.same (warm_division _)) E'.times10 rfl rfl
    (C70_raster E'.session.start E'.sensible (raster_files E'.same (warm_raster _))) (dry_double E'.session.means rfl) (warm_gaps E') E'.complete E'.correct hp'
  refine ⟨w, D, an, G, s0, log, s', w', D', an', G', t0, log', t', E, E', ?_⟩
  exact C74_program_steady_monotone E.session E'.session (warm_hotter E.same E'.same) E.sensible E'.sensible (E.division (nuDoc_division _)) E.times10 E'.times10
    rfl (E.sharp (nuDoc_raster _)) (doc_gaps E) hp E.correct E'.correct h1 h2

/-! ### A chip that cools down -/

def nuCold : StackD := { nuDoc (some (1 / 50, 1 / 5)) with elems := [.die "TOP" "CORE" "idle.flp" none, .layer "L" "PCB" (some (2, 3))], bottom := none, points := [.tmap "L" "m.txt" .slot], solver := ⟨some (1 / 50, 1 / 5), 350, none⟩ }

theorem nuCold_sensible : Sensible eff1 nuFiles nuCold := by
  have h := nuDoc_sensible (some (1 / 50, 1 / 5))
  refine ⟨h.1, h.2, h.3, h.4, h.5, h.6, h.7, h.8, h.9, ?_, ?_⟩
  · intro b hb; cases hb
  · intro id ref p o f h1 h2
    exact duo_good (by norm_num [nuCold, nuDoc, nuDims]) (by norm_num [nuCold, nuDoc, nuDims]) h2

theorem nuCold_division : GoodDivision nuFiles nuCold := by
  have h := nuDoc_division (some (1 / 50, 1 / 5))
  refine ⟨h.1, ?_, ?_, ?_⟩
  · intro id ref n hm; exact h.layers id ref n (by simp [nuCold, nuDoc] at hm ⊢; exact hm)
  · intro id ref p n hm; simp [nuCold] at hm
  · intro id ref p o f hm hf; exact nu_mats (by simp [nuCold, nuDoc, dryDoc, exDoc]) hf

theorem nuCold_raster : OnRaster (1 / 60) nuFiles nuCold := by
  have h := nuDoc_raster (some (1 / 50, 1 / 5))
  refine ⟨h.1, ?_, ?_, ?_, ?_⟩
  · intro id ref n hm; exact h.layers id ref n (by simp [nuCold, nuDoc] at hm ⊢; exact hm)
  · intro id ref p o f hm hf
    simp [nuCold] at hm
    exact nu_raster (.inr hm.2.2.1) hf
  · intro id hm; simp [nuCold] at hm
  · intro p hp; cases hp

theorem nuCold_runs : ∃ w D an G s0 log s', ExampleNU nuCold w D an G s0 log s' := by
  refine nu_runs ⟨by decide, by decide, by decide⟩ (by decide +kernel) nuCold_sensible ?_ ?_ (by decide +kernel) (by decide) (by simp [nuCold, nuDoc, dryDoc, exDoc]) ?_ ?_
  · intro id ref p o h
    simp [nuCold] at h
    exact .inr h.2.2.1
  · simp [nuCold, nuDoc, dryDoc, exDoc]
  · simp [nuCold, ShortNames]; decide
  · intro step slot h
    cases h; exact decimalsNU (nu_single (by decide +kernel))

theorem cold_powers : filePowers nuFiles nuCold = [[0]] := by decide +kernel

/-- Bounds from above: a chip without power that starts at 350 kelvin never becomes hotter. -/
example : ∃ w D an G s0 log s', ExampleNU nuCold w D an G s0 log s' ∧ ∀ i, i < G.cells.length → s'.temps.getD i 0 ≤ 350 := by
  obtain ⟨w, D, an, G, s0, log, s', E⟩ := nuCold_runs
  obtain ⟨h1, h2, e⟩ := E.whole nuCold_division nuCold_raster rfl (.inr cold_powers)
  refine ⟨w, D, an, G, s0, log, s', E, fun i hi => ?_⟩
  have := C74_program_never_above E.session E.sensible (E.division nuCold_division) E.times10 rfl rfl rfl rfl E.correct
    (by rw [E.powers, cold_powers]; simp) (n := 11) (by
      intro k hk
      rcases Nat.lt_or_ge k 10 with h | h
      · exact not_error (h1 k h)
      · rw [show k = 10 by omega, h2]; simp) i hi
  rw [e]
  refine le_trans this ?_
  norm_num [nuCold, nuDoc, dryDoc, exDoc]

end Verif.Prog
