import Verif.Props.ProgramNuValues
import Verif.Props.ProgramNuHeatEx

/-! **C71** Examples: files that meet the hypotheses of the theorems, from the text on. -/

set_option linter.unusedSectionVars false
set_option linter.unusedSimpArgs false
set_option linter.unusedVariables false
set_option linter.unreachableTactic false
set_option linter.unusedTactic false

namespace Verif.Prog
open Verif.Gram Verif.Dim Verif.TG Verif.SM Verif.Stk Verif.FE Verif.Emu Verif.Flp

section
variable {s : StackD} {w : World Unit} {D : Desc NFlps} {an : Analysis ℚ} {G : NU.Grid ℚ} {s0 : NU.NSim ℚ Unit} {log : NLog} {s' : NU.NSim ℚ Unit}

theorem ExampleNU.floorplan (E : ExampleNU s w D an G s0 log s') {el : String} {fs : List FlpD} (h : FloorplanOf (filesOf w.read) s el fs) : FloorplanOf nuFiles s el fs := by
  obtain ⟨ref, p, o, h1, h2⟩ := h
  exact ⟨ref, p, o, h1, by rw [← E.same.1 el ref p o h1]; exact h2⟩
end

def duo : List FlpD := [⟨"A", .one 0 0 1000 1000 none (some (2, 2)), [1, 2]⟩, ⟨"B", .one 0 1000 1000 1000 (some "BEOL") none, [3]⟩]

theorem duo_file {k : Option (ℚ × ℚ)} {el : String} {fs : List FlpD} (h : FloorplanOf nuFiles (nuDoc k) el fs) : fs = duo := by
  obtain ⟨ref, p, o, h1, h2⟩ := h
  simp [nuDoc] at h1
  obtain ⟨-, -, rfl, -⟩ := h1
  simp [nuFiles] at h2
  exact h2.symm

theorem duo_apart : Apart duo := by
  intro x y
  unfold hits duo
  simp only [List.map_cons, List.map_nil, firstRect, List.countP_cons, List.countP_nil]
  by_cases h1 : ((0 : ℚ) ≤ x ∧ x < 0 + 1000 ∧ 0 ≤ y ∧ y < 0 + 1000)
  · have h2 : ¬ ((0 : ℚ) ≤ x ∧ x < 0 + 1000 ∧ 1000 ≤ y ∧ y < 1000 + 1000) := by
      rintro ⟨-, -, a, -⟩; linarith [h1.2.2.2]
    rw [decide_eq_true h1, decide_eq_false h2]; simp
  · rw [decide_eq_false h1]; simp only [Bool.false_eq_true, if_false]; split_ifs <;> omega


theorem duo_covered {k : Option (ℚ × ℚ)} : Covered nuFiles (nuDoc k) 1 2 := by
  intro el fs h
  rw [duo_file h]
  unfold hits duo
  simp only [List.map_cons, List.map_nil, firstRect, List.countP_cons, List.countP_nil]
  norm_num

theorem nu_layer {k : Option (ℚ × ℚ)} {l : Nat} (h : Shown (nuDoc k) "TOP" l) : l = 2 := by
  obtain ⟨above, x, below, hx, hn, hl⟩ := h
  simp only [nuDoc] at hx
  rcases above with _ | ⟨a, above⟩
  · simp only [List.nil_append, List.cons.injEq] at hx
    obtain ⟨rfl, rfl⟩ := hx
    rw [hl]; rfl
  · rcases above with _ | ⟨b, above⟩
    · simp only [List.cons_append, List.nil_append, List.cons.injEq] at hx
      obtain ⟨rfl, rfl, rfl⟩ := hx
      exact absurd hn (by decide)
    · have := congrArg List.length hx
      simp at this

theorem nu_below {k : Option (ℚ × ℚ)} {l : Nat} (h : Shown (nuDoc k) "L" l) : l = 0 := by
  obtain ⟨above, x, below, hx, hn, hl⟩ := h
  simp only [nuDoc] at hx
  rcases above with _ | ⟨a, above⟩
  · simp only [List.nil_append, List.cons.injEq] at hx
    obtain ⟨rfl, rfl⟩ := hx
    exact absurd hn (by decide)
  · rcases above with _ | ⟨b, above⟩
    · simp only [List.cons_append, List.nil_append, List.cons.injEq] at hx
      obtain ⟨rfl, rfl, rfl⟩ := hx
      rw [hl]; rfl
    · have := congrArg List.length hx
      simp at this

section
variable {k : Option (ℚ × ℚ)} {w : World Unit} {D : Desc NFlps} {an : Analysis ℚ} {G : NU.Grid ℚ} {s0 : NU.NSim ℚ Unit} {log : NLog} {s' : NU.NSim ℚ Unit}
  {x : NU.NSim ℚ Unit} {time : ℚ} {step slot : Nat} {l : NLog}

theorem nu_step (E : ExampleNU (nuDoc k) w D an G s0 log s') (h : DocAll w.canOpen (filesOf w.read) (nuDoc k) .step G x time step slot l) :
    ∃ i, HasPoint G 2 1 2 i ∧ (∀ j, HasPoint G 2 1 2 j → j = i) ∧ l = [⟨"t.txt", true, .record (.line time [x.temps.getD i 0])⟩] := by
  obtain ⟨ls, h1, rfl⟩ := h
  rw [show pointsOn (nuDoc k) .step = [.tcell "TOP" 1 2 "t.txt" .step] by simp [pointsOn, nuDoc, whenOf]] at h1
  rcases h1 with _ | ⟨⟨r, ⟨lay, ha, hb⟩, rfl⟩, _ | _⟩
  obtain rfl := nu_layer ha
  obtain ⟨i, p, q, rfl⟩ := hb (by norm_num) (by norm_num [nuDoc, nuDims]) (by norm_num) (by norm_num [nuDoc, nuDims])
    (fun el fs hf => duo_covered el fs (E.floorplan hf))
  exact ⟨i, p, q, rfl⟩

theorem nu_slot_writes (E : ExampleNU (nuDoc k) w D an G s0 log s') (h : DocAll w.canOpen (filesOf w.read) (nuDoc k) .slot G x time step slot l) :
    ∃ a b is rows name cells, LayerCells G 0 is ∧ Over G 2 x.temps ⟨0, 0, 1000, 1000⟩ 0 .average a ∧ Over G 2 x.temps ⟨0, 1000, 1000, 1000⟩ 0 .average b ∧
      name = "v" ++ toString (step / slot) ++ ".vtk" ∧
      l = [⟨"f.txt", true, .record (.line time [a, b])⟩, ⟨"xyaxis_L.txt", false, .axes rows⟩, ⟨"m.txt", true, .record (.map [is.map fun i => x.temps.getD i 0])⟩,
        ⟨name, false, .solid cells ((List.range G.cells.length).map fun i => x.temps.getD i 0)⟩] := by
  obtain ⟨ls, h1, rfl⟩ := h
  rw [show pointsOn (nuDoc k) .slot = [.tflp "TOP" "f.txt" .average .slot, .tmap "L" "m.txt" .slot, .t3d "v.vtk" .slot] by
    simp [pointsOn, nuDoc, whenOf]] at h1
  rcases h1 with _ | ⟨⟨r, ⟨lay, fs, ha, hf, hb⟩, rfl⟩, _ | ⟨hm, _ | ⟨hv, _ | _⟩⟩⟩
  obtain rfl := nu_layer ha
  obtain rfl := duo_file (E.floorplan hf)
  obtain ⟨vs, rfl, hvs⟩ := hb duo_apart
  rcases hvs with _ | ⟨hva, _ | ⟨hvb, _ | _⟩⟩
  rcases hm with ⟨-, lay, is, rows, hl, hi, -, rfl⟩ | ⟨hno, -⟩
  · obtain rfl := nu_below hl
    refine ⟨_, _, is, rows, _, G.cells.map fun c => (c, (G.d.heights.take c.layer).sum, G.d.heights.getD c.layer 0), hi, hva, hvb, rfl, ?_⟩
    have hv : _ = ([⟨vtkFile "v.vtk" .slot step slot, false, .solid (G.cells.map fun c => (c, (G.d.heights.take c.layer).sum, G.d.heights.getD c.layer 0))
      ((List.range G.cells.length).map fun i => x.temps.getD i 0)⟩] : NLog) := hv
    rw [hv]
    have e : vtkFile "v.vtk" .slot step slot = "v" ++ toString (step / slot) ++ ".vtk" := by
      show String.ofList ("v.vtk".toList.takeWhile (· ≠ '.')) ++ _ ++ _ = _
      rw [show String.ofList ("v.vtk".toList.takeWhile (· ≠ '.')) = "v" by decide]
    rw [e]
    rfl
  · rw [E.canOpen] at hno; cases hno

theorem nu_final (E : ExampleNU (nuDoc k) w D an G s0 log s') (h : DocAll w.canOpen (filesOf w.read) (nuDoc k) .final G x time step slot l) :
    ∃ v is rows, Over G 2 x.temps ⟨0, 1000, 1000, 1000⟩ 0 .maximum v ∧ LayerCells G 2 is ∧
      List.Forall₂ (fun i row => ∃ c, G.cells[i]? = some c ∧ row = (c.x0, c.y0, c.x1 - c.x0, c.y1 - c.y0)) is rows ∧
      l = [⟨"b.txt", true, .record (.line time [v])⟩, ⟨"xyaxis_TOP.txt", false, .axes rows⟩, ⟨"p.txt", true, .record (.map [is.map fun i => x.sources.getD i 0])⟩] := by
  obtain ⟨ls, h1, rfl⟩ := h
  rw [show pointsOn (nuDoc k) .final = [.tflpel "TOP" "B" "b.txt" .maximum .unsaid, .pmap "TOP" "p.txt" .unsaid] by
    simp [pointsOn, nuDoc, whenOf]] at h1
  rcases h1 with _ | ⟨⟨r, ⟨lay, fs, f, ha, hf, hsub, hb⟩, rfl⟩, _ | ⟨hm, _ | _⟩⟩
  obtain rfl := nu_layer ha
  obtain rfl := duo_file (E.floorplan hf)
  have hsub : some (⟨"B", .one 0 1000 1000 1000 (some "BEOL") none, [3]⟩ : FlpD) = some f := hsub
  obtain rfl := Option.some.inj hsub
  obtain ⟨v, rfl, hv⟩ := hb duo_apart
  rcases hm with ⟨-, lay, is, rows, hl, hi, hr, rfl⟩ | ⟨hno, -⟩
  · obtain rfl := nu_layer hl
    exact ⟨v, is, rows, hv, hi, hr, rfl⟩
  · rw [E.canOpen] at hno; cases hno

end

/-- Transient: after each of the ten steps, the temperature of the cell of the source layer at the point (1, 2); at the end of the slot the averages over the two
elements of the floorplan, the map of the layer below and the whole chip; at the end the maximum over the second element, and the heat sources of the die. -/
example : ∃ w D an G s0 log s', ExampleNU (nuDoc (some (1 / 50, 1 / 5))) w D an G s0 log s' ∧
    ∃ (steps slots : Nat → NLog) (final : NLog), log = ((List.range 10).flatMap fun k => steps k ++ if 10 ∣ k + 1 then slots k else []) ++ final ∧
      (∀ k, k < 10 → ∃ i, HasPoint G 2 1 2 i ∧ (∀ j, HasPoint G 2 1 2 j → j = i) ∧
        steps k = [⟨"t.txt", true, .record (.line ((k + 1 : Nat) * (1 / 50)) [(NU.afterSteps (configNU w an) s0 (k + 1)).temps.getD i 0])⟩]) ∧
      (∃ a b is rows cells, LayerCells G 0 is ∧ Over G 2 (NU.afterSteps (configNU w an) s0 10).temps ⟨0, 0, 1000, 1000⟩ 0 .average a ∧
        Over G 2 (NU.afterSteps (configNU w an) s0 10).temps ⟨0, 1000, 1000, 1000⟩ 0 .average b ∧
        slots 9 = [⟨"f.txt", true, .record (.line (1 / 5) [a, b])⟩, ⟨"xyaxis_L.txt", false, .axes rows⟩,
          ⟨"m.txt", true, .record (.map [is.map fun i => (NU.afterSteps (configNU w an) s0 10).temps.getD i 0])⟩,
          ⟨"v1.vtk", false, .solid cells ((List.range G.cells.length).map fun i => (NU.afterSteps (configNU w an) s0 10).temps.getD i 0)⟩]) ∧
      ∃ v is rows, Over G 2 s'.temps ⟨0, 1000, 1000, 1000⟩ 0 .maximum v ∧ LayerCells G 2 is ∧
        final = [⟨"b.txt", true, .record (.line (1 / 5) [v])⟩, ⟨"xyaxis_TOP.txt", false, .axes rows⟩,
          ⟨"p.txt", true, .record (.map [is.map fun i => s'.sources.getD i 0])⟩] := by
  obtain ⟨w, D, an, G, s0, log, s', E⟩ := nuDoc_runs
  have hsl := nu_slot E rfl
  have hp : filePowers nuFiles (nuDoc (some (1 / 50, 1 / 5))) = [[1, 2], [3]] := by decide +kernel
  have hW : ∃ t ∈ filePowers (filesOf w.read) (nuDoc (some (1 / 50, 1 / 5))), t.length * an.slotLength < 2 ^ 32 := by
    rw [E.powers, hp, hsl]; exact ⟨[3], by simp, by norm_num⟩
  obtain ⟨n, h1, h2, h3, steps, slots, final, h4, h5, h6, h7⟩ := C71_transient E.session E.sensible (E.division (nuDoc_division _)) E.times10 rfl hW
  obtain ⟨w1, w2, w3⟩ := E.whole (nuDoc_division _) (nuDoc_raster _) rfl (.inl hp)
  have hn : n = 10 := by
    rcases lt_trichotomy n 10 with hn | hn | hn
    · have a := w1 n hn
      rcases h2 with h2 | h2 <;> rw [h2] at a <;> simp [Succeeded] at a
    · exact hn
    · have a := h1 10 hn
      rw [w2] at a
      simp [Succeeded] at a
  subst hn
  rw [hsl] at h4 h5 h6 h7
  refine ⟨w, D, an, G, s0, log, s', E, steps, slots, final, h4, fun k hk => nu_step E (h5 k hk), ?_, ?_⟩
  · obtain ⟨a, b, is, rows, name, cells, q1, q2, q3, q4, q5⟩ := nu_slot_writes E (h6 9 (by norm_num) (by norm_num))
    have e : ((9 + 1 : Nat) : ℚ) * (1 / 50) = 1 / 5 := by norm_num
    have en : name = "v1.vtk" := by rw [q4]; decide
    rw [e, en] at q5
    exact ⟨a, b, is, rows, cells, q1, q2, q3, q5⟩
  · obtain ⟨v, is, rows, q1, q2, -, q3⟩ := nu_final E h7
    have e : ((10 : Nat) : ℚ) * (1 / 50) = 1 / 5 := by norm_num
    rw [e] at q3
    exact ⟨v, is, rows, q1, q2, q3⟩

/-- In steady state: the last two only. -/
example : ∃ w D an G s0 log s', ExampleNU (nuDoc none) w D an G s0 log s' ∧
    ∃ v is rows, Over G 2 s'.temps ⟨0, 1000, 1000, 1000⟩ 0 .maximum v ∧ LayerCells G 2 is ∧
      log = [⟨"b.txt", true, .record (.line 0 [v])⟩, ⟨"xyaxis_TOP.txt", false, .axes rows⟩, ⟨"p.txt", true, .record (.map [is.map fun i => s'.sources.getD i 0])⟩] := by
  obtain ⟨w, D, an, G, s0, log, s', E⟩ := nuSteady_runs
  obtain ⟨v, is, rows, q1, q2, -, q3⟩ := nu_final E (C71_steady E.session E.sensible (E.division (nuDoc_division _)) E.times10 rfl).2
  exact ⟨w, D, an, G, s0, log, s', E, v, is, rows, q1, q2, q3⟩

/-- The report of that chip: nothing for the layer, which is below, and the three layers of the die. -/
example : ∃ w D an G s0 log s', ExampleNU (nuDoc none) w D an G s0 log s' ∧ ∃ below above a b c, LayerLine G 1 a ∧ LayerLine G 2 b ∧ LayerLine G 3 c ∧
    below = ("L", none) ∧ above = ("TOP", some [a, b, c]) ∧ buildLog D = [⟨"conductance_layer.txt", false, .layers [below, above]⟩] := by
  obtain ⟨w, D, an, G, s0, log, s', E⟩ := nuSteady_runs
  obtain ⟨rows, h1, h2, h3⟩ := C71_report E.session.start E.sensible
  obtain ⟨r0, g0, n0, m0⟩ := h3 [.die "TOP" "CORE" "duo.flp" (some (1, 2))] (.layer "L" "PCB" (some (2, 3))) [] rfl
  obtain ⟨r1, g1, n1, ls, m1, m2, m3⟩ := h3 [] (.die "TOP" "CORE" "duo.flp" (some (1, 2))) [.layer "L" "PCB" (some (2, 3))] rfl
  have h2 : rows.length = 2 := h2
  match rows, h2, h1, g0, g1 with
  | [a, b], _, h1, g0, g1 =>
    simp at g0 g1
    subst g0; subst g1
    have m2 : ls.length = 3 := m2
    match ls, m2, m1, m3 with
    | [p, q, r], _, m1, m3 =>
      exact ⟨w, D, an, G, s0, log, s', E, a, b, p, q, r, m3 0 p rfl, m3 1 q rfl, m3 2 r rfl, Prod.ext n0 m0, Prod.ext n1 m1, h1⟩

/-- The hottest coolant at the outlet, at the end of a simulation of a chip with channels in the 4RM model. -/
def nuOut : StackD := { nuWet4 with points := [.tcoolant "CH" "c.txt" .maximum .unsaid], solver := ⟨none, 300, none⟩ }
theorem nuOut_sensible : Sensible eff1 nuFiles nuOut := by
  have h := nuWet4_sensible
  exact ⟨h.1, h.2, h.3, h.4, h.5, h.6, h.7, h.8, h.9, h.10, h.11⟩
theorem nuOut_division : GoodDivision nuFiles nuOut := ⟨nuWet4_division.1, nuWet4_division.2, nuWet4_division.3, nuWet4_division.4⟩
theorem nuOut_runs : ∃ w D an G s0 log s', ExampleNU nuOut w D an G s0 log s' := by
  refine nu_runs ⟨by decide, by decide, by decide⟩ (by decide +kernel) nuOut_sensible ?_ ?_ (by decide +kernel) (by decide) (by simp [nuOut, nuWet4, nuWet2, wet2Doc, exDoc]) ?_ ?_
  · intro id ref p o h
    simp [nuOut, nuWet4, nuWet2] at h
    exact .inl h.2.2.1
  · simp [nuOut, nuWet4, nuWet2, wet2Doc, exDoc]
  · simp [nuOut, ShortNames]
  · intro step slot h; cases h

example : ∃ w D an G s0 log s', ExampleNU nuOut w D an G s0 log s' ∧
    ∃ v, HottestOutlet nuOut G 1 s'.temps v ∧ log = [⟨"c.txt", true, .record (.line 0 [v])⟩] := by
  obtain ⟨w, D, an, G, s0, log, s', E⟩ := nuOut_runs
  obtain ⟨ls, h1, h2⟩ := (C71_steady E.session E.sensible (E.division nuOut_division) E.times10 rfl).2
  rw [show pointsOn nuOut .final = [.tcoolant "CH" "c.txt" .maximum .unsaid] by simp [pointsOn, nuOut, whenOf]] at h1
  rcases h1 with _ | ⟨⟨r, ⟨lay, v, ⟨above, x, below, hx, hn, hl⟩, rfl, hb⟩, rfl⟩, _ | _⟩
  refine ⟨w, D, an, G, s0, log, s', E, v, ?_, h2⟩
  have : lay = 1 := by
    simp only [nuOut, nuWet4, nuWet2] at hx
    rcases above with _ | ⟨a, _ | ⟨b, _ | ⟨c, above⟩⟩⟩
    · simp only [List.nil_append, List.cons.injEq] at hx
      obtain ⟨rfl, rfl⟩ := hx
      exact absurd hn (by decide)
    · simp only [List.cons_append, List.nil_append, List.cons.injEq] at hx
      obtain ⟨-, rfl, rfl⟩ := hx
      rw [hl]; rfl
    · simp only [List.cons_append, List.nil_append, List.cons.injEq] at hx
      obtain ⟨-, -, rfl, rfl⟩ := hx
      exact absurd hn (by decide)
    · have := congrArg List.length hx
      simp at this
  subst this
  exact hb

/-- What is appended accumulates; what is created anew replaces. -/
example : contentsNU "a" [⟨"a", true, .record (.line 1 [2])⟩, ⟨"b", false, .axes []⟩, ⟨"a", true, .record (.line 2 [3])⟩] =
    [.record (.line 1 [2]), .record (.line 2 [3])] := by
  rw [C71_appended _ _ (by simp)]; simp

example : contentsNU "b" ([⟨"b", false, .axes [(0, 0, 1, 1)]⟩, ⟨"a", true, .record (.line 1 [2])⟩] ++ ⟨"b", false, .axes [(0, 0, 2, 2)]⟩ :: [⟨"a", true, .record (.line 2 [3])⟩]) =
    [.axes [(0, 0, 2, 2)]] := C71_replaced _ _ _ _ (by simp)

/-- C71_openable: the same files, with an output file that cannot be opened. -/
example : ∃ w : World Unit, Contains w "s.stk" (nuDoc none) ∧ (∀ st log o, MainNU w ["s.stk"] st log o → st = .failure ∧ log = []) ∧ ∃ st log o, MainNU w ["s.stk"] st log o := by
  obtain ⟨w, D, an, G, s0, log, s', E⟩ := nuSteady_runs
  have hc : Contains { w with canOpen := fun f => f != "f.txt" } "s.stk" (nuDoc none) := E.session.file
  have bad := fun {st log o} (h : MainNU { w with canOpen := fun f => f != "f.txt" } ["s.stk"] st log o) =>
    (C71_openable hc).1 h (.tflp "TOP" "f.txt" .average .slot) (by simp [nuDoc]) (by simp) (by simp [fileOf])
  refine ⟨_, hc, fun st log o h => ⟨(bad h).1, (bad h).2.1⟩, ?_⟩
  obtain ⟨q, L, h1, -, -⟩ := E.session.started
  refine ⟨_, _, _, .unwritable (D := D) (an := an) (q := q) ?_ E.session.nonUniform E.session.times h1 ?_⟩
  · exact readInputNU_iff.mpr ⟨⟨_, hc, E.session.means⟩, E.session.loaded⟩
  · by_contra h
    have := (headers_iff (w := w) E.session.means _).mp (by simpa using h) (.tflp "TOP" "f.txt" .average .slot) (by simp [nuDoc]) (by simp)
    simp [fileOf] at this

end Verif.Prog
