import Verif.Props.NuSteady
import Verif.Props.NonUniformFlaws
import Verif.Props.NuSimEx

set_option linter.unusedSectionVars false
set_option linter.unusedSimpArgs false
set_option linter.unusedVariables false

/-! # C72: what happens with gaps; concrete cases -/

namespace Verif.NU
open Verif.Dim Verif.TG Verif.Stk Verif.SM

variable {K : Type} [Field K] [LinearOrder K] [IsStrictOrderedRing K]
variable {d0 : Dims K} {decl : Option (Channel K)} {rs : List (Raw K (List (FEl K)))} {ns : List (NElem K)} {G : Grid K} {a : Ana K} {m : Csc K}

/-- Cell `i` has no neighbour: no cell of its layer touches it, and no cell of the layers below and above has a common face with it. -/
def Island (G : Grid K) (i : Nat) : Prop :=
  ∀ p, G.cells[i]? = some p → ∀ j q, j ≠ i → G.cells[j]? = some q →
    (p.layer = q.layer → ¬ TouchX p q ∧ ¬ TouchY p q) ∧ (p.layer + 1 = q.layer ∨ q.layer + 1 = p.layer → ¬ Overlap p q)

/-- **C72 is false with gaps** Floorplans may leave gaps, and then a cell of a die below may have no neighbours at all. Such a stack is accepted and
its grid is built, but its steady state is not determined: the equations never have exactly one solution, whatever the powers. -/
theorem C72_gaps_violated (hf : FromStack d0 decl rs ns G) (fit : ChipFits G.d) (ph : PhysicalNU G) (hsh : Sharp G) (hno : ∀ n ∈ ns, ∀ ch, n.elem.body ≠ .channel ch)
    (hm : Assembled id G a m) (hat : a.transient = false) {i : Nat} (hi : i < G.cells.length) (hl : G.cells[i].layer + 1 < G.d.nLayers) (his : Island G i) (b : Nat → K) :
    ¬ OneSolution G.cells.length m.entry b := by
  have hin : ∀ c, ¬ InChannel ns c := by
    rintro c ⟨n, hn, ch, hb, -⟩
    exact hno n hn ch hb
  have zero : ∀ j, j < G.cells.length → j ≠ i → m.entry i j = 0 ∧ m.entry j i = 0 := by
    intro j hj hji
    obtain ⟨h1, h2⟩ := his _ (List.getElem?_eq_getElem hi) j _ hji (List.getElem?_eq_getElem hj)
    have key := C58_solid_pairs_partial hf ph hsh hm (i := i) (j := j) (Ne.symm hji) hi hj (hin _) (hin _) (fun h => by
      refine ⟨by omega, ?_⟩
      rintro (⟨h3, -⟩ | ⟨h3, -⟩)
      · exact (h1 h).1 h3
      · exact (h1 h).2 h3)
    have hz : link G G.cells[i] G.cells[j] = 0 := by
      unfold link
      split_ifs with e1 e2 e3 e4 e5
      · exact absurd e2 (h1 e1).1
      · exact absurd e3 (h1 e1).2
      · rfl
      · exact absurd e5 (h2 e4)
      · rfl
      · rfl
    obtain ⟨k1, k2⟩ := key
    rw [hz, neg_zero] at k1 k2
    exact ⟨k1, k2⟩
  have diag : m.entry i i = 0 := by
    obtain ⟨-, h2⟩ := C58_solid hf fit ph hsh hm hi (hin _)
    have ha : toAmbient G G.cells[i] = 0 := by
      unfold toAmbient
      split
      · rw [if_neg (by omega)]
      · rfl
    rw [ha, add_zero, show storage a (heatCapacity G G.cells[i]) = 0 by unfold storage; rw [hat]; rfl] at h2
    rw [Finset.sum_eq_single i (fun j hj hji => (zero j (Finset.mem_range.mp hj) hji).1) (fun h => absurd (Finset.mem_range.mpr hi) h)] at h2
    exact h2
  rintro ⟨x, h1, h2⟩
  have h3 := h2 (fun j => if j = i then x j + 1 else x j) (by
    intro k hk
    rw [← h1 k hk]
    refine Finset.sum_congr rfl fun j hj => ?_
    by_cases e : j = i
    · subst e
      have : m.entry k j = 0 := by
        by_cases e : k = j
        · rw [e]; exact diag
        · exact (zero k hk e).2
      rw [this, zero_mul, zero_mul]
    · simp only [if_neg e]) i hi
  simp only [if_true] at h3
  linarith

/-! ## Examples -/

theorem hotNoHoles (p q : ℚ) : NoHoles (hotGrid p q) (hotElems p q) := by
  have hin : ∀ c ∈ wet4Grid.cells, 0 ≤ c.x0 ∧ c.x1 ≤ wet4Grid.d.chipLength ∧ 0 ≤ c.y0 ∧ c.y1 ≤ wet4Grid.d.chipWidth := by decide +kernel
  have hchip : 0 < wet4Grid.d.chipLength := by decide +kernel
  refine ⟨hchip, hin, ?_, ?_, fun _ _ _ _ => wet4Whole, ?_⟩
  · intro n hn
    simp only [hotElems, List.mem_cons, List.not_mem_nil, or_false] at hn
    rcases hn with rfl | rfl | rfl
    · show 0 < 1 ∧ 0 < 1; decide
    · trivial
    · intro e he
      simp only [hotFlp, List.mem_cons, List.not_mem_nil, or_false] at he
      rcases he with rfl | rfl <;> norm_num
  · rintro x y ⟨⟨h1, h2⟩, h3, h4⟩ n hn b hb
    have h2 : x < 90 := h2
    have h4 : y < 20 := h4
    simp only [hotElems, List.mem_cons, List.not_mem_nil, or_false] at hn
    rcases hn with rfl | rfl | rfl
    · cases hb
    · cases hb
    · cases hb
      by_cases hx : x < 45
      · exact ⟨⟨⟨0, 0, 45, 20⟩, [], 1, 1, none, [p]⟩, by simp [hotFlp], decide_eq_true ⟨h1, by norm_num; linarith, h3, by norm_num; linarith⟩⟩
      · refine ⟨⟨⟨45, 0, 45, 20⟩, [], 1, 1, none, [q]⟩, by simp [hotFlp], ?_⟩
        exact decide_eq_true ⟨not_lt.mp hx, by norm_num; linarith, h3, by norm_num; linarith⟩
  · intro n hn n' hn' ch ch' hb hb'
    simp only [hotElems, List.mem_cons, List.not_mem_nil, or_false] at hn hn'
    rcases hn with rfl | rfl | rfl <;> rcases hn' with rfl | rfl | rfl <;> first | (cases hb; done) | (cases hb'; done) | skip
    cases hb
    simp [wetChannel, chLayers, exChannel]

theorem hotExchanges (p q : ℚ) : ∀ ch, (hotGrid p q).g.channel = some ch → PosChannel ch ∧ Exchanges ch := by
  intro ch hch
  refine ⟨hotChannel p q ch hch, ?_⟩
  simp only [hotGrid, wet4Grid, Option.some.injEq] at hch
  subst hch
  unfold Exchanges
  decide +kernel

/-- Non-vacuity: the example with a 4RM channel has exactly one steady state, whatever the powers. -/
example (p q : ℚ) {a : Ana ℚ} {m : Csc ℚ} (hm : Assembled id (hotGrid p q) a m) (ha : a.transient = false) (b : Nat → ℚ) : OneSolution 13 m.entry b :=
  C72_steady_unique (hotFrom p q) (hotFits p q) (hotPhysical p q) (hotSharp p q) (hotExchanges p q) (hotNoHoles p q) hm ha (t := hotTop) rfl b

/-- Non-vacuity: the steady state of the example is found, and the same as with any other correct solver that finds one. -/
example (p q : ℚ) : (steadyNU (hotCfg .steady 2) (hotSim .steady 2 p q)).1 = .endOfSimulation ∧
    ∀ solve, CorrectNU { hotCfg .steady 2 with solve := solve } → (steadyNU { hotCfg .steady 2 with solve := solve } (hotSim .steady 2 p q)).1 = .endOfSimulation →
      (steadyNU (hotCfg .steady 2) (hotSim .steady 2 p q)).2.temps = (steadyNU { hotCfg .steady 2 with solve := solve } (hotSim .steady 2 p q)).2.temps := by
  have hpw : ∀ e ∈ elements (hotSim .steady 2 p q), e.powers ≠ [] := by
    intro e he
    rw [hot_elements] at he
    simp only [hotFlp, List.mem_cons, List.not_mem_nil, or_false] at he
    rcases he with rfl | rfl <;> simp
  have h := C72_steady_succeeds (hot_reachable .steady 2 p q) (t := hotTop) rfl rfl hpw (hotFits p q) (hotPhysical p q) (hotSharp p q) (hotExchanges p q)
    (hotNoHoles p q) (hot_complete _ _)
  refine ⟨h, fun solve hc hs => ?_⟩
  exact C72_steady_deterministic (hot_reachable .steady 2 p q) (cfg' := { hotCfg .steady 2 with solve := solve }) (.begun ⟨hotFile p q, runs_sequential _, (), rfl⟩) rfl (t := hotTop) rfl rfl rfl
    hpw (hotFits p q) (hotPhysical p q) (hotSharp p q) (hotExchanges p q) (hotNoHoles p q) (hot_correct _ _) hc h hs

/-- A die of two elements that do not touch, under a die that covers only the first one. -/
def islandFlp : List (FEl ℚ) := [⟨⟨0, 0, 40, 20⟩, [], 1, 1, none, [1]⟩, ⟨⟨60, 0, 30, 20⟩, [], 1, 1, none, [1]⟩]
def islandTop : List (FEl ℚ) := [⟨⟨0, 0, 40, 20⟩, [], 1, 1, none, [1]⟩]
def islandRaw : List (Raw ℚ (List (FEl ℚ))) := [⟨"top", .die ⟨[], exLayer 5, [], islandTop⟩⟩, ⟨"low", .die ⟨[], exLayer 5, [], islandFlp⟩⟩]
def islandElems : List (NElem ℚ) := [⟨⟨"low", .die ⟨[exLayer 5], 0, islandFlp⟩, 0⟩, 1, 1⟩, ⟨⟨"top", .die ⟨[exLayer 5], 0, islandTop⟩, 1⟩, 1, 1⟩]
def islandGrid : Grid ℚ :=
  { d := { exDims with nLayers := 2, heights := [5, 5], nCells := 20 }, nCells := 3
    g := { nLayers := 2, types := [.source, .sourceAmb], layers := [exLayer 5, exLayer 5], channel := none, top := some (.ambient ⟨1, 300⟩), bottom := none }
    ls := [[⟨0, 0, 0, 40, 20, exMat, false⟩, ⟨0, 60, 0, 90, 20, exMat, false⟩], [⟨1, 0, 0, 40, 20, exMat, false⟩]]
    flps := [some islandFlp, some islandTop]
    ns := islandElems.map fixDiscr }

theorem islandFrom : FromStack exDims none islandRaw islandElems islandGrid := by
  refine .fresh ⟨_, islandGrid.g, ⟨?_, ?_, ?_, ?_, rfl, rfl⟩, rfl, ?_⟩
  · show 1 ≤ 2; decide
  · show 1 ≤ 5; decide
  · intro s h; simp [spreaderOf, islandGrid] at h
  · rintro ch h; cases h
  · have e : buildNU islandGrid.d islandGrid.g.top islandGrid.g.bottom islandElems =
        some { islandGrid with ls := layersOf islandGrid.d islandGrid.g.top (islandElems.map fixDiscr) } := rfl
    refine e.trans ?_
    have hls : layersOf islandGrid.d islandGrid.g.top (islandElems.map fixDiscr) = islandGrid.ls := by decide +kernel
    rw [hls]

/-- Non-vacuity: the second element of the lower die is an island. -/
example {a : Ana ℚ} {m : Csc ℚ} (hm : Assembled id islandGrid a m) (ha : a.transient = false) (b : Nat → ℚ) : ¬ OneSolution 3 m.entry b := by
  refine C72_gaps_violated islandFrom ⟨by decide +kernel, by decide +kernel, by decide +kernel⟩ ⟨by decide +kernel, by decide +kernel, ?_, ?_, ?_⟩ ?_ ?_ hm ha
    (i := 1) (by decide) (by decide) ?_ b
  · intro c hc _
    have h : ∀ c ∈ islandGrid.cells, ownMat islandGrid c = exMat := by decide +kernel
    rw [h c hc]; exact exMat_pos
  · intro s h; simp [islandGrid] at h; subst h; norm_num
  · intro s m h; simp [islandGrid] at h
  · intro c hc c' hc'
    have : ∀ c ∈ islandGrid.cells, ∀ c' ∈ islandGrid.cells, Apart c c' := by unfold Apart; decide +kernel
    exact this c hc c' hc'
  · intro n hn ch hb
    simp only [islandElems, List.mem_cons, List.not_mem_nil, or_false] at hn
    rcases hn with rfl | rfl <;> cases hb
  · intro p hp j q hji hq
    have e : p = ⟨0, 60, 0, 90, 20, exMat, false⟩ := (Option.some.inj (hp.symm.trans (by decide +kernel)))
    subst e
    have hj := (List.getElem?_eq_some_iff.mp hq).1
    have hj : j < 3 := hj
    have : j = 0 ∨ j = 2 := by omega
    rcases this with rfl | rfl
    · have e : q = ⟨0, 0, 0, 40, 20, exMat, false⟩ := (Option.some.inj (hq.symm.trans (by decide +kernel)))
      subst e
      constructor
      · intro _; unfold TouchX TouchY; decide +kernel
      · intro h; simp at h
    · have e : q = ⟨1, 0, 0, 40, 20, exMat, false⟩ := (Option.some.inj (hq.symm.trans (by decide +kernel)))
      subst e
      constructor
      · intro h; simp at h
      · intro _; unfold Overlap; decide +kernel

end Verif.NU
