import Verif.Lemmas.NuExample

set_option linter.unusedSimpArgs false
set_option linter.unusedVariables false

/-! # C44: rounding, and examples -/

namespace Verif.NU
open Verif.Dim Verif.TG Verif.Stk Verif.SM

/-- The properties hold, in particular, for a die with two floorplan elements (one cut in two by columns, the other by rows)
under a layer with another grid: ten cells. -/
example (bottom : Option (Sink ℚ)) (p q : ℚ) (a : Ana ℚ) :
    ∃ m, Assembled id (nuGrid bottom p q) a m ∧ ValidCsc m 10 ∧ (∀ i j, i < 10 → j < 10 → m.entry i j = m.entry j i) ∧
      ∑ j ∈ Finset.range 10, m.entry 9 j = storage a (exMat.vhc * (10 * 10 * 7)) + series (1 * (10 * 10)) (exMat.kz * (10 * 10) / (7 / 2)) := by
  obtain ⟨m, hm⟩ := assembled_exists id (nuGrid bottom p q) a
  have hlen : (nuGrid bottom p q).cells.length = 10 := by rw [nuCells]; rfl
  refine ⟨m, hm, ?_, ?_, ?_⟩
  · rw [← hlen]; exact (C44_structure (by rw [nuCells]; simp) hm).1
  · intro i j hi hj
    exact C44_symmetric (nuFrom bottom p q) hm i j (by rw [hlen]; exact hi) (by rw [hlen]; exact hj)
  · have := C44_row_sums (nuFrom bottom p q) (nuPhysical bottom p q) hm 9 (by rw [hlen]; decide)
    have hc : (nuGrid bottom p q).cells[9]'(by rw [hlen]; decide) = ⟨2, 10, 0, 20, 10, noMat, false⟩ := by
      simp only [nuCells]; rfl
    rw [hc] at this
    rw [hlen] at this
    rw [this]
    have h1 : heatCapacity (nuGrid bottom p q) ⟨2, 10, 0, 20, 10, noMat, false⟩ = exMat.vhc * (10 * 10 * 7) := by
      show exMat.vhc * ((20 - 10) * (10 - 0) * 7) = _
      norm_num
    have h2 : toAmbient (nuGrid bottom p q) ⟨2, 10, 0, 20, 10, noMat, false⟩ = series (1 * (10 * 10)) (exMat.kz * (10 * 10) / (7 / 2)) := by
      show series (1 * ((20 - 10) * (10 - 0))) (exMat.kz * ((20 - 10) * (10 - 0)) / (7 / 2)) = _
      norm_num
    rw [h1, h2]

example (bottom : Option (Sink ℚ)) (p q : ℚ) (b : Nat → ℚ) : ∃ m, Assembled id (nuGrid bottom p q) ⟨true, 1 / 10⟩ m ∧
    OneSolution 10 m.entry b := by
  obtain ⟨m, hm⟩ := assembled_exists id (nuGrid bottom p q) ⟨true, 1 / 10⟩
  have hlen : (nuGrid bottom p q).cells.length = 10 := by rw [nuCells]; rfl
  refine ⟨m, hm, ?_⟩
  rw [← hlen]
  exact (C44_dominant_unique (nuFrom bottom p q) (nuPhysical bottom p q) hm rfl (by norm_num)).2.2 b

/-! ## Rounding

The statement that the matrix does not depend on the schedule is false for numbers that are rounded: the diagonal adds the
conductances of a cell in the order of the list. -/

/-- Rounding towards zero to the multiples of two, exact below two. -/
def coarse (x : ℚ) : ℚ := if x < 2 then x else 2 * ⌊x / 2⌋

theorem coarse_mono : Monotone coarse := by
  intro x y h
  unfold coarse
  have key : ∀ z : ℚ, 2 ≤ z → (2 : ℚ) ≤ 2 * ⌊z / 2⌋ := by
    intro z hz
    have : (1 : ℤ) ≤ ⌊z / 2⌋ := Int.le_floor.mpr (by push_cast; linarith)
    have : (1 : ℚ) ≤ (⌊z / 2⌋ : ℤ) := by exact_mod_cast this
    linarith
  split_ifs with h1 h2 h2
  · exact h
  · have := key y (by linarith); linarith
  · linarith
  · have : ⌊x / 2⌋ ≤ ⌊y / 2⌋ := Int.floor_le_floor (by linarith)
    have : ((⌊x / 2⌋ : ℤ) : ℚ) ≤ ⌊y / 2⌋ := by exact_mod_cast this
    linarith

/-- A source layer with three elements in a row, of length 1, 1 and 5. -/
def rowMat : Material ℚ := ⟨3, 1, 3, 1⟩
def rowLayer : Layer ℚ := ⟨1, rowMat, []⟩
def rowFlp : List (FEl ℚ) :=
  [⟨⟨0, 0, 1, 1⟩, [], 1, 1, none, [0]⟩, ⟨⟨1, 0, 1, 1⟩, [], 1, 1, none, [0]⟩, ⟨⟨2, 0, 5, 1⟩, [], 1, 1, none, [0]⟩]
def rowD0 : Dims ℚ := { exDims with chipLength := 7, chipWidth := 1 }
def rowRaw : List (Raw ℚ (List (FEl ℚ))) := [⟨"die", .die ⟨[], rowLayer, [], rowFlp⟩⟩]
def rowElems : List (NElem ℚ) := [⟨⟨"die", .die ⟨[rowLayer], 0, rowFlp⟩, 0⟩, 1, 1⟩]
def rowGrid : Grid ℚ :=
  { d := { rowD0 with nLayers := 1, heights := [1], nCells := 10 }, nCells := 3
    g := { nLayers := 1, types := [.sourceAmb], layers := [rowLayer], channel := none, top := some (.ambient ⟨1 / 2, 300⟩), bottom := none }
    ls := [[⟨0, 0, 0, 1, 1, rowMat, false⟩, ⟨0, 1, 0, 2, 1, rowMat, false⟩, ⟨0, 2, 0, 7, 1, rowMat, false⟩]]
    flps := [some rowFlp]
    ns := rowElems.map fixDiscr }

theorem rowFrom : FromFile rowD0 rowRaw rowElems rowGrid := by
  refine ⟨_, rowGrid.g, ⟨?_, ?_, ?_, ?_, rfl, rfl⟩, rfl, ?_⟩
  · show 1 ≤ 2; decide
  · show 1 ≤ 5; decide
  · intro s h; simp [spreaderOf, rowGrid] at h
  · rintro ch h; simp at h
  · have e : buildNU rowGrid.d rowGrid.g.top rowGrid.g.bottom rowElems =
        some { rowGrid with ls := layersOf rowGrid.d rowGrid.g.top (rowElems.map fixDiscr) } := rfl
    refine e.trans ?_
    have hls : layersOf rowGrid.d rowGrid.g.top (rowElems.map fixDiscr) = rowGrid.ls := ?_
    · rw [hls]
    simp only [rowGrid, layersOf, stackLayers, elemLayers, spreaderLayer, rowElems, fixDiscr, List.map_cons, List.map_nil, rowFlp, fixEl]
    norm_num [List.range_succ, dieLayer, subCells, rowLayer]

theorem rowPhysical : PhysicalNU rowGrid := by
  refine ⟨?_, ?_, ?_, ?_, ?_⟩
  · intro h hh; simp [rowGrid] at hh; subst hh; norm_num
  · intro c hc
    simp only [Grid.cells, rowGrid, List.flatten_cons, List.flatten_nil, List.append_nil, List.mem_cons, List.not_mem_nil, or_false] at hc
    rcases hc with rfl | rfl | rfl <;> norm_num [Cell.length, Cell.width]
  · intro c hc _
    simp only [Grid.cells, rowGrid, List.flatten_cons, List.flatten_nil, List.append_nil, List.mem_cons, List.not_mem_nil, or_false] at hc
    rcases hc with rfl | rfl | rfl <;> (show PosMat rowMat; unfold PosMat rowMat; norm_num)
  · intro s h; simp [rowGrid] at h; subst h; norm_num
  · intro s m h; simp [rowGrid] at h

def rowC01 : Conn ℚ := ⟨0, 1, 1, 1⟩
def rowC12 : Conn ℚ := ⟨1, 2, 1, 1⟩

theorem rowRuns (ts : List (List Nat)) (h : ts.flatten.Perm [0, 1, 2]) (L : List (Conn ℚ))
    (hL : L = ts.flatMap fun t => t.flatMap (inRegion rowGrid.ls 0 0).body) :
    Runs (regions rowGrid.d.nLayers rowGrid.ty rowGrid.ls) L := by
  have hr : regions rowGrid.d.nLayers rowGrid.ty rowGrid.ls = [inRegion rowGrid.ls 0 0] := by
    rfl
  rw [hr]
  exact ⟨[L], .cons ⟨ts, h, hL⟩ .nil, by simp⟩

/-- With rounded additions the matrix of one and the same stack depends on the schedule: a stack of three cells in a row and a
monotone rounding for which two schedules of the same loop give different diagonal coefficients. -/
theorem C44_rounding_violated : ∃ rnd : ℚ → ℚ, Monotone rnd ∧ (∀ x, 0 ≤ x → rnd x ≤ x ∧ x ≤ 2 * rnd x) ∧
    ∃ (d0 : Dims ℚ) (rs : List (Raw ℚ (List (FEl ℚ)))) (ns : List (NElem ℚ)) (G : Grid ℚ) (a : Ana ℚ) (m m' : Csc ℚ),
      FromFile d0 rs ns G ∧ PhysicalNU G ∧ Assembled rnd G a m ∧ Assembled rnd G a m' ∧ m.entry 1 1 ≠ m'.entry 1 1 := by
  refine ⟨coarse, coarse_mono, ?_, rowD0, rowRaw, rowElems, rowGrid, ⟨false, 1⟩, _, _, rowFrom, rowPhysical,
    ⟨[rowC01, rowC12], rowRuns [[0, 1, 2]] (by decide) _ (by decide +kernel), rfl⟩,
    ⟨[rowC12, rowC01], rowRuns [[1, 2], [0]] (by decide) _ (by decide +kernel), rfl⟩, ?_⟩
  · intro x hx
    unfold coarse
    split_ifs with h
    · exact ⟨le_refl _, by linarith⟩
    · have h1 := Int.floor_le (x / 2)
      have h2 := Int.lt_floor_add_one (x / 2)
      have h3 : (1 : ℤ) ≤ ⌊x / 2⌋ := Int.le_floor.mpr (by push_cast; linarith)
      have h4 : (1 : ℚ) ≤ (⌊x / 2⌋ : ℤ) := by exact_mod_cast h3
      constructor <;> linarith
  · have p1 : Proper rowGrid.ls.flatten.length [rowC01, rowC12] := runs_proper rowGrid.okTy (rowRuns [[0, 1, 2]] (by decide) _ (by decide +kernel))
    have p2 : Proper rowGrid.ls.flatten.length [rowC12, rowC01] := runs_proper rowGrid.okTy (rowRuns [[1, 2], [0]] (by decide) _ (by decide +kernel))
    rw [entry_eq coarse rowGrid.g ⟨false, 1⟩ rowGrid.d p1 1 (by decide), entry_eq coarse rowGrid.g ⟨false, 1⟩ rowGrid.d p2 1 (by decide)]
    decide +kernel

end Verif.NU
