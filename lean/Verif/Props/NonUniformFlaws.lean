import Verif.Props.NonUniformSide
import Verif.Model.Solver

set_option linter.unusedSectionVars false
set_option linter.unusedSimpArgs false
set_option linter.unusedVariables false

/-! # C58: what is wrong with channels on non-uniform grids -/

namespace Verif.NU
open Verif.Dim Verif.TG Verif.Stk Verif.SM

variable {K : Type} [Field K] [LinearOrder K] [IsStrictOrderedRing K]
variable {d0 : Dims K} {decl : Option (Channel K)} {rs : List (Raw K (List (FEl K)))} {ns : List (NElem K)} {G : Grid K} {a : Ana K} {m : Csc K}

/-- The test for the last row of a channel (sources/system_matrix.c:663 and 675) in binary64, with the position and the width of the
row as get_cell_position computes them (sources/thermal_data.c:371-377, 418-420): each operation is rounded. `0.0 + y` is exact. -/
def outletTest (rnd : ℚ → ℚ) (chipWidth : ℚ) (nRows r : Nat) : Prop :=
  let y0 := rnd (rnd (chipWidth / (nRows : ℚ)) * (r : ℚ))
  let y1 := rnd (rnd (chipWidth / (nRows : ℚ)) * ((r + 1 : Nat) : ℚ))
  rnd (y0 + rnd (y1 - y0)) = chipWidth

/-- Without rounding, the test finds the last row. -/
theorem outletTest_exact {w : ℚ} (hw : 0 < w) {n r : Nat} (hn : 0 < n) : outletTest id w n r ↔ r + 1 = n := by
  have hn' : (n : ℚ) ≠ 0 := by exact_mod_cast (by omega : n ≠ 0)
  unfold outletTest
  simp only [id]
  rw [add_sub_cancel, div_mul_eq_mul_div, div_eq_iff hn', mul_right_inj' (ne_of_gt hw), Nat.cast_inj]

/-- **C58 (outlet, violated)** In binary64 the last row of a chip 1000 wide with 15 rows is not found, so that the outlet term is
missing (C58_stream says what the column of this row would be with it). -/
theorem C58_outlet_rounding_violated : ∀ r, r < 15 → ¬ outletTest Solver.rnd 1000 15 r := by
  unfold outletTest
  decide +kernel

/-- Non-vacuity: with ten rows the test works in binary64. -/
example : ∀ r, r < 10 → (outletTest Solver.rnd 1000 10 r ↔ r + 1 = 10) := by unfold outletTest; decide +kernel

section
variable (hf : FromStack d0 decl rs ns G) (fit : ChipFits G.d)
include hf fit

/-- **C58 (gap, violated)** If the columns do not fill the length of the chip, some points of the chip lie in no cell of a layer of a channel:
the last column is placed at the end of the chip. -/
theorem C58_gap_violated (hgap : gridLength G.d < G.d.chipLength) (hcols : 1 < G.d.nCols) {n : NElem K} (hn : n ∈ ns) {ch : Channel K}
    (hb : n.elem.body = .channel ch) {k : Nat} (hk : k < chLayers ch) :
    ∃ x, 0 ≤ x ∧ x < G.d.chipLength ∧ ∀ y, ∀ c ∈ G.cells, c.layer = n.elem.offset + k → inCell x y c = false := by
  have hs := hf.wf.sized
  have hlast : chanX1 G.d (G.d.nCols - 1) = G.d.chipLength := by unfold chanX1; rw [if_neg (by omega), if_pos rfl]
  have hlen := chan_len hs (show G.d.nCols - 1 < G.d.nCols by omega)
  have hgl := gridLength_last hs
  have hright := chan_right hs (show G.d.nCols - 2 + 1 < G.d.nCols by omega)
  rw [show G.d.nCols - 2 + 1 = G.d.nCols - 1 by omega] at hright
  have hlt : locX G.d (G.d.nCols - 1) < chanX0 G.d (G.d.nCols - 1) := by linarith
  have hpos := column_pos hs fit (show G.d.nCols - 1 < G.d.nCols by omega)
  have h0 : 0 ≤ locX G.d (G.d.nCols - 1) := by
    have := locX_mono hs fit (show 0 ≤ G.d.nCols - 1 by omega) (by omega)
    rwa [locX_zero] at this
  refine ⟨locX G.d (G.d.nCols - 1), h0, by linarith, fun y c hc hl => ?_⟩
  obtain ⟨i, hi, rfl⟩ := List.getElem_of_mem hc
  obtain ⟨r, q, hr, hq, e⟩ := chan_of_layer hf hn hb hk hi hl
  have hcell : G.cells[i] = chanCell G.d ch.model n.elem.offset k r q := by
    have := chan_get hf hn hb hk hr hq
    rw [← e] at this
    exact (List.getElem?_eq_some_iff.mp this).2
  rw [hcell]
  unfold inCell
  rw [decide_eq_false_iff_not]
  rintro ⟨h1, h2, -⟩
  change chanX0 G.d q ≤ _ at h1
  change _ < chanX1 G.d q at h2
  by_cases hql : q = G.d.nCols - 1
  · subst hql; linarith
  · rw [chan_right hs (by omega)] at h2
    have := locX_mono hs fit (show q + 1 ≤ G.d.nCols - 1 by omega) (by omega)
    linarith

end

section
variable (hf : FromStack d0 decl rs ns G) (fit : ChipFits G.d) (ph : PhysicalNU G) (hsh : Sharp G)
include hf fit ph hsh

/-- **C58 (no film, violated)** A heat transfer coefficient of zero insulates a surface from the coolant (C57_film_4rm says so for uniform
grids). On a non-uniform grid the wall under a 4RM channel exchanges heat with the coolant then as if there was no film at all. -/
theorem C58_zero_film_violated {rnd : K → K} (hm : Assembled rnd G a m) {n : NElem K} (hn : n ∈ ns) {ch : Channel K} (hb : n.elem.body = .channel ch)
    (h4 : ch.model = .mc4rm) (h0 : ch.coolant.htcBottom = 0) {i r c : Nat} (hi : i < G.cells.length) (hs : ¬ InChannel ns G.cells[i])
    (hl : G.cells[i].layer + 1 = n.elem.offset) (hr : r < G.d.nRows) (hc : c < G.d.nCols) (hw : WetCol G ch c) :
    ∃ cell, G.cells[G.at n.elem.offset r c]? = some cell ∧
      (Overlap G.cells[i] cell → ∀ A, A = commonX G.cells[i] cell * commonY G.cells[i] cell →
        Conducts m i (G.at n.elem.offset r c) (toFace G G.cells[i] A) ∧ 0 < toFace G G.cells[i] A) := by
  have hk : 0 < chLayers ch := by unfold chLayers; split_ifs <;> omega
  obtain ⟨hj, hcell⟩ := chan_place hf fit ph hsh hn hb hk hr hc
  simp only [Nat.add_zero] at hj hcell
  obtain ⟨-, ver, pos, -, -⟩ := solid_halves hf ph hi hs
  have hz := ver (Or.inl (chan_more hf fit ph hsh hn hb))
  have hlay : G.cells[G.at n.elem.offset r c].layer = n.elem.offset := by rw [hcell]; rfl
  have hface : Facing ns G.cells[i].layer G.cells[G.at n.elem.offset r c].layer := by
    rw [hlay]
    refine Or.inl ⟨hl, ?_⟩
    rintro ⟨o, ⟨n', hn', ch', hb', hmod, rfl⟩, e⟩
    have : chLayers ch' = 4 := by simp [chLayers, hmod]
    exact hs ⟨n', hn', ch', hb', by omega, by omega⟩
  refine ⟨G.cells[G.at n.elem.offset r c], List.getElem?_eq_getElem hj, fun hO A hA => ?_⟩
  have hApos : 0 < A := by rw [hA]; exact mul_pos hO.1 hO.2
  subst hA
  obtain ⟨w1, -⟩ := gz_chan hf hn hb (k := 0) (r := r) hk hc (commonX G.cells[i] G.cells[G.at n.elem.offset r c] * commonY G.cells[i] G.cells[G.at n.elem.offset r c]) false
  have hz' : ∀ v, gz G.g G.d v G.cells[G.at n.elem.offset r c] false = gz G.g G.d v (chanCell G.d ch.model n.elem.offset 0 r c) false :=
    fun v => by rw [hcell]
  refine ⟨(over_conducts hf ph hsh hm hi hj hface hO (g1 := 0) ?_ (hz _ _)).1 rfl, pos _ hApos⟩
  rw [hz', w1 h4 hw]
  simp [filmDown, h4, h0]

/-- **C58 (2RM walls, violated)** The material between the channels of a 2RM channel conducts heat along the channels. Its conductance should be
`(1 - porosity) * wallAlong` (so it is on a uniform grid); the program divides by the length of the cell instead of its width, so that
it is right only for cells as long as wide. -/
theorem C58_virtual_wall_violated (hw : gridLength G.d = G.d.chipLength) {rnd : K → K} (hm : Assembled rnd G a m) {n : NElem K} (hn : n ∈ ns) {ch : Channel K} (hb : n.elem.body = .channel ch)
    (h2 : ch.model = .mc2rm) (hp : ch.porosity < 1) {r c : Nat} (hr : r + 1 < G.d.nRows) (hc : c < G.d.nCols) :
    ∃ g, Conducts m (G.at (n.elem.offset + 1) r c) (G.at (n.elem.offset + 1) (r + 1) c) g ∧
      (g = (1 - ch.porosity) * wallAlong G ch c ↔ cellLength G.d c = rowWidth G) := by
  have hk : 1 < chLayers ch := by simp [chLayers, h2]
  have hs := hf.wf.sized
  have hwp := rowWidth_pos hs fit
  obtain ⟨-, pkx, pky, phh⟩ := wallFace_pos hf fit ph hsh hn hb (by omega) (by omega)
  have hty : G.ty (n.elem.offset + 1) = 2 := by
    have := ty_elem hf hn (k := 1) (by unfold nLayersOf; rw [hb]; exact hk)
    rw [hb] at this
    simp only [h2] at this
    exact this
  have pc : 0 < cellLength G.d c := by rw [← chan_len hs hc]; linarith [column_pos hs fit hc]
  obtain ⟨hi, hci⟩ := chan_place hf fit ph hsh hn hb hk (show r < G.d.nRows by omega) hc
  obtain ⟨hj, hcj⟩ := chan_place hf fit ph hsh hn hb hk hr hc
  obtain ⟨tx, ty⟩ := chan_touch (G := G) (mo := ch.model) (o := n.elem.offset) (k := 1) hs fit hw (show r < G.d.nRows by omega) hc hr hc
  have hY : TouchY G.cells[G.at (n.elem.offset + 1) r c] G.cells[G.at (n.elem.offset + 1) (r + 1) c] := by
    rw [hci, hcj, ty]; exact ⟨rfl, Or.inl rfl⟩
  have hX : ¬ TouchX G.cells[G.at (n.elem.offset + 1) r c] G.cells[G.at (n.elem.offset + 1) (r + 1) c] := by
    rw [hci, hcj, tx]; omega
  have hl1 : G.cells[G.at (n.elem.offset + 1) r c].layer = n.elem.offset + 1 := by rw [hci]; rfl
  have hl2 : G.cells[G.at (n.elem.offset + 1) (r + 1) c].layer = n.elem.offset + 1 := by rw [hcj]; rfl
  have hch : G.cells[G.at (n.elem.offset + 1) r c].chan = false := by
    rw [hci]
    show chanFlag G.d ch.model 1 c = false
    rw [h2]; rfl
  obtain ⟨f1, f2⟩ := side_y hf ph hsh hm (at_lt hc (Or.inl (by omega))) hj hi (hl1.trans hl2.symm) hX hY (by rw [hl1, hty]; omega) hch
  have hv : shortest (G.cells[G.at (n.elem.offset + 1) r c].x0 - G.cells[G.at (n.elem.offset + 1) (r + 1) c].x1)
      (G.cells[G.at (n.elem.offset + 1) r c].x1 - G.cells[G.at (n.elem.offset + 1) (r + 1) c].x0) = cellLength G.d c := by
    rw [hci, hcj]
    show shortest (chanX0 G.d c - chanX1 G.d c) (chanX1 G.d c - chanX0 G.d c) = _
    have ea := chan_len hs hc
    have eb : chanX0 G.d c - chanX1 G.d c = - cellLength G.d c := by rw [← ea]; ring
    rw [ea, eb, shortest_eq (by linarith) pc, neg_neg, min_self]
  obtain ⟨c1, -, -, h5, h6, -⟩ := hf.channel hn hb
  obtain ⟨t1, t2, t3⟩ := h6 1 .vwallCh (by rw [h2]; rfl)
  have ky : condY G.g G.d (n.elem.offset + 1) 0 0 = ch.wallMat.ky := by unfold condY; rw [t2]; rfl
  have hgy : ∀ (cell : Cell K) (note : K), cell.layer = n.elem.offset + 1 →
      gy G.g G.d (cellLength G.d c) cell note = 2 * (ch.wallMat.ky * ch.height * (1 - ch.porosity)) := by
    intro cell note hl
    unfold gy
    rw [hl, if_neg (by omega), t1, ky, t3]
    simp only [chan, c1, Option.map_some, Option.getD_some]
    field_simp
  have hg : 0 < ch.wallMat.ky * ch.height * (1 - ch.porosity) := mul_pos (mul_pos pky phh) (by linarith)
  rw [hv, hgy _ _ hl1, hgy _ _ hl2] at f1 f2
  have es : par (2 * (ch.wallMat.ky * ch.height * (1 - ch.porosity))) (2 * (ch.wallMat.ky * ch.height * (1 - ch.porosity))) = ch.wallMat.ky * ch.height * (1 - ch.porosity) := by
    generalize ch.wallMat.ky * ch.height * (1 - ch.porosity) = g at hg
    unfold par
    have := ne_of_gt hg
    field_simp
    norm_num
  rw [es] at f1 f2
  refine ⟨_, ⟨f2, f1⟩, ?_⟩
  have hw0 := ne_of_gt hwp
  unfold wallAlong
  rw [mul_div_assoc', eq_div_iff hw0]
  constructor
  · intro h
    have : (ch.wallMat.ky * ch.height * (1 - ch.porosity)) * rowWidth G = (ch.wallMat.ky * ch.height * (1 - ch.porosity)) * cellLength G.d c := by
      rw [h]; ring
    exact (mul_left_cancel₀ (ne_of_gt hg) this).symm
  · intro h; rw [h]; ring

end

/-! ## Examples -/

/-- The 4RM example without exchange through the bottom of the channel. -/
def dryChannel : Channel ℚ := { exChannel .mc4rm with coolant := { (exChannel .mc4rm).coolant with htcBottom := 0 } }
def dryElems : List (NElem ℚ) :=
  [⟨⟨"base", .layer (exLayer 20), 0⟩, 1, 1⟩, ⟨⟨"ch", .channel dryChannel, 1⟩, 1, 1⟩, ⟨⟨"die", .die ⟨[exLayer 5], 0, wetFlp⟩, 2⟩, 1, 1⟩]
def dryGrid : Grid ℚ := { wet4Grid with g := { wet4Grid.g with channel := some dryChannel }, ns := dryElems.map fixDiscr }

theorem dryFrom : FromStack exDims (some dryChannel) wetRaw dryElems dryGrid := by
  refine .fresh ⟨_, dryGrid.g, ⟨?_, ?_, ?_, ?_, rfl, rfl⟩, rfl, ?_⟩
  · show 1 ≤ 2; decide
  · show 1 ≤ 5; decide
  · intro s h; simp [spreaderOf, dryGrid, wet4Grid] at h
  · rintro ch h; simp only [Option.some.injEq] at h; subst h; simp [dryChannel, exChannel]
  · have e : buildNU dryGrid.d dryGrid.g.top dryGrid.g.bottom dryElems = some { dryGrid with ls := layersOf dryGrid.d dryGrid.g.top (dryElems.map fixDiscr) } := rfl
    refine e.trans ?_
    have hls : layersOf dryGrid.d dryGrid.g.top (dryElems.map fixDiscr) = dryGrid.ls := by decide +kernel
    rw [hls]

theorem dryPhysical : PhysicalNU dryGrid := by
  refine ⟨by decide +kernel, by decide +kernel, ?_, ?_, ?_⟩
  · intro c hc _
    have h : ∀ c ∈ dryGrid.cells, ownMat dryGrid c = exMat := by decide +kernel
    rw [h c hc]; exact exMat_pos
  · intro s h; simp [dryGrid, wet4Grid] at h; subst h; norm_num
  · intro s m h; simp [dryGrid, wet4Grid] at h

/-- Coolant and base exchange heat, although the coefficient of the film is zero. -/
example {a : Ana ℚ} {m : Csc ℚ} (hm : Assembled id dryGrid a m) : m.entry 0 (dryGrid.at 1 1 3) ≠ 0 := by
  have hno : ¬ InChannel dryElems dryGrid.cells[0] := by
    rintro ⟨n, hn, ch, hb, h1, h2⟩
    simp only [dryElems, List.mem_cons, List.not_mem_nil, or_false] at hn
    rcases hn with rfl | rfl | rfl
    · cases hb
    · exact absurd h1 (by decide +kernel)
    · cases hb
  obtain ⟨cell, h1, h2⟩ := C58_zero_film_violated dryFrom wet4Fits dryPhysical wet4Sharp hm (n := ⟨⟨"ch", .channel dryChannel, 1⟩, 1, 1⟩)
    (by simp [dryElems]) (ch := dryChannel) rfl rfl rfl (i := 0) (r := 1) (c := 3) (by decide +kernel) hno rfl (by decide) (by decide) (fun _ => by decide)
  have e : dryGrid.cells[dryGrid.at 1 1 3]? = some ⟨1, 40, 10, 60, 20, noMat, true⟩ := by decide +kernel
  have hce : cell = ⟨1, 40, 10, 60, 20, noMat, true⟩ := Option.some.inj (h1.symm.trans e)
  subst hce
  obtain ⟨h3, h4⟩ := h2 (by show 0 < _ ∧ 0 < _; decide +kernel) _ rfl
  have := h3.1
  intro h
  rw [h] at this
  linarith

/-- The 4RM example on a chip of length 95. -/
def gapLayer (l : Nat) (f : Nat → Bool) : List (Cell ℚ) :=
  [⟨l, 0, 0, 10, 10, noMat, f 0⟩, ⟨l, 10, 0, 30, 10, noMat, f 1⟩, ⟨l, 30, 0, 40, 10, noMat, f 2⟩, ⟨l, 40, 0, 60, 10, noMat, f 3⟩, ⟨l, 65, 0, 95, 10, noMat, f 4⟩,
   ⟨l, 0, 10, 10, 20, noMat, f 0⟩, ⟨l, 10, 10, 30, 20, noMat, f 1⟩, ⟨l, 30, 10, 40, 20, noMat, f 2⟩, ⟨l, 40, 10, 60, 20, noMat, f 3⟩,
   ⟨l, 65, 10, 95, 20, noMat, f 4⟩]
def gapGrid : Grid ℚ :=
  { wet4Grid with
    d := { wet4Grid.d with chipLength := 95 }
    ls := [[⟨0, 0, 0, 95, 20, noMat, false⟩], gapLayer 1 (fun c => c % 2 == 1), [⟨2, 0, 0, 45, 20, exMat, false⟩, ⟨2, 45, 0, 90, 20, exMat, false⟩]] }

theorem gapFrom : FromStack { exDims with chipLength := 95 } (some (exChannel .mc4rm)) wetRaw (wetElems .mc4rm 2) gapGrid := by
  refine .fresh ⟨_, gapGrid.g, ⟨?_, ?_, ?_, ?_, rfl, rfl⟩, rfl, ?_⟩
  · show 1 ≤ 2; decide
  · show 1 ≤ 5; decide
  · intro s h; simp [spreaderOf, gapGrid, wet4Grid] at h
  · rintro ch h; simp only [Option.some.injEq] at h; subst h; simp [exChannel]
  · have e : buildNU gapGrid.d gapGrid.g.top gapGrid.g.bottom (wetElems .mc4rm 2) =
        some { gapGrid with ls := layersOf gapGrid.d gapGrid.g.top ((wetElems .mc4rm 2).map fixDiscr) } := rfl
    refine e.trans ?_
    have hls : layersOf gapGrid.d gapGrid.g.top ((wetElems .mc4rm 2).map fixDiscr) = gapGrid.ls := by decide +kernel
    rw [hls]

example : ∃ x, 0 ≤ x ∧ x < 95 ∧ ∀ y, ∀ c ∈ gapGrid.cells, c.layer = 1 → inCell x y c = false :=
  C58_gap_violated gapFrom ⟨by decide +kernel, by decide +kernel, by decide +kernel⟩ (by decide +kernel) (by decide) wet4_mem (ch := exChannel .mc4rm) rfl (k := 0) (by decide)

/-- In the 2RM example the cells are 18 long and 10 wide: the conductance along the walls is wrong. -/
example {a : Ana ℚ} {m : Csc ℚ} (hm : Assembled id wet2Grid a m) :
    ∃ g, Conducts m (wet2Grid.at 2 0 1) (wet2Grid.at 2 1 1) g ∧ g ≠ (1 - (exChannel .mc2rm).porosity) * wallAlong wet2Grid (exChannel .mc2rm) 1 := by
  obtain ⟨g, h1, h2⟩ := C58_virtual_wall_violated wet2From wet2Fits wet2Physical wet2Sharp wet2Whole hm wet2_mem (ch := exChannel .mc2rm) rfl rfl
    (by decide +kernel) (r := 0) (c := 1) (by decide) (by decide)
  exact ⟨g, h1, fun h => absurd (h2.mp h) (by decide +kernel)⟩

end Verif.NU
