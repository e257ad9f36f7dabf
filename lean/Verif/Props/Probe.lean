import Verif.Props.Dimensions

set_option linter.unusedSectionVars false

/-! C33 (temperature probes) and C39 (heat spreader geometry). -/

namespace Verif.Dim

variable {K : Type} [Field K] [LinearOrder K] [IsStrictOrderedRing K]

/-- Cell `(r, c)` contains the point `(x, y)`. -/
def CellContains (d : Dims K) (r c : Nat) (x y : K) : Prop :=
  r < d.nRows ∧ c < d.nCols ∧ locY d r ≤ y ∧ y < locY d r + cellWidth d r ∧ locX d c ≤ x ∧ x < locX d c + cellLength d c

theorem locX_mono {d : Dims K} (hs : Sized d) (hp : 0 < d.firstWall ∧ 0 < d.wall ∧ 0 < d.channel ∧ 0 < d.lastWall)
    {a b : Nat} (hab : a ≤ b) (hb : b < d.nCols) : locX d a ≤ locX d b := by
  induction b with
  | zero => rw [show a = 0 by omega]
  | succ b ih =>
    rcases Nat.lt_or_ge a (b + 1) with h | h
    · have := ih (by omega) (by omega)
      have := locX_succ d b hb hs.cols.2
      have := cellLength_pos hs hp (show b < d.nCols by omega)
      linarith
    · rw [show a = b + 1 by omega]

theorem alignRow_eq (d : Dims K) (hs : Sized d) (hw : 0 < d.width) (y : K) (r : Nat) (hr : r < d.nRows)
    (hy1 : locY d r ≤ y) (hy2 : y < locY d r + cellWidth d r) : alignRow d y = (r, true) := by
  have hlr := lastRow_eq hs.rows.1 hs.rows.2
  unfold alignRow
  apply search_found
  · omega
  · omega
  · rw [(C13_rows_consecutive d hs).2 r hr]; exact decide_eq_true ⟨hy1, hy2⟩
  · intro j _ hj
    apply decide_eq_false
    rintro ⟨_, h2⟩
    have : locY d (j + 1) ≤ locY d r := by
      unfold locY; exact mul_le_mul_of_nonneg_left (by exact_mod_cast hj) hw.le
    linarith

theorem before_col (d : Dims K) (hs : Sized d)
    (hp : 0 < d.firstWall ∧ 0 < d.wall ∧ 0 < d.channel ∧ 0 < d.lastWall) (x : K) (c : Nat) (hc : c < d.nCols)
    (hx1 : locX d c ≤ x) (j : Nat) (hj : j < c) : decide (locX d j ≤ x ∧ x < locX d (j + 1)) = false := by
  apply decide_eq_false
  rintro ⟨_, h2⟩
  have := locX_mono hs hp (show j + 1 ≤ c from hj) hc
  linarith

theorem alignCol_eq (d : Dims K) (hs : Sized d)
    (hp : 0 < d.firstWall ∧ 0 < d.wall ∧ 0 < d.channel ∧ 0 < d.lastWall) (x : K) (c : Nat) (hc : c < d.nCols)
    (hx1 : locX d c ≤ x) (hx3 : x < locX d (c + 1)) : alignCol d x = (c, true) := by
  have hlc := lastColumn_eq hs.cols.1 hs.cols.2
  unfold alignCol
  apply search_found
  · omega
  · omega
  · exact decide_eq_true ⟨hx1, hx3⟩
  · exact fun j _ hj => before_col d hs hp x c hc hx1 j hj

theorem alignCol_last (d : Dims K) (hs : Sized d)
    (hp : 0 < d.firstWall ∧ 0 < d.wall ∧ 0 < d.channel ∧ 0 < d.lastWall) (x : K) (c : Nat) (hc : c + 1 = d.nCols)
    (hx1 : locX d c ≤ x) (hx3 : locX d (c + 1) ≤ x) : alignCol d x = (c, false) := by
  have hlc := lastColumn_eq hs.cols.1 hs.cols.2
  unfold alignCol
  rw [search_none]
  · congr 1; omega
  · intro j _ hj
    rcases Nat.lt_or_ge j c with h | h
    · exact before_col d hs hp x c (by omega) hx1 j h
    · apply decide_eq_false
      rintro ⟨_, h2⟩
      have e : j = c := by omega
      subst e
      exact absurd h2 (not_lt.mpr hx3)

/-- **C33** A temperature probe placed at a point covered by the grid monitors the cell that contains it; the vertical location
it reports is that of this cell, and so is the horizontal one unless the point falls in the part of the last column that
a wall of ordinary length would not cover. -/
theorem C33_probe_monitors_containing_cell (d : Dims K) (hs : Sized d)
    (hp : 0 < d.firstWall ∧ 0 < d.wall ∧ 0 < d.channel ∧ 0 < d.lastWall) (hw : 0 < d.width)
    (x y : K) (r c : Nat) (hin : CellContains d r c x y) :
    (alignTcell d x y).row = r ∧ (alignTcell d x y).col = c ∧ (alignTcell d x y).actualY = locY d r ∧
      ((c + 1 < d.nCols ∨ x < locX d d.nCols) → (alignTcell d x y).actualX = locX d c) := by
  obtain ⟨hr, hc, hy1, hy2, hx1, hx2⟩ := hin
  have hrow := alignRow_eq d hs hw y r hr hy1 hy2
  have e : c + 1 < d.nCols ∨ c + 1 = d.nCols := by omega
  by_cases hx3 : x < locX d (c + 1)
  · have hcol := alignCol_eq d hs hp x c hc hx1 hx3
    simp [alignTcell, hrow, hcol]
  · have hcl : c + 1 = d.nCols := by
      refine e.resolve_left fun h => hx3 ?_
      rw [locX_succ d c h hs.cols.2]; exact hx2
    have hcol := alignCol_last d hs hp x c hcl hx1 (not_lt.mp hx3)
    refine ⟨by simp [alignTcell, hrow], by simp [alignTcell, hcol], by simp [alignTcell, hrow], ?_⟩
    rintro (h | h)
    · omega
    · rw [← hcl] at h; exact absurd h hx3

/-- **C33** Without a 4RM channel, or when the last wall is not longer than the others, both reported coordinates are always the
corner of the monitored cell. -/
theorem C33_reported_location [FloorSemiring K] {chipL chipW cellL cellW : K} {ch : Option (FourRM K)} {d : Dims K}
    (h : parseDimensions chipL chipW cellL cellW ch = .ok d) (hp : PosGeom chipL chipW cellL cellW ch) (hs : Sized d)
    (hW : d.nCols + 1 < W)
    (hlw : ∀ f, ch = some f → f.last ≤ f.wall) (x y : K) (r c : Nat) (hin : CellContains d r c x y) :
    (alignTcell d x y).row = r ∧ (alignTcell d x y).col = c ∧ (alignTcell d x y).actualX = locX d c ∧
      (alignTcell d x y).actualY = locY d r := by
  obtain ⟨⟨p1, p2, p3, p4, p5⟩, _, _, _, _, hcase⟩ := parse_cases h hp
  obtain ⟨a1, a2, a3, a4⟩ := C33_probe_monitors_containing_cell d hs ⟨p1, p2, p3, p4⟩ p5 x y r c hin
  refine ⟨a1, a2, a4 ?_, a3⟩
  by_cases hlt : c + 1 < d.nCols
  · exact Or.inl hlt
  · right
    have hcl : c < d.nCols := hin.2.1
    have hx2 := hin.2.2.2.2.2
    have hlc := lastColumn_eq hs.cols.1 hs.cols.2
    refine lt_of_lt_of_le hx2 ?_
    rcases Nat.eq_zero_or_pos c with rfl | h0
    · have hn : d.nCols = 2 * 0 + 1 := by omega
      rw [hn, locX_odd d 0 (by simp [W]), locX_zero]; unfold cellLength; rw [if_neg (by omega), if_pos rfl]; simp
    · have hlen : cellLength d c = d.lastWall := by
        unfold cellLength; rw [if_neg (by omega), if_neg (by omega), if_pos (by omega)]
      rw [hlen, show d.nCols = c + 1 by omega]
      rcases hcase with ⟨_, b1, b2, b3, b4, _⟩ | ⟨f, n, hf, hn, _, b1, b2, b3, b4⟩
      · rcases Nat.even_or_odd' c with ⟨m, rfl | rfl⟩
        · obtain ⟨k, rfl⟩ : ∃ k, m = k + 1 := ⟨m - 1, by omega⟩
          rw [locX_odd d (k + 1) (by omega), show 2 * (k + 1) = 2 * k + 2 by ring, locX_even d k (by omega), b2, b4]
          push_cast; exact le_of_eq (by ring)
        · rw [show 2 * m + 1 + 1 = 2 * m + 2 by ring, locX_even d m (by omega), locX_odd d m (by omega), b3, b4]
          push_cast; exact le_of_eq (by ring)
      · have hc2 : c = 2 * n + 2 := by omega
        subst hc2
        rw [show 2 * n + 2 + 1 = 2 * (n + 1) + 1 by ring, locX_odd d (n + 1) (by omega), locX_even d n (by omega)]
        have := hlw f hf
        rw [← b4, ← b2] at this
        push_cast; linarith

/-- **C33 violated** With a last wall (30 um) longer than the others (10 um), a probe inside the last column, at x = 85, monitors
the right cell, whose corner is at 60, but reports its location as 0. -/
theorem C33_last_wall_location_violated :
    CellContains exDims 0 4 85 5 ∧ (alignTcell exDims 85 5).col = 4 ∧ locX exDims 4 = 60 ∧
      (alignTcell exDims 85 5).actualX = 0 := by
  have hs : Sized exDims := ⟨by simp [exDims, W], by simp [exDims, W]⟩
  have hlc : lastColumn exDims = 4 := lastColumn_eq hs.cols.1 hs.cols.2
  have hlr : lastRow exDims = 1 := lastRow_eq hs.rows.1 hs.rows.2
  have l4 : locX exDims 4 = 60 := by rw [locX_even exDims 1 (by simp [W])]; norm_num [exDims]
  have l5 : locX exDims 5 = 70 := by rw [locX_odd exDims 2 (by simp [W])]; norm_num [exDims]
  have hin : CellContains exDims 0 4 85 5 := by
    have hl : cellLength exDims 4 = 30 := by unfold cellLength; rw [hlc]; norm_num [exDims]
    have hw : cellWidth exDims 0 = 10 := by unfold cellWidth; rw [hlr]; norm_num [exDims]
    refine ⟨by decide, by decide, ?_, ?_, ?_, ?_⟩
    · norm_num [locY, exDims]
    · rw [hw]; norm_num [locY, exDims]
    · rw [l4]; norm_num
    · rw [l4, hl]; norm_num
  refine ⟨hin, (C33_probe_monitors_containing_cell exDims hs (by norm_num [exDims]) (by norm_num [exDims]) 85 5 0 4 hin).2.1,
    l4, ?_⟩
  have := alignCol_last exDims hs (by norm_num [exDims]) 85 4 rfl (by rw [l4]; norm_num) (by rw [l5]; norm_num)
  simp [alignTcell, this]

/-- **C33 violated** A point of the chip beyond the last whole cell is silently moved to the last cell, with location 0. -/
theorem C33_uncovered_point_violated :
    ∃ d : Dims ℚ, parseDimensions (25 : ℚ) 25 10 10 none = .ok d ∧ (24 : ℚ) < d.chipLength ∧
      (alignTcell d 24 5).col = 1 ∧ (alignTcell d 24 5).actualX = 0 ∧ ¬ CellContains d 0 1 24 5 := by
  have hf : ⌊(25 : ℚ) / 10⌋₊ = 2 := by
    rw [Nat.floor_eq_iff (by norm_num)]; constructor <;> norm_num
  refine ⟨_, rfl, by norm_num, ?_⟩
  simp only [hf]
  generalize hd : (⟨10, 10, 10, 10, 10, [], 0, 2, 2, 0, 25, 25⟩ : Dims ℚ) = d
  have hs : Sized d := by subst hd; exact ⟨by simp [W], by simp [W]⟩
  have hlc : lastColumn d = 1 := by rw [lastColumn_eq hs.cols.1 hs.cols.2]; subst hd; rfl
  have l1 : locX d 1 = 10 := by rw [locX_odd d 0 (by simp [W]), ← hd]; norm_num
  have l2 : locX d 2 = 20 := by rw [locX_even d 0 (by simp [W]), ← hd]; norm_num
  have := alignCol_last d hs (by rw [← hd]; norm_num) 24 1 (by rw [← hd]) (by rw [l1]; norm_num) (by rw [l2]; norm_num)
  refine ⟨by simp [alignTcell, this], by simp [alignTcell, this], ?_⟩
  rintro ⟨_, _, _, _, _, h⟩
  have hl : cellLength d 1 = 10 := by unfold cellLength; rw [hlc, ← hd]; norm_num
  rw [l1, hl] at h; linarith

/-! ## C39 -/

/-- **C39** The heat spreader is accepted exactly when it is at least as large as the chip. -/
theorem C39_accepted_iff_not_smaller [FloorSemiring K] (d : Dims K) (hs : Sized d) (hL : 0 < d.chipLength) (hWd : 0 < d.chipWidth)
    (length width height : K) :
    (initSpreader d length width height).isSome ↔ d.chipLength ≤ length ∧ d.chipWidth ≤ width := by
  have hc : (0 : K) < d.nCols := by exact_mod_cast hs.cols.1
  have hr : (0 : K) < d.nRows := by exact_mod_cast hs.rows.1
  have k1 : (length - d.chipLength) / 2 / (d.chipLength / (d.nCols : K)) < 0 ↔ length < d.chipLength := by
    rw [div_lt_iff₀ (by positivity), zero_mul, div_lt_iff₀ (by norm_num)]; constructor <;> intro h <;> linarith
  have k2 : (width - d.chipWidth) / 2 / (d.chipWidth / (d.nRows : K)) < 0 ↔ width < d.chipWidth := by
    rw [div_lt_iff₀ (by positivity), zero_mul, div_lt_iff₀ (by norm_num)]; constructor <;> intro h <;> linarith
  unfold initSpreader
  simp only [k1, k2]
  split_ifs with h1 h2
  · simp; intro h; exact absurd h1 (not_lt.mpr h)
  · simp; intro _; exact h2
  · simp [not_lt.mp h1, not_lt.mp h2]

/-- **C39** The spreader grid is the chip grid enlarged by the same number of whole cells on opposite sides, as many as fit in the
border of the spreader. -/
theorem C39_spreader_is_centred [FloorSemiring K] (d : Dims K) (hs : Sized d) (hL : 0 < d.chipLength) (hWd : 0 < d.chipWidth)
    (length width height : K) (s : Spreader K) (h : initSpreader d length width height = some s)
    (hfit : 2 * s.rowsBorder + d.nRows < W ∧ 2 * s.colsBorder + d.nCols < W) :
    s.nRows = s.rowsBorder + d.nRows + s.rowsBorder ∧ s.nCols = s.colsBorder + d.nCols + s.colsBorder ∧
    s.cellLength * d.nCols = d.chipLength ∧ s.cellWidth * d.nRows = d.chipWidth ∧
    (s.colsBorder : K) * s.cellLength ≤ (length - d.chipLength) / 2 ∧
      (length - d.chipLength) / 2 < (s.colsBorder + 1) * s.cellLength ∧
    (s.rowsBorder : K) * s.cellWidth ≤ (width - d.chipWidth) / 2 ∧
      (width - d.chipWidth) / 2 < (s.rowsBorder + 1) * s.cellWidth := by
  have hc : (0 : K) < d.nCols := by exact_mod_cast hs.cols.1
  have hr : (0 : K) < d.nRows := by exact_mod_cast hs.rows.1
  unfold initSpreader at h
  simp only at h
  split at h
  · cases h
  · split at h
    · cases h
    · rename_i h1 h2
      simp only [Option.some.injEq] at h; subst h
      simp only at hfit ⊢
      have c1 : (0 : K) < d.chipLength / d.nCols := by positivity
      have c2 : (0 : K) < d.chipWidth / d.nRows := by positivity
      refine ⟨?_, ?_, ?_, ?_, ?_, ?_, ?_, ?_⟩
      · rw [Nat.mod_eq_of_lt hfit.1]; ring
      · rw [Nat.mod_eq_of_lt hfit.2]; ring
      · field_simp
      · field_simp
      · have := Nat.floor_le (not_lt.mp h1); rwa [le_div_iff₀ c1] at this
      · have := Nat.lt_floor_add_one ((length - d.chipLength) / 2 / (d.chipLength / (d.nCols : K)))
        rwa [div_lt_iff₀ c1] at this
      · have := Nat.floor_le (not_lt.mp h2); rwa [le_div_iff₀ c2] at this
      · have := Nat.lt_floor_add_one ((width - d.chipWidth) / 2 / (d.chipWidth / (d.nRows : K)))
        rwa [div_lt_iff₀ c2] at this

/-- **C39** The spreader cells that lie over the chip are exactly the images of the cells of the top layer, different cells having
different images, and mapping a top layer cell to the spreader and back gives the same cell. -/
theorem C39_spreader_maps_back (d : Dims K) (s : Spreader K)
    (hfit : s.rowsBorder + d.nRows + s.rowsBorder < W ∧ s.colsBorder + d.nCols + s.colsBorder < W)
    (h1 : s.nRows = s.rowsBorder + d.nRows + s.rowsBorder) (h2 : s.nCols = s.colsBorder + d.nCols + s.colsBorder) :
    (∀ r c, r < s.nRows → c < s.nCols → (hasLayerUnderneath d s r c = true ↔
      ∃ r' c', r' < d.nRows ∧ c' < d.nCols ∧ r = r' + s.rowsBorder ∧ c = c' + s.colsBorder)) ∧
    (∀ l r c, r < d.nRows → c < d.nCols →
      spreaderOffsetFromLayer d s r c = spreaderOffset d s (r + s.rowsBorder) (c + s.colsBorder) ∧
      r + s.rowsBorder < s.nRows ∧ c + s.colsBorder < s.nCols ∧
      layerOffsetFromSpreader d s l (r + s.rowsBorder) (c + s.colsBorder) = offInStack d l r c) := by
  constructor
  · intro r c hr hc
    unfold hasLayerUnderneath
    rw [Nat.mod_eq_of_lt (by omega), Nat.mod_eq_of_lt (by omega), decide_eq_true_eq]
    constructor
    · rintro ⟨a, b, e, f⟩
      exact ⟨r - s.rowsBorder, c - s.colsBorder, by omega, by omega, by omega, by omega⟩
    · rintro ⟨r', c', a, b, e, f⟩
      subst e f
      omega
  · intro l r c hr hc
    refine ⟨?_, by omega, by omega, ?_⟩
    · unfold spreaderOffsetFromLayer
      rw [Nat.mod_eq_of_lt (by omega), Nat.mod_eq_of_lt (by omega)]
    · unfold layerOffsetFromSpreader
      rw [sub32_eq (by omega) (by omega), sub32_eq (by omega) (by omega)]
      congr 1 <;> omega

/-- Non-vacuity for C39. -/
example : Sized exDims ∧ exSpreader.nRows = exSpreader.rowsBorder + exDims.nRows + exSpreader.rowsBorder ∧
    exSpreader.nCols = exSpreader.colsBorder + exDims.nCols + exSpreader.colsBorder := by
  refine ⟨⟨by simp [exDims, W], by simp [exDims, W]⟩, rfl, rfl⟩

end Verif.Dim
