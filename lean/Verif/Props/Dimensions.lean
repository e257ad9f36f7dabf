import Verif.Lemmas.Dimensions
import Mathlib.Algebra.Order.Archimedean.Basic
import Mathlib.Data.Rat.Floor
import Mathlib.Tactic.NormNum

set_option linter.unusedSectionVars false

namespace Verif.Dim

variable {K : Type} [Field K] [LinearOrder K] [IsStrictOrderedRing K]

/-! ## Specification vocabulary -/

/-- Extent of the grid along the columns: the lengths of all cells added up. -/
def gridLength (d : Dims K) : K := ∑ c ∈ Finset.range d.nCols, cellLength d c
/-- Extent of the grid along the rows. -/
def gridWidth (d : Dims K) : K := ∑ r ∈ Finset.range d.nRows, cellWidth d r

/-- The grid is not empty and its indices fit the index type. -/
structure Sized (d : Dims K) : Prop where
  rows : 1 ≤ d.nRows ∧ d.nRows < W
  cols : 1 ≤ d.nCols ∧ d.nCols < W

/-- All the lengths written in the stack file are positive. -/
def PosGeom (chipL chipW cellL cellW : K) (ch : Option (FourRM K)) : Prop :=
  0 < chipL ∧ 0 < chipW ∧ 0 < cellL ∧ 0 < cellW ∧
    ∀ f, ch = some f → 0 < f.channel ∧ 0 < f.wall ∧ 0 < f.first ∧ 0 < f.last

/-! ## Parsed dimensions -/

section
variable [FloorSemiring K]

theorem parse_cases {chipL chipW cellL cellW : K} {ch : Option (FourRM K)} {d : Dims K}
    (h : parseDimensions chipL chipW cellL cellW ch = .ok d) (hp : PosGeom chipL chipW cellL cellW ch) :
    (0 < d.firstWall ∧ 0 < d.wall ∧ 0 < d.channel ∧ 0 < d.lastWall ∧ 0 < d.width) ∧
    d.width = cellW ∧ d.nRows = ⌊chipW / cellW⌋₊ ∧ d.chipLength = chipL ∧ d.chipWidth = chipW ∧
    ((ch = none ∧ d.firstWall = cellL ∧ d.wall = cellL ∧ d.channel = cellL ∧ d.lastWall = cellL ∧
        d.nCols = ⌊chipL / cellL⌋₊) ∨
      (∃ f n, ch = some f ∧ d.nCols = 2 * n + 3 ∧
        d.firstWall + ((n + 1 : Nat) : K) * d.channel + (n : K) * d.wall + d.lastWall = chipL ∧
        d.firstWall = f.first ∧ d.wall = f.wall ∧ d.channel = f.channel ∧ d.lastWall = f.last)) := by
  obtain ⟨p1, p2, p3, p4, p5⟩ := hp
  unfold parseDimensions at h
  cases ch with
  | none =>
    simp only [Outcome.ok.injEq] at h; subst h
    exact ⟨⟨p3, p3, p3, p3, p4⟩, rfl, rfl, rfl, rfl, Or.inl ⟨rfl, rfl, rfl, rfl, rfl, rfl⟩⟩
  | some f =>
    obtain ⟨q1, q2, q3, q4⟩ := p5 f rfl
    simp only at h
    generalize hr : (chipL - f.first - f.last - f.channel) / (f.channel + f.wall) = ratio at h
    split at h
    · split at h
      · cases h
      · rename_i h0 hint
        split at h
        · cases h
        · split at h
          · cases h
          · simp only [Outcome.ok.injEq] at h; subst h
            rw [not_not] at hint
            have e : ⌊2 * ratio + 3⌋₊ = 2 * ⌊ratio⌋₊ + 3 := by
              have : (2 * ratio + 3 : K) = ((2 * ⌊ratio⌋₊ + 3 : Nat) : K) := by
                push_cast; rw [← hint]
              rw [this, Nat.floor_natCast]
            refine ⟨⟨q3, q2, q1, q4, p4⟩, rfl, rfl, rfl, rfl, Or.inr ⟨f, ⌊ratio⌋₊, rfl, e, ?_, rfl, rfl, rfl, rfl⟩⟩
            simp only
            push_cast
            rw [← hint, ← hr]
            have : f.channel + f.wall ≠ 0 := by positivity
            field_simp
            ring
    · split at h
      · cases h
      · split at h <;> cases h

/-! ## C13: cells tile the chip -/

omit [FloorSemiring K] in
/-- **C13** Columns are consecutive: the first starts at 0 and each starts where the previous one ends. -/
theorem C13_columns_consecutive (d : Dims K) (hs : Sized d) :
    locX d 0 = 0 ∧ ∀ c, c + 1 < d.nCols → locX d (c + 1) = locX d c + cellLength d c :=
  ⟨locX_zero d, fun c hc => locX_succ d c hc hs.cols.2⟩

omit [FloorSemiring K] in
/-- **C13** Rows are consecutive. -/
theorem C13_rows_consecutive (d : Dims K) (hs : Sized d) :
    locY d 0 = 0 ∧ ∀ r, r < d.nRows → locY d (r + 1) = locY d r + cellWidth d r := by
  refine ⟨by simp [locY], fun r hr => ?_⟩
  unfold cellWidth; rw [if_neg (by rw [lastRow_eq hs.rows.1 hs.rows.2]; omega)]
  unfold locY; push_cast; ring

omit [FloorSemiring K] in
theorem cellLength_pos {d : Dims K} (hs : Sized d) (hp : 0 < d.firstWall ∧ 0 < d.wall ∧ 0 < d.channel ∧ 0 < d.lastWall)
    {c : Nat} (hc : c < d.nCols) : 0 < cellLength d c := by
  unfold cellLength
  rw [if_neg (by rw [lastColumn_eq hs.cols.1 hs.cols.2]; omega)]
  obtain ⟨a, b, c', d'⟩ := hp
  split_ifs <;> assumption

omit [FloorSemiring K] in
/-- **C13** Every point inside the extent of the grid lies in exactly one cell. -/
theorem C13_point_in_one_cell (d : Dims K) (hs : Sized d)
    (hp : 0 < d.firstWall ∧ 0 < d.wall ∧ 0 < d.channel ∧ 0 < d.lastWall) (hw : 0 < d.width) (x y : K)
    (hx : 0 ≤ x ∧ x < gridLength d) (hy : 0 ≤ y ∧ y < gridWidth d) :
    ∃! rc : Nat × Nat, (rc.1 < d.nRows ∧ locY d rc.1 ≤ y ∧ y < locY d rc.1 + cellWidth d rc.1) ∧
      (rc.2 < d.nCols ∧ locX d rc.2 ≤ x ∧ x < locX d rc.2 + cellLength d rc.2) := by
  obtain ⟨c1, c2⟩ := C13_rows_consecutive d hs
  have hr : ∃! r, r < d.nRows ∧ locY d r ≤ y ∧ y < locY d r + cellWidth d r := by
    refine tile_unique _ _ c1 d.nRows c2 (fun r _ => ?_) y hy.1 ?_
    · unfold cellWidth; split_ifs; exacts [le_rfl, hw.le]
    · have : ∀ n, n ≤ d.nRows → ∑ r ∈ Finset.range n, cellWidth d r = locY d n := by
        intro n
        induction n with
        | zero => intro _; simp [locY]
        | succ n ih => intro h; rw [Finset.sum_range_succ, ih (by omega), c2 n (by omega)]
      rw [← this _ le_rfl]; exact hy.2
  have hc : ∃! c, c < d.nCols ∧ locX d c ≤ x ∧ x < locX d c + cellLength d c := by
    obtain ⟨n, hn⟩ : ∃ n, d.nCols = n + 1 := ⟨d.nCols - 1, by have := hs.cols.1; omega⟩
    let f : Nat → K := fun c => if c = d.nCols then gridLength d else locX d c
    have hf : ∀ c, c < d.nCols → f c = locX d c := fun c h => if_neg (by omega)
    have hall : ∀ c, c < d.nCols → f (c + 1) = f c + cellLength d c := by
      intro c h
      by_cases h' : c + 1 < d.nCols
      · rw [hf _ h', hf _ h, locX_succ d c h' hs.cols.2]
      · have : c = n := by omega
        subst this
        show (if _ then _ else _) = _
        rw [if_pos hn.symm, hf c h]; unfold gridLength
        rw [hn, Finset.sum_range_succ, sum_cellLength d hs.cols.2 c h]
    have key := tile_unique f (cellLength d) (by rw [hf 0 (by omega)]; exact locX_zero d) d.nCols hall
      (fun c h => (cellLength_pos hs hp h).le) x hx.1 (by show x < if _ then _ else _; rw [if_pos rfl]; exact hx.2)
    obtain ⟨c, ⟨h1, h2, h3⟩, h4⟩ := key
    refine ⟨c, ⟨h1, by rwa [hf c h1] at h2, by rwa [hf c h1] at h3⟩, ?_⟩
    rintro c' ⟨g1, g2, g3⟩
    exact h4 c' ⟨g1, by rwa [hf c' g1], by rwa [hf c' g1]⟩
  obtain ⟨r, r1, r2⟩ := hr
  obtain ⟨c, k1, k2⟩ := hc
  refine ⟨(r, c), ⟨r1, k1⟩, ?_⟩
  rintro ⟨r', c'⟩ ⟨h1, h2⟩
  exact Prod.ext (r2 r' h1) (k2 c' h2)

/-- **C13** The cell centre is the middle of the cell, for every column of an accepted grid unless the grid has exactly two
columns, and for every row. -/
theorem C13_centers {chipL chipW cellL cellW : K} {ch : Option (FourRM K)} {d : Dims K}
    (h : parseDimensions chipL chipW cellL cellW ch = .ok d) (hp : PosGeom chipL chipW cellL cellW ch) (hs : Sized d)
    (h2 : d.nCols ≠ 2) :
    (∀ c, c < d.nCols → centerX d c = locX d c + cellLength d c / 2) ∧
    (∀ r, r < d.nRows → centerY d r = locY d r + cellWidth d r / 2) := by
  have hpc := parse_cases h hp
  have hl := lastColumn_eq hs.cols.1 hs.cols.2
  have hW := hs.cols.2
  constructor
  · intro c hc
    rcases Nat.eq_zero_or_pos c with rfl | h0
    · unfold centerX cellLength; simp [locX_zero]
    · have e1 : sub32 c 1 = c - 1 := sub32_eq (by omega) h0
      by_cases hlast : c = lastColumn d
      · have h3 : 2 ≤ c := by omega
        have e2 : sub32 c 2 = c - 2 := sub32_eq (by omega) h3
        obtain ⟨k, rfl⟩ : ∃ k, c = k + 2 := ⟨c - 2, by omega⟩
        unfold centerX cellLength locX
        rw [if_neg (by omega), if_pos hlast, if_neg (by omega), if_neg (by omega), if_neg (by omega), if_pos hlast, e1, e2]
        rcases hpc.2.2.2.2.2 with ⟨_, a1, a2, a3, a4, a5⟩ | ⟨f, n, _, a1, a2, _⟩
        · rw [a1, a2, a3, a4]
          have : ((k + 2) / 2 + (k + 2 - 1) / 2 : Nat) = k + 1 := by omega
          have hk : (((k + 2) / 2 : Nat) : K) + ((k + 2 - 1) / 2 : Nat) = k + 1 := by exact_mod_cast this
          have : (k + 2 - 2 : Nat) = k := by omega
          rw [this]
          generalize (((k + 2) / 2 : Nat) : K) = u at hk ⊢
          generalize (((k + 2 - 1) / 2 : Nat) : K) = v at hk ⊢
          push_cast
          linear_combination (-cellL) * hk
        · have hk : k = 2 * n := by omega
          subst hk
          rw [show (2 * n + 2) / 2 = n + 1 by omega, show (2 * n + 2 - 1) / 2 = n by omega,
            show 2 * n + 2 - 2 = 2 * n by omega]
          push_cast; ring
      · obtain ⟨k, rfl⟩ : ∃ k, c = k + 1 := ⟨c - 1, by omega⟩
        unfold centerX cellLength locX
        rw [if_neg (by omega), if_neg hlast, if_neg (by omega), if_neg (by omega), if_neg (by omega), if_neg hlast, e1]
        rcases Nat.even_or_odd' k with ⟨m, rfl | rfl⟩
        · rw [if_pos (by omega), show (2 * m + 1) / 2 = m by omega, show (2 * m + 1 - 1) / 2 = m by omega,
            show 2 * m + 1 - 1 = 2 * m by omega]
          push_cast; ring
        · rw [if_neg (by omega), show (2 * m + 1 + 1) / 2 = m + 1 by omega, show (2 * m + 1 + 1 - 1) / 2 = m by omega,
            show 2 * m + 1 + 1 - 1 = 2 * m + 1 by omega]
          push_cast; ring
  · intro r hr
    unfold centerY locY cellWidth
    rw [if_neg (by rw [lastRow_eq hs.rows.1 hs.rows.2]; omega)]; ring

/-- **C13 violated** With exactly two columns the centre of the second one is computed with `1 - 2` on unsigned integers: for a
20 um chip cut in two 10 um cells it lies more than 10 km away. -/
theorem C13_two_columns_center_violated :
    ∃ d : Dims ℚ, parseDimensions (20 : ℚ) 20 10 10 none = .ok d ∧ d.nCols = 2 ∧ locX d 1 + cellLength d 1 / 2 = 15 ∧
      centerX d 1 > 10000000000 := by
  refine ⟨_, rfl, ?_, ?_, ?_⟩
  · show ⌊(20 : ℚ) / 10⌋₊ = 2; rw [show (20 : ℚ) / 10 = ((2 : Nat) : ℚ) by norm_num, Nat.floor_natCast]
  · have h2 : ⌊(20 : ℚ) / 10⌋₊ = 2 := by
      rw [show (20 : ℚ) / 10 = ((2 : Nat) : ℚ) by norm_num, Nat.floor_natCast]
    simp only [locX, cellLength, lastColumn, h2, sub32, W]; norm_num
  · have h2 : ⌊(20 : ℚ) / 10⌋₊ = 2 := by
      rw [show (20 : ℚ) / 10 = ((2 : Nat) : ℚ) by norm_num, Nat.floor_natCast]
    simp only [centerX, lastColumn, h2, sub32, W]; norm_num

omit [FloorSemiring K] in
theorem gridLength_4rm {d : Dims K} (hs : Sized d) (n : Nat) (hn : d.nCols = 2 * n + 3) :
    gridLength d = d.firstWall + ((n + 1 : Nat) : K) * d.channel + (n : K) * d.wall + d.lastWall := by
  have hW := hs.cols.2
  have hl := lastColumn_eq hs.cols.1 hs.cols.2
  unfold gridLength
  rw [hn, Finset.sum_range_succ, sum_cellLength d hW _ (by omega), locX_even d n (by omega)]
  unfold cellLength
  rw [if_neg (by omega), if_neg (by omega), if_pos (by omega)]; push_cast; ring

omit [FloorSemiring K] in
theorem gridLength_uniform {d : Dims K} (hs : Sized d) (l : K) (h1 : d.firstWall = l) (h2 : d.wall = l) (h3 : d.channel = l)
    (h4 : d.lastWall = l) : gridLength d = (d.nCols : K) * l := by
  unfold gridLength
  rw [Finset.sum_congr rfl (g := fun _ => l), Finset.sum_const, Finset.card_range, nsmul_eq_mul]
  intro c hc
  have hl := lastColumn_eq hs.cols.1 hs.cols.2
  have := Finset.mem_range.mp hc
  unfold cellLength; rw [if_neg (by omega)]; split_ifs
  exacts [h1, h4, h3, h2]

omit [FloorSemiring K] in
theorem gridWidth_eq {d : Dims K} (hs : Sized d) : gridWidth d = (d.nRows : K) * d.width := by
  unfold gridWidth
  rw [Finset.sum_congr rfl (g := fun _ => d.width), Finset.sum_const, Finset.card_range, nsmul_eq_mul]
  intro r hr
  have hl := lastRow_eq hs.rows.1 hs.rows.2
  have := Finset.mem_range.mp hr
  unfold cellWidth; rw [if_neg (by omega)]

/-- **C13** With a 4RM channel every accepted grid covers exactly the chip length. -/
theorem C13_lengths_add_up_4rm {chipL chipW cellL cellW : K} {f : FourRM K} {d : Dims K}
    (h : parseDimensions chipL chipW cellL cellW (some f) = .ok d) (hp : PosGeom chipL chipW cellL cellW (some f))
    (hs : Sized d) : gridLength d = chipL := by
  rcases (parse_cases h hp).2.2.2.2.2 with ⟨h0, _⟩ | ⟨_, n, _, hn, h1, _⟩
  · cases h0
  · rw [gridLength_4rm hs n hn, h1]

/-- **C13 (partial)** Without a 4RM channel, and along the rows in every case, the grid stops less than one cell short of the
chip, and reaches its border exactly when the chip is a whole number of cells. Missing for the full property: the parser
accepts chips that are not a whole number of cells (`C13_uncovered_chip_violated`). -/
theorem C13_lengths_add_up_partial {chipL chipW cellL cellW : K} {ch : Option (FourRM K)} {d : Dims K}
    (h : parseDimensions chipL chipW cellL cellW ch = .ok d) (hp : PosGeom chipL chipW cellL cellW ch) (hs : Sized d) :
    (gridWidth d ≤ chipW ∧ chipW < gridWidth d + cellW ∧ (gridWidth d = chipW ↔ ∃ n : Nat, chipW = n * cellW)) ∧
    (ch = none → gridLength d ≤ chipL ∧ chipL < gridLength d + cellL ∧
      (gridLength d = chipL ↔ ∃ n : Nat, chipL = n * cellL)) := by
  have hpc := parse_cases h hp
  obtain ⟨p1, p2, p3, p4, _⟩ := hp
  have key : ∀ a b : K, 0 < a → 0 < b → ((⌊a / b⌋₊ : Nat) : K) * b ≤ a ∧ a < (⌊a / b⌋₊ : K) * b + b ∧
      ((⌊a / b⌋₊ : K) * b = a ↔ ∃ n : Nat, a = n * b) := by
    intro a b ha hb
    have h0 : 0 ≤ a / b := by positivity
    refine ⟨?_, ?_, ?_⟩
    · have := Nat.floor_le h0; rwa [le_div_iff₀ hb] at this
    · have := Nat.lt_floor_add_one (a / b); rw [div_lt_iff₀ hb] at this; linarith
    · constructor
      · intro e; exact ⟨_, e.symm⟩
      · rintro ⟨n, hn⟩
        have : a / b = (n : K) := by rw [hn]; field_simp
        rw [this, Nat.floor_natCast, hn]
  constructor
  · rw [gridWidth_eq hs, hpc.2.1, hpc.2.2.1]; exact key _ _ p2 p4
  · intro hn
    rcases hpc.2.2.2.2.2 with ⟨_, a1, a2, a3, a4, a5⟩ | ⟨f, n, h0, _⟩
    · rw [gridLength_uniform hs cellL a1 a2 a3 a4, a5]; exact key _ _ p1 p3
    · rw [hn] at h0; cases h0

/-- **C13 violated** A chip of 25 um cut in 10 um cells is accepted with two columns: the last 5 um belong to no cell. -/
theorem C13_uncovered_chip_violated :
    ∃ d : Dims ℚ, parseDimensions (25 : ℚ) 25 10 10 none = .ok d ∧ gridLength d = 20 ∧ d.chipLength = 25 := by
  have hf : ⌊(25 : ℚ) / 10⌋₊ = 2 := by
    rw [Nat.floor_eq_iff (by norm_num)]; constructor <;> norm_num
  refine ⟨_, rfl, ?_, rfl⟩
  rw [gridLength_uniform ⟨by simp [hf, W], by simp [hf, W]⟩ 10 rfl rfl rfl rfl]
  simp [hf]; norm_num

/-- Non-vacuity: a 4RM grid of 5 columns (walls 10, channels 20, last wall 30) over a 80 um chip and 2 rows meets the hypotheses. -/
example : ∃ d : Dims ℚ, parseDimensions (90 : ℚ) 20 10 10 (some ⟨20, 10, 10, 30⟩) = .ok d ∧
    PosGeom (90 : ℚ) 20 10 10 (some ⟨20, 10, 10, 30⟩) ∧ Sized d ∧ d.nCols = 5 := by
  have h1 : ((90 : ℚ) - 10 - 30 - 20) / (20 + 10) = ((1 : Nat) : ℚ) := by norm_num
  have h2 : ⌊(2 : ℚ) * ((1 : Nat) : ℚ) + 3⌋₊ = 5 := by
    rw [show (2 : ℚ) * ((1 : Nat) : ℚ) + 3 = ((5 : Nat) : ℚ) by norm_num, Nat.floor_natCast]
  have h3 : ⌊(20 : ℚ) / 10⌋₊ = 2 := by rw [show (20 : ℚ) / 10 = ((2 : Nat) : ℚ) by norm_num, Nat.floor_natCast]
  refine ⟨{ firstWall := 10, wall := 10, channel := 20, lastWall := 30, width := 10, heights := [], nLayers := 0, nRows := 2,
            nCols := 5, nCells := 0, chipLength := 90, chipWidth := 20 }, ?_, ?_, ?_, ?_⟩
  · unfold parseDimensions
    simp only [h1, h2, h3, Nat.floor_natCast]
    rw [if_pos (by norm_num), if_neg (by simp), if_neg (by norm_num), if_neg (by norm_num)]
  · refine ⟨by norm_num, by norm_num, by norm_num, by norm_num, ?_⟩
    rintro f ⟨⟩; norm_num
  · exact ⟨by simp [W], by simp [W]⟩
  · rfl

end

/-! ## C14: cell indices are a bijection -/

/-- The grid accepted by the parser: at least one row and column and at most `INT32_MAX` cells, spreader included. -/
structure Accepted (d : Dims K) (s : Option (Spreader K)) : Prop where
  rows : 1 ≤ d.nRows
  cols : 1 ≤ d.nCols
  cells : countCells d s = some d.nCells

theorem accepted_bound {d : Dims K} {s : Option (Spreader K)} (h : Accepted d s) :
    d.nLayers * (d.nRows * d.nCols) ≤ d.nCells ∧ d.nCells ≤ 2147483647 ∧
      d.nCells = d.nLayers * (d.nRows * d.nCols) + spreaderCells s := by
  have := h.cells
  unfold countCells at this
  simp only at this
  generalize spreaderCells s = e at this ⊢
  rw [Nat.mul_assoc] at this
  by_cases hb : d.nLayers * (d.nRows * d.nCols) + e > 2147483647
  · rw [if_pos hb] at this; cases this
  · rw [if_neg hb] at this
    have := Option.some.inj this
    omega

theorem offInStack_eq {d : Dims K} {s : Option (Spreader K)} (h : Accepted d s) {l r c : Nat} (hl : l < d.nLayers)
    (hr : r < d.nRows) (hc : c < d.nCols) :
    offInStack d l r c = l * (d.nRows * d.nCols) + (r * d.nCols + c) ∧
      l * (d.nRows * d.nCols) + (r * d.nCols + c) < d.nLayers * (d.nRows * d.nCols) := by
  obtain ⟨b1, b2, _⟩ := accepted_bound h
  have h1 : r * d.nCols + c < d.nRows * d.nCols := by
    calc r * d.nCols + c < r * d.nCols + d.nCols := by omega
      _ = (r + 1) * d.nCols := by ring
      _ ≤ d.nRows * d.nCols := Nat.mul_le_mul_right _ hr
  have h2 : l * (d.nRows * d.nCols) + (d.nRows * d.nCols) ≤ d.nLayers * (d.nRows * d.nCols) := by
    rw [← Nat.succ_mul]; exact Nat.mul_le_mul_right _ hl
  have h3 : d.nRows * d.nCols ≤ 2147483647 := by omega
  unfold offInStack layerArea offInLayer W
  rw [Nat.mod_eq_of_lt (a := d.nRows * d.nCols) (by omega), Nat.mod_eq_of_lt (a := r * d.nCols + c) (by omega),
    Nat.mod_eq_of_lt (by omega)]
  exact ⟨rfl, by omega⟩

theorem grid_inj {n a b c d : Nat} (hb : b < n) (hd : d < n) (h : a * n + b = c * n + d) : a = c ∧ b = d := by
  have h1 : (a * n + b) / n = a := by rw [Nat.mul_comm, Nat.mul_add_div (by omega), Nat.div_eq_of_lt hb]; rfl
  have h2 : (c * n + d) / n = c := by rw [Nat.mul_comm, Nat.mul_add_div (by omega), Nat.div_eq_of_lt hd]; rfl
  have : a = c := by rw [← h1, ← h2, h]
  subst this
  exact ⟨rfl, by omega⟩

/-- **C14** Cells of the stack map one to one onto the positions `0 .. L*R*C-1`; lower layers come first, then lower rows, then
lower columns. No computation on 32 bits overflows. -/
theorem C14_cells_bijection (d : Dims K) (s : Option (Spreader K)) (h : Accepted d s) :
    (∀ l r c, l < d.nLayers → r < d.nRows → c < d.nCols → offInStack d l r c < d.nLayers * d.nRows * d.nCols) ∧
    (∀ l r c l' r' c', l < d.nLayers → r < d.nRows → c < d.nCols → l' < d.nLayers → r' < d.nRows → c' < d.nCols →
      offInStack d l r c = offInStack d l' r' c' → l = l' ∧ r = r' ∧ c = c') ∧
    (∀ i, i < d.nLayers * d.nRows * d.nCols → ∃ l r c, l < d.nLayers ∧ r < d.nRows ∧ c < d.nCols ∧ offInStack d l r c = i) ∧
    (∀ l r c l' r' c', l < d.nLayers → r < d.nRows → c < d.nCols → l' < d.nLayers → r' < d.nRows → c' < d.nCols →
      (l < l' ∨ (l = l' ∧ (r < r' ∨ (r = r' ∧ c < c')))) → offInStack d l r c < offInStack d l' r' c') := by
  have hin : ∀ r c, r < d.nRows → c < d.nCols → r * d.nCols + c < d.nRows * d.nCols := by
    intro r c hr hc
    calc r * d.nCols + c < r * d.nCols + d.nCols := by omega
      _ = (r + 1) * d.nCols := by ring
      _ ≤ d.nRows * d.nCols := Nat.mul_le_mul_right _ hr
  refine ⟨?_, ?_, ?_, ?_⟩
  · intro l r c hl hr hc
    obtain ⟨e, b⟩ := offInStack_eq h hl hr hc
    rw [e, Nat.mul_assoc]; exact b
  · intro l r c l' r' c' hl hr hc hl' hr' hc' he
    rw [(offInStack_eq h hl hr hc).1, (offInStack_eq h hl' hr' hc').1] at he
    obtain ⟨e1, e2⟩ := grid_inj (hin r c hr hc) (hin r' c' hr' hc') he
    obtain ⟨e3, e4⟩ := grid_inj hc hc' e2
    exact ⟨e1, e3, e4⟩
  · intro i hi
    rw [Nat.mul_assoc] at hi
    have hA : 0 < d.nRows * d.nCols := Nat.mul_pos h.rows h.cols
    have hl : i / (d.nRows * d.nCols) < d.nLayers := (Nat.div_lt_iff_lt_mul hA).mpr hi
    have hm : i % (d.nRows * d.nCols) < d.nRows * d.nCols := Nat.mod_lt _ hA
    have hr : i % (d.nRows * d.nCols) / d.nCols < d.nRows := (Nat.div_lt_iff_lt_mul h.cols).mpr hm
    have hc : i % (d.nRows * d.nCols) % d.nCols < d.nCols := Nat.mod_lt _ h.cols
    refine ⟨_, _, _, hl, hr, hc, ?_⟩
    rw [(offInStack_eq h hl hr hc).1, Nat.div_add_mod', Nat.div_add_mod']
  · intro l r c l' r' c' hl hr hc hl' hr' hc' hlt
    rw [(offInStack_eq h hl hr hc).1, (offInStack_eq h hl' hr' hc').1]
    have h1 := hin r c hr hc
    rcases hlt with hlt | ⟨rfl, hlt | ⟨rfl, hlt⟩⟩
    · have : (l + 1) * (d.nRows * d.nCols) ≤ l' * (d.nRows * d.nCols) := Nat.mul_le_mul_right _ hlt
      rw [Nat.succ_mul] at this; omega
    · have : (r + 1) * d.nCols ≤ r' * d.nCols := Nat.mul_le_mul_right _ hlt
      rw [Nat.succ_mul] at this; omega
    · omega

theorem spreaderOffset_eq {d : Dims K} {s : Spreader K} (h : Accepted d (some s)) {r c : Nat}
    (hr : r < s.nRows) (hc : c < s.nCols) :
    spreaderOffset d s r c = d.nLayers * (d.nRows * d.nCols) + (r * s.nCols + c) ∧
      d.nLayers * (d.nRows * d.nCols) + (r * s.nCols + c) < d.nCells := by
  obtain ⟨b1, b2, b3⟩ := accepted_bound h
  simp only [spreaderCells] at b3
  have h1 : r * s.nCols + c < s.nRows * s.nCols := by
    calc r * s.nCols + c < r * s.nCols + s.nCols := by omega
      _ = (r + 1) * s.nCols := by ring
      _ ≤ s.nRows * s.nCols := Nat.mul_le_mul_right _ hr
  unfold spreaderOffset W
  rw [Nat.mul_assoc, Nat.add_assoc, Nat.mod_eq_of_lt (by omega)]
  exact ⟨rfl, by omega⟩

/-- **C14** The cells of the heat spreader occupy, one to one, exactly the positions that follow those of the stack. -/
theorem C14_spreader_follows (d : Dims K) (s : Spreader K) (h : Accepted d (some s)) :
    (∀ r c, r < s.nRows → c < s.nCols →
      d.nLayers * d.nRows * d.nCols ≤ spreaderOffset d s r c ∧ spreaderOffset d s r c < d.nCells) ∧
    (∀ r c r' c', r < s.nRows → c < s.nCols → r' < s.nRows → c' < s.nCols →
      spreaderOffset d s r c = spreaderOffset d s r' c' → r = r' ∧ c = c') ∧
    (∀ i, d.nLayers * d.nRows * d.nCols ≤ i → i < d.nCells →
      ∃ r c, r < s.nRows ∧ c < s.nCols ∧ spreaderOffset d s r c = i) := by
  refine ⟨?_, ?_, ?_⟩
  · intro r c hr hc
    obtain ⟨e, b⟩ := spreaderOffset_eq h hr hc
    rw [e, Nat.mul_assoc]; exact ⟨by omega, b⟩
  · intro r c r' c' hr hc hr' hc' he
    rw [(spreaderOffset_eq h hr hc).1, (spreaderOffset_eq h hr' hc').1] at he
    exact grid_inj hc hc' (by omega)
  · intro i hi1 hi2
    obtain ⟨_, _, b3⟩ := accepted_bound h
    simp only [spreaderCells] at b3
    rw [Nat.mul_assoc] at hi1
    have hlt : i - d.nLayers * (d.nRows * d.nCols) < s.nRows * s.nCols := by omega
    have hc0 : 0 < s.nCols := by
      rcases Nat.eq_zero_or_pos s.nCols with h0 | h0
      · rw [h0] at hlt; omega
      · exact h0
    have hr : (i - d.nLayers * (d.nRows * d.nCols)) / s.nCols < s.nRows := (Nat.div_lt_iff_lt_mul hc0).mpr hlt
    have hc := Nat.mod_lt (i - d.nLayers * (d.nRows * d.nCols)) hc0
    refine ⟨_, _, hr, hc, ?_⟩
    rw [(spreaderOffset_eq h hr hc).1, Nat.div_add_mod']; omega

/-- Non-vacuity of `Accepted`, with a spreader: 3 layers of 2 × 5 cells and a spreader of 4 × 7. -/
def exDims : Dims ℚ :=
  { firstWall := 10, wall := 10, channel := 20, lastWall := 30, width := 10, heights := [1, 2, 3], nLayers := 3, nRows := 2,
    nCols := 5, nCells := 58, chipLength := 90, chipWidth := 20 }
def exSpreader : Spreader ℚ :=
  { length := 130, width := 40, height := 1, cellLength := 18, cellWidth := 10, nRows := 4, nCols := 7, rowsBorder := 1,
    colsBorder := 1 }
example : Accepted exDims (some exSpreader) := ⟨by decide, by decide, by decide⟩
example : Sized exDims := ⟨by simp [exDims, W], by simp [exDims, W]⟩

/-! ## C15: reading the temperature of a cell -/

/-- **C15 (partial)** For a cell inside the grid the function returns the temperature stored for that cell, and it never reads
outside the temperature vector. Missing: a triple outside the grid is refused only if its flat position is
(`C15_outside_grid_violated`). -/
theorem C15_inside_grid_partial (d : Dims K) (s : Option (Spreader K)) (h : Accepted d s) (temps : List K)
    (ht : temps.length = d.nCells) :
    (∀ l r c, l < d.nLayers → r < d.nRows → c < d.nCols →
      getCellTemperature d temps l r c = temps[(l * d.nRows + r) * d.nCols + c]?) ∧
    (∀ l r c, getCellTemperature d temps l r c ≠ none) := by
  constructor
  · intro l r c hl hr hc
    obtain ⟨e, b⟩ := offInStack_eq h hl hr hc
    have hb := (accepted_bound h).1
    unfold getCellTemperature
    simp only
    rw [e, if_neg (by omega)]
    congr 1; ring
  · intro l r c
    unfold getCellTemperature
    simp only
    split
    · simp
    · rw [Ne, List.getElem?_eq_none_iff]; omega

/-- **C15 violated** In a grid of 2 rows and 3 columns, asking for the non-existing column 3 of row 0 returns the temperature of
row 1, column 0. -/
theorem C15_outside_grid_violated :
    ∃ (d : Dims ℚ) (temps : List ℚ), Accepted d none ∧ temps.length = d.nCells ∧ d.nCols = 3 ∧
      getCellTemperature d temps 0 0 3 = some 350 ∧ temps[3]? = some 350 := by
  refine ⟨{ firstWall := 1, wall := 1, channel := 1, lastWall := 1, width := 1, heights := [1], nLayers := 1, nRows := 2,
            nCols := 3, nCells := 6, chipLength := 3, chipWidth := 2 }, [300, 300, 300, 350, 300, 300],
          ⟨by decide, by decide, by decide⟩, rfl, rfl, ?_, rfl⟩
  simp [getCellTemperature, offInStack, layerArea, offInLayer, W]

end Verif.Dim
