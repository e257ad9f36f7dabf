import Verif.Model.Outlet
import Verif.Props.Stats

set_option linter.unusedSectionVars false
set_option linter.unusedSimpArgs false
set_option linter.unusedVariables false

/-! # C31: statistics of the coolant at the outlet

Specification: the outlet cells are the coolant cells of the last row: all its columns, or the odd ones with the 4RM model. -/

namespace Verif.Outlet
open Verif.Dim Verif.TG Verif.Flp

variable {K : Type} [Field K] [LinearOrder K] [IsStrictOrderedRing K]

/-- Columns with coolant. -/
def coolantCols (m : ChModel) (nCols : Nat) : Finset Nat := (Finset.range nCols).filter fun c => m = .mc4rm → c % 2 = 1

/-- Temperature of the cell of column `c` in the last row. -/
def outletTemp (d : Dims K) (temps : List K) (c : Nat) : K := temps.getD ((d.nRows - 1) * d.nCols + c) 0

/-- Mean temperature of the coolant at the outlet. -/
def coolantMean (m : ChModel) (d : Dims K) (temps : List K) : K :=
  (∑ c ∈ coolantCols m d.nCols, outletTemp d temps c) / ((coolantCols m d.nCols).card : K)

theorem outT_eq {d : Dims K} (hs : Sized d) (hW : d.nRows * d.nCols < W) (temps : List K) (c : Nat) : outT d temps c = outletTemp d temps c := by
  unfold outT outletTemp
  have h1 := hs.rows.1
  rw [lastRow_eq hs.rows.1 hs.rows.2, (offInLayer_eq hW (r := d.nRows - 1) (c := 0) (by omega) hs.cols.1).1, Nat.add_zero]

/-- The loop is a loop over the coolant columns. -/
theorem overColumns_eq (m : ChModel) {d : Dims K} (hs : Sized d) (temps : List K) (f : K → K → K) (x : K) :
    overColumns m d temps f x = ((List.range d.nCols).filter (isChan m)).foldl (fun x c => f x (outT d temps c)) x := by
  unfold overColumns
  have := hs.cols.1
  rw [lastColumn_eq hs.cols.1 hs.cols.2, show d.nCols - 1 + 1 = d.nCols by omega]
  generalize List.range d.nCols = L
  induction L generalizing x with
  | nil => rfl
  | cons a L ih =>
    rw [List.foldl_cons, List.filter_cons]
    cases isChan m a
    · exact ih x
    · exact ih (f x (outT d temps a))

theorem mem_cols {m : ChModel} {n c : Nat} : c ∈ (List.range n).filter (isChan m) ↔ c ∈ coolantCols m n := by
  unfold coolantCols isChan isChannelCol
  simp only [List.mem_filter, List.mem_range, Finset.mem_filter, Finset.mem_range]
  by_cases h : m = .mc4rm <;> simp [h]

theorem cols_toFinset (m : ChModel) (n : Nat) : ((List.range n).filter (isChan m)).toFinset = coolantCols m n := by
  ext c; rw [List.mem_toFinset, mem_cols]

theorem cols_nodup (m : ChModel) (n : Nat) : ((List.range n).filter (isChan m)).Nodup := List.nodup_range.filter _

/-- The reported maximum is the largest among the first cell of the row and the coolant cells. -/
theorem maxOut_spec {d : Dims K} (hs : Sized d) (hW : d.nRows * d.nCols < W) (ch : Channel K) (temps : List K) :
    outletTemp d temps 0 ≤ maxOut ch d temps ∧ (∀ c ∈ coolantCols ch.model d.nCols, outletTemp d temps c ≤ maxOut ch d temps) ∧
      (maxOut ch d temps = outletTemp d temps 0 ∨ ∃ c ∈ coolantCols ch.model d.nCols, outletTemp d temps c = maxOut ch d temps) := by
  unfold maxOut
  rw [overColumns_eq _ hs]
  obtain ⟨h1, h2, h3⟩ := foldl_max_spec (outT d temps) ((List.range d.nCols).filter (isChan ch.model)) (outT d temps 0)
  simp only [outT_eq hs hW] at h1 h2 h3 ⊢
  refine ⟨h1, fun c hc => h2 c (mem_cols.mpr hc), ?_⟩
  rcases h3 with h | ⟨c, hc, h⟩
  · exact .inl h
  · exact .inr ⟨c, mem_cols.mp hc, h.symm⟩

theorem minOut_spec {d : Dims K} (hs : Sized d) (hW : d.nRows * d.nCols < W) (ch : Channel K) (temps : List K) :
    minOut ch d temps ≤ outletTemp d temps 0 ∧ (∀ c ∈ coolantCols ch.model d.nCols, minOut ch d temps ≤ outletTemp d temps c) ∧
      (minOut ch d temps = outletTemp d temps 0 ∨ ∃ c ∈ coolantCols ch.model d.nCols, outletTemp d temps c = minOut ch d temps) := by
  unfold minOut
  rw [overColumns_eq _ hs]
  obtain ⟨h1, h2, h3⟩ := foldl_min_spec (outT d temps) ((List.range d.nCols).filter (isChan ch.model)) (outT d temps 0)
  simp only [outT_eq hs hW] at h1 h2 h3 ⊢
  refine ⟨h1, fun c hc => h2 c (mem_cols.mpr hc), ?_⟩
  rcases h3 with h | ⟨c, hc, h⟩
  · exact .inl h
  · exact .inr ⟨c, mem_cols.mp hc, h.symm⟩

/-- **C31 (partial)** The reported maximum is the temperature of a coolant cell of the outlet and bounds all of them, for every model
but 4RM, and with 4RM if the first wall is not hotter than all the coolant cells. Missing: a hotter first wall
(`C31_maximum_of_wall_violated`). -/
theorem C31_maximum_partial {d : Dims K} (hs : Sized d) (hW : d.nRows * d.nCols < W) (ch : Channel K) (temps : List K)
    (h : ch.model ≠ .mc4rm ∨ ∃ c ∈ coolantCols ch.model d.nCols, outletTemp d temps 0 ≤ outletTemp d temps c) :
    (∃ c ∈ coolantCols ch.model d.nCols, outletTemp d temps c = maxOut ch d temps) ∧
      ∀ c ∈ coolantCols ch.model d.nCols, outletTemp d temps c ≤ maxOut ch d temps := by
  obtain ⟨h1, h2, h3⟩ := maxOut_spec hs hW ch temps
  refine ⟨?_, h2⟩
  rcases h3 with h3 | h3
  · rcases h with h | ⟨c, hc, h⟩
    · exact ⟨0, by unfold coolantCols; simp [h]; exact hs.cols.1, h3.symm⟩
    · exact ⟨c, hc, le_antisymm (h2 c hc) (by rw [h3]; exact h)⟩
  · exact h3

/-- **C31 (partial)** The same for the minimum. Missing: a first wall colder than all the coolant cells
(`C31_minimum_of_wall_violated`). -/
theorem C31_minimum_partial {d : Dims K} (hs : Sized d) (hW : d.nRows * d.nCols < W) (ch : Channel K) (temps : List K)
    (h : ch.model ≠ .mc4rm ∨ ∃ c ∈ coolantCols ch.model d.nCols, outletTemp d temps c ≤ outletTemp d temps 0) :
    (∃ c ∈ coolantCols ch.model d.nCols, outletTemp d temps c = minOut ch d temps) ∧
      ∀ c ∈ coolantCols ch.model d.nCols, minOut ch d temps ≤ outletTemp d temps c := by
  obtain ⟨h1, h2, h3⟩ := minOut_spec hs hW ch temps
  refine ⟨?_, h2⟩
  rcases h3 with h3 | h3
  · rcases h with h | ⟨c, hc, h⟩
    · exact ⟨0, by unfold coolantCols; simp [h]; exact hs.cols.1, h3.symm⟩
    · exact ⟨c, hc, le_antisymm (by rw [h3]; exact h) (h2 c hc)⟩
  · exact h3

/-- **C31 (violated)** With the 4RM model, if the first wall is hotter than all the coolant, its temperature is reported as the maximum
of the coolant. -/
theorem C31_maximum_of_wall_violated {d : Dims K} (hs : Sized d) (hW : d.nRows * d.nCols < W) (ch : Channel K) (h4 : ch.model = .mc4rm)
    (temps : List K) (h : ∀ c ∈ coolantCols ch.model d.nCols, outletTemp d temps c < outletTemp d temps 0) :
    maxOut ch d temps = outletTemp d temps 0 ∧ 0 ∉ coolantCols ch.model d.nCols := by
  obtain ⟨h1, h2, h3⟩ := maxOut_spec hs hW ch temps
  refine ⟨?_, by unfold coolantCols; simp [h4]⟩
  rcases h3 with h3 | ⟨c, hc, h3⟩
  · exact h3
  · exact absurd (lt_of_le_of_lt (h1.trans h3.symm.le) (h c hc)) (lt_irrefl _)

/-- **C31 (violated)** The same for the minimum. -/
theorem C31_minimum_of_wall_violated {d : Dims K} (hs : Sized d) (hW : d.nRows * d.nCols < W) (ch : Channel K) (h4 : ch.model = .mc4rm)
    (temps : List K) (h : ∀ c ∈ coolantCols ch.model d.nCols, outletTemp d temps 0 < outletTemp d temps c) :
    minOut ch d temps = outletTemp d temps 0 ∧ 0 ∉ coolantCols ch.model d.nCols := by
  obtain ⟨h1, h2, h3⟩ := minOut_spec hs hW ch temps
  refine ⟨?_, by unfold coolantCols; simp [h4]⟩
  rcases h3 with h3 | ⟨c, hc, h3⟩
  · exact h3
  · exact absurd (lt_of_lt_of_le (h c hc) (h3.le.trans h1)) (lt_irrefl _)

/-- A 4RM grid has as many coolant columns as channels. -/
theorem card_coolant {n : Nat} (hn : n % 2 = 1) : (coolantCols .mc4rm n).card = nChannels4 n := by
  obtain ⟨k, rfl⟩ : ∃ k, n = 2 * k + 1 := ⟨n / 2, by omega⟩
  unfold nChannels4
  rw [show (2 * k + 1 - 1) / 2 = k by omega]
  clear hn
  induction k with
  | zero => decide
  | succ k ih =>
    unfold coolantCols at ih ⊢
    rw [show 2 * (k + 1) + 1 = 2 * k + 1 + 1 + 1 by ring, Finset.range_add_one, Finset.range_add_one, Finset.filter_insert, Finset.filter_insert,
      if_neg (by intro h; have := h rfl; omega), if_pos (by intro _; omega), Finset.card_insert_of_notMem (by simp), ih]

/-- The reported average: the temperature of the first cell of the row is added to the sum of the coolant cells, and the divisor
is the number of channels. -/
theorem avgOut_eq {d : Dims K} (hs : Sized d) (hW : d.nRows * d.nCols < W) (ch : Channel K) (temps : List K) :
    avgOut ch d temps = (outletTemp d temps 0 + ∑ c ∈ coolantCols ch.model d.nCols, outletTemp d temps c) / (ch.nChannels : K) := by
  unfold avgOut
  rw [overColumns_eq _ hs, foldl_add_sum (outT d temps), (funext fun c => outT_eq hs hW temps c : outT d temps = outletTemp d temps), ← cols_toFinset,
    List.sum_toFinset _ (cols_nodup _ _)]

/-- **C31 (violated)** On every grid with 4RM channels the reported average is the mean of the coolant only if the first wall is at 0 K:
the excess is the temperature of that wall divided by the number of channels. -/
theorem C31_average_violated {d : Dims K} (hs : Sized d) (hW : d.nRows * d.nCols < W) (ch : Channel K) (h4 : ch.model = .mc4rm)
    (hodd : d.nCols % 2 = 1) (hn : ch.nChannels = nChannels4 d.nCols) (temps : List K) :
    avgOut ch d temps = coolantMean ch.model d temps + outletTemp d temps 0 / (ch.nChannels : K) := by
  rw [avgOut_eq hs hW]
  unfold coolantMean
  rw [h4, card_coolant hodd, hn]; ring

/-- **C31 (violated)** The reported gradient is the maximum: it is the difference of maximum and minimum only if the minimum is 0 K. -/
theorem C31_gradient_violated (d : Dims K) (ch : Channel K) (temps : List K) :
    gradientOut ch d temps = maxOut ch d temps ∧ (gradientOut ch d temps = maxOut ch d temps - minOut ch d temps ↔ minOut ch d temps = 0) := by
  have h : gradientOut ch d temps = maxOut ch d temps := rfl
  refine ⟨h, ?_⟩
  rw [h]
  constructor
  · intro h'; linarith
  · intro h'; rw [h']; ring

/-! ### Concrete channels -/

/-- A channel of the given model. -/
def exChan (m : ChModel) (n : Nat) : Channel ℚ := ⟨m, 100, 50, 1 / 2, n, ⟨1, 1, 1, 1⟩, ⟨1, 1, 1, 1, 1, 1, 300⟩, id, id⟩

/-- Non-vacuity: on the 2 × 5 grid of `okDims`, with 4RM channels in columns 1 and 3, the last row at 310, 320, 330, 340, 350: the
reported maximum is 340, the minimum is 310 (the wall) and the average is 485, the coolant being at 320 and 340. -/
example : maxOut (exChan .mc4rm 2) okDims [0, 0, 0, 0, 0, 310, 320, 330, 340, 350] = 340 ∧
    minOut (exChan .mc4rm 2) okDims [0, 0, 0, 0, 0, 310, 320, 330, 340, 350] = 310 ∧
    avgOut (exChan .mc4rm 2) okDims [0, 0, 0, 0, 0, 310, 320, 330, 340, 350] = 485 ∧
    coolantMean .mc4rm okDims [0, 0, 0, 0, 0, 310, 320, 330, 340, 350] = 330 := by decide +kernel

/-- The hypotheses of `C31_maximum_partial` hold there, those of `C31_minimum_of_wall_violated` too. -/
example : (∃ c ∈ coolantCols (exChan .mc4rm 2).model okDims.nCols,
      outletTemp okDims [0, 0, 0, 0, 0, 310, 320, 330, 340, 350] c = maxOut (exChan .mc4rm 2) okDims [0, 0, 0, 0, 0, 310, 320, 330, 340, 350]) ∧
    minOut (exChan .mc4rm 2) okDims [0, 0, 0, 0, 0, 310, 320, 330, 340, 350] = 310 := by
  have hW : okDims.nRows * okDims.nCols < W := by simp [okDims, exDims, W]
  refine ⟨(C31_maximum_partial okSized hW (exChan .mc4rm 2) _ (.inr ⟨1, by decide, by decide +kernel⟩)).1, ?_⟩
  rw [(C31_minimum_of_wall_violated okSized hW (exChan .mc4rm 2) rfl _ (by decide +kernel)).1]; decide +kernel

end Verif.Outlet
