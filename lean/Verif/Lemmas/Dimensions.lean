import Verif.Model.Dimensions
import Mathlib.Algebra.BigOperators.Group.Finset.Basic
import Mathlib.Algebra.BigOperators.Intervals
import Mathlib.Algebra.Order.BigOperators.Group.Finset
import Mathlib.Tactic.Ring
import Mathlib.Tactic.Linarith
import Mathlib.Tactic.FieldSimp
import Mathlib.Tactic.LinearCombination

set_option linter.unusedSectionVars false

namespace Verif.Dim

theorem sub32_eq {a b : Nat} (ha : a < W) (h : b ≤ a) : sub32 a b = a - b := by unfold sub32 W at *; omega

variable {K : Type} [Field K] [LinearOrder K]

theorem lastColumn_eq {d : Dims K} (h : 1 ≤ d.nCols) (hW : d.nCols < W) : lastColumn d = d.nCols - 1 := sub32_eq hW h
theorem lastRow_eq {d : Dims K} (h : 1 ≤ d.nRows) (hW : d.nRows < W) : lastRow d = d.nRows - 1 := sub32_eq hW h

theorem locX_zero (d : Dims K) : locX d 0 = 0 := by simp [locX]

theorem locX_odd (d : Dims K) (m : Nat) (h : 2 * m + 1 < W) :
    locX d (2 * m + 1) = d.firstWall + d.channel * (m : K) + d.wall * (m : K) := by
  have e1 : (2 * m + 1) / 2 = m := by omega
  have e2 : sub32 (2 * m + 1) 1 / 2 = m := by rw [sub32_eq h (by omega)]; omega
  unfold locX; rw [if_neg (by omega), e1, e2]

theorem locX_even (d : Dims K) (m : Nat) (h : 2 * m + 2 < W) :
    locX d (2 * m + 2) = d.firstWall + d.channel * ((m + 1 : Nat) : K) + d.wall * (m : K) := by
  have e1 : (2 * m + 2) / 2 = m + 1 := by omega
  have e2 : sub32 (2 * m + 2) 1 / 2 = m := by rw [sub32_eq h (by omega)]; omega
  unfold locX; rw [if_neg (by omega), e1, e2]

theorem locX_succ (d : Dims K) (c : Nat) (hc : c + 1 < d.nCols) (hW : d.nCols < W) :
    locX d (c + 1) = locX d c + cellLength d c := by
  have hl := lastColumn_eq (d := d) (by omega) hW
  rcases Nat.eq_zero_or_pos c with rfl | h0
  · rw [locX_zero, locX_odd d 0 (by omega)]; unfold cellLength; rw [if_neg (by omega), if_pos rfl]; simp
  · rcases Nat.even_or_odd' c with ⟨m, rfl | rfl⟩
    · obtain ⟨k, rfl⟩ : ∃ k, m = k + 1 := ⟨m - 1, by omega⟩
      rw [show 2 * (k + 1) + 1 = 2 * (k + 1) + 1 from rfl, locX_odd d (k + 1) (by omega),
        show 2 * (k + 1) = 2 * k + 2 by ring, locX_even d k (by omega)]
      unfold cellLength
      rw [if_neg (by omega), if_neg (by omega), if_neg (by omega), if_neg (by omega)]; push_cast; ring
    · rw [show 2 * m + 1 + 1 = 2 * m + 2 by ring, locX_even d m (by omega), locX_odd d m (by omega)]
      unfold cellLength
      rw [if_neg (by omega), if_neg (by omega), if_neg (by omega), if_pos (by omega)]; push_cast; ring

theorem sum_cellLength (d : Dims K) (hW : d.nCols < W) (n : Nat) (hn : n < d.nCols) :
    ∑ c ∈ Finset.range n, cellLength d c = locX d n := by
  induction n with
  | zero => simp [locX_zero]
  | succ n ih => rw [Finset.sum_range_succ, ih (by omega), locX_succ d n hn hW]

/-- Consecutive half open intervals cover exactly once. -/
theorem tile_unique [IsStrictOrderedRing K] (f len : Nat → K) (h0 : f 0 = 0) (n : Nat)
    (hs : ∀ c, c < n → f (c + 1) = f c + len c)
    (hp : ∀ c, c < n → 0 ≤ len c) (x : K) (hx0 : 0 ≤ x) (hx : x < f n) :
    ∃! c, c < n ∧ f c ≤ x ∧ x < f c + len c := by
  have mono : ∀ b, b ≤ n → ∀ a, a ≤ b → f a ≤ f b := by
    intro b
    induction b with
    | zero => intro _ a ha; rw [show a = 0 by omega]
    | succ b ih =>
      intro hb a ha
      rcases Nat.lt_or_ge a (b + 1) with h | h
      · have := ih (by omega) a (by omega); have := hs b (by omega); have := hp b (by omega); linarith
      · rw [show a = b + 1 by omega]
  have ex : ∀ m, m ≤ n → x < f m → ∃ c, c < m ∧ f c ≤ x ∧ x < f c + len c := by
    intro m
    induction m with
    | zero => intro _ h; linarith
    | succ m ih =>
      intro hm hxm
      by_cases h : x < f m
      · obtain ⟨c, h1, h2⟩ := ih (by omega) h; exact ⟨c, by omega, h2⟩
      · exact ⟨m, by omega, not_lt.mp h, by rw [← hs m (by omega)]; exact hxm⟩
  obtain ⟨c, hc, h1, h2⟩ := ex n le_rfl hx
  refine ⟨c, ⟨hc, h1, h2⟩, ?_⟩
  rintro c' ⟨hc', h1', h2'⟩
  rcases Nat.lt_trichotomy c c' with h | h | h
  · have := mono c' (by omega) (c + 1) h; have := hs c hc; linarith
  · exact h.symm
  · have := mono c (by omega) (c' + 1) h; have := hs c' hc'; linarith

theorem search_found (p : Nat → Bool) : ∀ (n i k : Nat), i ≤ k → k < i + n → p k = true →
    (∀ j, i ≤ j → j < k → p j = false) → search p i n = (k, true) := by
  intro n
  induction n with
  | zero => intro i k h1 h2; omega
  | succ n ih =>
    intro i k h1 h2 hk hb
    unfold search
    rcases Nat.eq_or_lt_of_le h1 with rfl | h
    · simp [hk]
    · rw [if_neg (by simp [hb i le_rfl h])]
      exact ih (i + 1) k h (by omega) hk fun j hj1 hj2 => hb j (by omega) hj2

theorem search_none (p : Nat → Bool) : ∀ (n i : Nat), (∀ j, i ≤ j → j < i + n → p j = false) →
    search p i n = (i + n - 1, false) := by
  intro n
  induction n with
  | zero => intro i _; rfl
  | succ n ih =>
    intro i hb
    unfold search
    rw [if_neg (by simp [hb i le_rfl (by omega)]), ih (i + 1) fun j h1 h2 => hb j (by omega) (by omega)]
    congr 1; omega

end Verif.Dim
