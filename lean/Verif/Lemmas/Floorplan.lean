import Verif.Model.Floorplan
import Verif.Props.Probe
import Mathlib.Algebra.BigOperators.Intervals
import Mathlib.Tactic.Linarith
import Mathlib.Tactic.Ring
import Mathlib.Tactic.FieldSimp

set_option linter.unusedSectionVars false
set_option linter.unusedSimpArgs false
set_option linter.unusedVariables false

/-! Lemmas on the alignment of rectangles and on the surface coefficients. -/

namespace Verif.Flp
open Verif.Dim Verif.TG

variable {K : Type} [Field K] [LinearOrder K] [IsStrictOrderedRing K]

open Classical in
theorem scan_eq {stop : Nat → Prop} {start k : Nat} (h1 : start ≤ k) (h2 : stop k) (h3 : ∀ i, start ≤ i → i < k → ¬ stop i) :
    scan stop start = some k := by
  have h : ∃ n, start ≤ n ∧ stop n := ⟨k, h1, h2⟩
  unfold scan
  rw [dif_pos h]
  congr 1
  rw [Nat.find_eq_iff]
  refine ⟨⟨h1, h2⟩, fun n hn hc => h3 n hc.1 hn hc.2⟩

open Classical in
theorem scan_some {stop : Nat → Prop} {start k : Nat} (h : scan stop start = some k) :
    start ≤ k ∧ stop k ∧ ∀ i, start ≤ i → i < k → ¬ stop i := by
  unfold scan at h
  split at h
  · rename_i hx
    rw [Option.some.injEq] at h
    subst h
    refine ⟨(Nat.find_spec hx).1, (Nat.find_spec hx).2, fun i h1 h2 h3 => ?_⟩
    exact Nat.find_min hx h2 ⟨h1, h3⟩
  · cases h

open Classical in
theorem scan_isSome {stop : Nat → Prop} {start k : Nat} (h1 : start ≤ k) (h2 : stop k) : ∃ n, scan stop start = some n ∧ n ≤ k := by
  have h : ∃ n, start ≤ n ∧ stop n := ⟨k, h1, h2⟩
  exact ⟨Nat.find h, by unfold scan; rw [dif_pos h], Nat.find_min' h ⟨h1, h2⟩⟩

/-- What the alignment of an interval finds, if its end is not beyond the location of index `n`. -/
theorem alignAxis_spec {loc : Nat → K} {lo hi : K} {n : Nat} (hW : n < W) (h0 : loc 0 ≤ lo) (hlt : lo < hi) (hn : hi ≤ loc n) :
    ∃ sw ne, alignAxis loc lo hi = some (sw, ne) ∧ sw ≤ ne ∧ ne < n ∧ loc sw ≤ lo ∧ lo < loc (sw + 1) ∧ loc ne < hi ∧ hi ≤ loc (ne + 1) := by
  have hn0 : n ≠ 0 := by rintro rfl; exact absurd (lt_of_lt_of_le hlt hn) (not_lt.mpr h0)
  obtain ⟨sw, hsw, hle⟩ := scan_isSome (stop := fun i => lo < loc (i + 1)) (start := 0) (k := n - 1) (Nat.zero_le _)
    (by rw [Nat.sub_add_cancel (by omega)]; exact lt_of_lt_of_le hlt hn)
  obtain ⟨-, s1, s2⟩ := scan_some hsw
  have hlo : loc sw ≤ lo := by
    rcases Nat.eq_zero_or_pos sw with rfl | hp
    · exact h0
    · have := s2 (sw - 1) (Nat.zero_le _) (by omega)
      rw [Nat.sub_add_cancel (by omega)] at this
      exact not_lt.mp this
  obtain ⟨m, hm, hmn⟩ := scan_isSome (stop := fun m => hi ≤ loc m) (start := sw) (k := n) (by omega) hn
  obtain ⟨m1, m2, m3⟩ := scan_some hm
  have hne : m ≠ sw := by rintro rfl; exact absurd (lt_of_le_of_lt hlo hlt) (not_lt.mpr m2)
  refine ⟨sw, m - 1, ?_, by omega, by omega, hlo, s1, ?_, by rw [Nat.sub_add_cancel (by omega)]; exact m2⟩
  · unfold alignAxis
    rw [hsw, Option.bind_some, hm, Option.map_some, sub32_eq (by omega) (by omega)]
  · by_cases h : m - 1 = sw
    · rw [h]; exact lt_of_le_of_lt hlo hlt
    · exact not_le.mp (m3 (m - 1) (by omega) (by omega))

/-! ### The entries -/

/-- Extent along one axis of the part of the element `[lo, hi]`, aligned on the cells `sw..ne`, in cell `c`. -/
def part (loc : Nat → K) (lo hi : K) (sw ne c : Nat) : K := (if c < ne then loc (c + 1) else hi) - (if c = sw then lo else loc c)

theorem fillColumns_eq (d : Dims K) (ic : ICEl K) (area width : K) (row : Nat) : ∀ (n col : Nat) (x : K), ic.swCol ≤ col → col + n = ic.neCol + 1 →
    x = (if col = ic.swCol then ic.rect.x else locX d col) →
    fillColumns d ic area width row n col x = (List.range' col n).map fun c =>
      (offInLayer d row c, part (locX d) ic.rect.x (ic.rect.x + ic.rect.length) ic.swCol ic.neCol c * width / area) := by
  intro n
  induction n with
  | zero => intro col x _ _ _; rfl
  | succ n ih =>
    intro col x h1 h2 hx
    rw [fillColumns, List.range'_succ, List.map_cons]
    have hlen : (if col < ic.neCol then locX d (col + 1) - x else ic.rect.x + ic.rect.length - x) =
        part (locX d) ic.rect.x (ic.rect.x + ic.rect.length) ic.swCol ic.neCol col := by
      unfold part; rw [hx]; by_cases h : col < ic.neCol <;> simp [h]
    simp only [hlen]
    congr 1
    by_cases hc : col < ic.neCol
    · refine ih _ _ (by omega) (by omega) ?_
      rw [if_neg (by omega), hx]; unfold part; rw [if_pos hc]; ring
    · have : n = 0 := by omega
      subst this; rfl

theorem fillRows_eq (d : Dims K) (ic : ICEl K) (area : K) (hc : ic.swCol ≤ ic.neCol) : ∀ (n row : Nat) (y : K), ic.swRow ≤ row → row + n = ic.neRow + 1 →
    y = (if row = ic.swRow then ic.rect.y else locY d row) →
    fillRows d ic area n row y = (List.range' row n).flatMap fun r => (List.range' ic.swCol (ic.neCol + 1 - ic.swCol)).map fun c =>
      (offInLayer d r c, part (locX d) ic.rect.x (ic.rect.x + ic.rect.length) ic.swCol ic.neCol c *
        part (locY d) ic.rect.y (ic.rect.y + ic.rect.width) ic.swRow ic.neRow r / area) := by
  intro n
  induction n with
  | zero => intro row y _ _ _; rfl
  | succ n ih =>
    intro row y h1 h2 hy
    rw [fillRows, List.range'_succ, List.flatMap_cons]
    have hlen : (if row < ic.neRow then locY d (row + 1) - y else ic.rect.y + ic.rect.width - y) =
        part (locY d) ic.rect.y (ic.rect.y + ic.rect.width) ic.swRow ic.neRow row := by
      unfold part; rw [hy]; by_cases h : row < ic.neRow <;> simp [h]
    simp only [hlen]
    congr 1
    · exact fillColumns_eq d ic area _ row _ _ _ le_rfl (by omega) (by simp)
    by_cases hc : row < ic.neRow
    · refine ih _ _ (by omega) (by omega) ?_
      rw [if_neg (by omega), hy]; unfold part; rw [if_pos hc]; ring
    · have : n = 0 := by omega
      subst this; rfl

/-- The parts add up to the whole extent. -/
theorem sum_part_aux (loc : Nat → K) (lo hi : K) (sw ne : Nat) : ∀ (n c : Nat), sw ≤ c → c + n = ne →
    ((List.range' c (n + 1)).map (part loc lo hi sw ne)).sum = hi - (if c = sw then lo else loc c) := by
  intro n
  induction n with
  | zero => intro c h1 h2; simp [part, show ¬ c < ne by omega]
  | succ n ih =>
    intro c h1 h2
    rw [List.range'_succ, List.map_cons, List.sum_cons, ih (c + 1) (by omega) (by omega)]
    rw [if_neg (show ¬ c + 1 = sw by omega)]
    unfold part
    rw [if_pos (show c < ne by omega)]; ring

theorem sum_part (loc : Nat → K) (lo hi : K) {sw ne : Nat} (h : sw ≤ ne) :
    ((List.range' sw (ne + 1 - sw)).map (part loc lo hi sw ne)).sum = hi - lo := by
  have := sum_part_aux loc lo hi sw ne (ne - sw) sw le_rfl (by omega)
  rw [show ne - sw + 1 = ne + 1 - sw by omega] at this
  rw [this]; simp

theorem sum_flatMap_map {α β : Type} (L : List α) (M : List β) (f : α → K) (g : β → K) (area : K) :
    ((L.flatMap fun r => M.map fun c => g c * f r / area)).sum = (M.map g).sum * (L.map f).sum / area := by
  induction L with
  | nil => simp
  | cons r L ih =>
    have h1 : (M.map fun c => g c * f r / area).sum = (M.map g).sum * f r / area := by
      clear ih
      induction M with
      | nil => simp
      | cons c M ih2 => simp only [List.map_cons, List.sum_cons, ih2]; ring
    rw [List.flatMap_cons, List.sum_append, ih, List.map_cons, List.sum_cons, h1]
    ring

/-- The coefficients of one rectangle add up to its part of the area. -/
theorem fillRows_sum (d : Dims K) (ic : ICEl K) (area : K) (hc : ic.swCol ≤ ic.neCol) (hr : ic.swRow ≤ ic.neRow) :
    ((fillRows d ic area (ic.neRow + 1 - ic.swRow) ic.swRow ic.rect.y).map (·.2)).sum = ic.rect.length * ic.rect.width / area := by
  rw [fillRows_eq d ic area hc _ _ _ le_rfl (by omega) (by simp), List.map_flatMap]
  simp only [List.map_map, Function.comp_def]
  rw [sum_flatMap_map, sum_part _ _ _ hc, sum_part _ _ _ hr]
  ring

/-! ### Overlaps -/

/-- Length of the intersection of the intervals `[a, b]` and `[c, d]`. -/
def common (a b c d : K) : K := max 0 (min b d - max a c)

/-- The grid along one axis: `n` cells starting at `loc c` and ending at `fin c`. -/
structure Axis (loc fin : Nat → K) (n : Nat) : Prop where
  n1 : 1 ≤ n
  zero : loc 0 = 0
  next : ∀ c, c + 1 < n → fin c = loc (c + 1)
  pos : ∀ c, c < n → loc c < fin c
  last : fin (n - 1) ≤ loc n

theorem Axis.mono {loc fin : Nat → K} {n : Nat} (h : Axis loc fin n) {i j : Nat} (hij : i ≤ j) (hj : j ≤ n) : loc i ≤ loc j := by
  induction j with
  | zero => rw [show i = 0 by omega]
  | succ j ih =>
    rcases Nat.lt_or_ge i (j + 1) with h1 | h1
    · have a := ih (by omega) (by omega)
      have b := h.pos j (by omega)
      rcases Nat.lt_or_ge (j + 1) n with h2 | h2
      · rw [← h.next j h2]; exact a.trans b.le
      · have e : j = n - 1 := by omega
        have := h.last
        rw [← e] at this
        rw [show j + 1 = n by omega]
        exact a.trans (b.le.trans this)
    · rw [show i = j + 1 by omega]

theorem Axis.fin_le {loc fin : Nat → K} {n : Nat} (h : Axis loc fin n) {c : Nat} (hc : c < n) : fin c ≤ loc (c + 1) := by
  rcases Nat.lt_or_ge (c + 1) n with h2 | h2
  · exact (h.next c h2).le
  · have e : c = n - 1 := by omega
    rw [e, Nat.sub_add_cancel h.n1]; exact h.last

/-- The cells found for an interval inside the grid: exactly those with a positive intersection, and the parts are the lengths of
the intersections. -/
theorem axis_spec {loc fin : Nat → K} {n : Nat} (h : Axis loc fin n) (hW : n < W) {lo hi : K} (h0 : 0 ≤ lo) (hlt : lo < hi)
    (hn : hi ≤ fin (n - 1)) :
    ∃ sw ne, alignAxis loc lo hi = some (sw, ne) ∧ sw ≤ ne ∧ ne < n ∧
      (∀ c, c < n → (sw ≤ c ∧ c ≤ ne ↔ 0 < common lo hi (loc c) (fin c))) ∧
      (∀ c, sw ≤ c → c ≤ ne → part loc lo hi sw ne c = common lo hi (loc c) (fin c)) := by
  obtain ⟨sw, ne, e, a1, a2, b1, b2, b3, b4⟩ := alignAxis_spec hW (by rw [h.zero]; exact h0) hlt (hn.trans h.last)
  have key : ∀ c, sw ≤ c → c ≤ ne → part loc lo hi sw ne c = min hi (fin c) - max lo (loc c) ∧ 0 < part loc lo hi sw ne c := by
    intro c c1 c2
    have e1 : (if c < ne then loc (c + 1) else hi) = min hi (fin c) := by
      by_cases hc : c < ne
      · rw [if_pos hc, h.next c (by omega), min_eq_right]
        exact (h.mono (show c + 1 ≤ ne by omega) (by omega)).trans b3.le
      · rw [if_neg hc, min_eq_left]
        have hcn : c = ne := by omega
        rw [hcn]
        rcases Nat.lt_or_ge (ne + 1) n with h2 | h2
        · rw [h.next ne h2]; exact b4
        · rw [show ne = n - 1 by omega]; exact hn
    have e2 : (if c = sw then lo else loc c) = max lo (loc c) := by
      by_cases hc : c = sw
      · rw [if_pos hc, hc, max_eq_left b1]
      · rw [if_neg hc, max_eq_right]
        exact b2.le.trans (h.mono (show sw + 1 ≤ c by omega) (by omega))
    have e3 : part loc lo hi sw ne c = min hi (fin c) - max lo (loc c) := by unfold part; rw [e1, e2]
    refine ⟨e3, ?_⟩
    rw [e3, sub_pos, lt_min_iff, max_lt_iff, max_lt_iff]
    refine ⟨⟨hlt, lt_of_le_of_lt (h.mono c2 (by omega)) b3⟩, ?_, h.pos c (by omega)⟩
    by_cases hc : c + 1 < n
    · rw [h.next c hc]; exact lt_of_lt_of_le b2 (h.mono (by omega) (by omega))
    · rw [show c = n - 1 by omega]; exact lt_of_lt_of_le hlt hn
  refine ⟨sw, ne, e, a1, a2, ?_, ?_⟩
  · intro c hc
    constructor
    · rintro ⟨c1, c2⟩
      obtain ⟨k1, k2⟩ := key c c1 c2
      unfold common; rw [← k1]; exact lt_max_of_lt_right k2
    · intro hp
      unfold common at hp
      rw [lt_max_iff] at hp
      rcases hp with hp | hp
      · exact absurd hp (lt_irrefl _)
      · rw [sub_pos, lt_min_iff, max_lt_iff, max_lt_iff] at hp
        obtain ⟨⟨-, p1⟩, p2, -⟩ := hp
        constructor
        · by_contra hx
          have : fin c ≤ loc sw := (h.fin_le hc).trans (h.mono (by omega) (by omega))
          exact absurd (lt_of_lt_of_le p2 (this.trans b1)) (lt_irrefl _)
        · by_contra hx
          have : loc (ne + 1) ≤ loc c := h.mono (by omega) (by omega)
          exact absurd (lt_of_lt_of_le p1 (b4.trans this)) (lt_irrefl _)
  · intro c c1 c2
    obtain ⟨k1, k2⟩ := key c c1 c2
    unfold common
    rw [← k1, max_eq_right k2.le]

end Verif.Flp
