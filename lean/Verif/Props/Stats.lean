import Verif.Props.Floorplan

set_option linter.unusedSectionVars false
set_option linter.unusedSimpArgs false
set_option linter.unusedVariables false

/-! # C30: temperature statistics of a floorplan element

Specification: the cells of an element are the cells of the grid whose area is partly covered by one of the rectangles the user
wrote; the temperature of cell `(r, c)` is the value at position `r * columns + c` of the temperatures of the layer. -/

namespace Verif.Flp
open Verif.Dim Verif.TG

variable {K : Type} [Field K] [LinearOrder K] [IsStrictOrderedRing K]

/-- The cells of the grid partly covered by a rectangle. -/
def rectCells (d : Dims K) (e : Rect K) : Finset (Nat × Nat) :=
  (Finset.range d.nRows ×ˢ Finset.range d.nCols).filter fun p => 0 < overlapArea d e p.1 p.2

/-- Cell `(r, c)` of the grid is partly covered by one of the rectangles of the element. -/
def CellOf (d : Dims K) (raw : RawEl K) (r c : Nat) : Prop := ∃ e ∈ raw.rects, (r, c) ∈ rectCells d e

/-- Temperature of a cell of the layer. -/
def cellTemp (d : Dims K) (temps : List K) (r c : Nat) : K := temps.getD (r * d.nCols + c) 0

/-- Mean temperature of a set of cells. -/
def mean (d : Dims K) (temps : List K) (s : Finset (Nat × Nat)) : K := (∑ p ∈ s, cellTemp d temps p.1 p.2) / (s.card : K)

/-! ### Folds -/

theorem foldl_max_spec {α : Type} (f : α → K) (L : List α) (m : K) :
    m ≤ L.foldl (fun m p => max m (f p)) m ∧ (∀ p ∈ L, f p ≤ L.foldl (fun m p => max m (f p)) m) ∧
      (L.foldl (fun m p => max m (f p)) m = m ∨ ∃ p ∈ L, L.foldl (fun m p => max m (f p)) m = f p) := by
  induction L generalizing m with
  | nil => simp
  | cons a L ih =>
    obtain ⟨h1, h2, h3⟩ := ih (max m (f a))
    rw [List.foldl_cons]
    refine ⟨le_trans (le_max_left _ _) h1, ?_, ?_⟩
    · intro p hp
      rcases List.mem_cons.mp hp with rfl | hp
      · exact le_trans (le_max_right _ _) h1
      · exact h2 p hp
    · rcases h3 with h3 | ⟨p, hp, h3⟩
      · rw [h3]
        rcases max_choice m (f a) with h | h
        · exact .inl h
        · exact .inr ⟨a, by simp, h⟩
      · exact .inr ⟨p, by simp [hp], h3⟩

theorem foldl_min_spec {α : Type} (f : α → K) (L : List α) (m : K) :
    L.foldl (fun m p => min m (f p)) m ≤ m ∧ (∀ p ∈ L, L.foldl (fun m p => min m (f p)) m ≤ f p) ∧
      (L.foldl (fun m p => min m (f p)) m = m ∨ ∃ p ∈ L, L.foldl (fun m p => min m (f p)) m = f p) := by
  induction L generalizing m with
  | nil => simp
  | cons a L ih =>
    obtain ⟨h1, h2, h3⟩ := ih (min m (f a))
    rw [List.foldl_cons]
    refine ⟨le_trans h1 (min_le_left _ _), ?_, ?_⟩
    · intro p hp
      rcases List.mem_cons.mp hp with rfl | hp
      · exact le_trans h1 (min_le_right _ _)
      · exact h2 p hp
    · rcases h3 with h3 | ⟨p, hp, h3⟩
      · rw [h3]
        rcases min_choice m (f a) with h | h
        · exact .inl h
        · exact .inr ⟨a, by simp, h⟩
      · exact .inr ⟨p, by simp [hp], h3⟩

theorem foldl_add_sum {α : Type} (f : α → K) (L : List α) (s : K) : L.foldl (fun s p => s + f p) s = s + (L.map f).sum := by
  induction L generalizing s with
  | nil => simp
  | cons a L ih => rw [List.foldl_cons, ih, List.map_cons, List.sum_cons]; ring

theorem maxEl_fold (d : Dims K) (temps : List K) (L : List (ICEl K)) (m : K) :
    L.foldl (fun m i => if maxIC d temps i > m then maxIC d temps i else m) m = L.foldl (fun m i => max m (maxIC d temps i)) m := by
  congr 1; funext m i
  split
  · rename_i h; exact (max_eq_right h.le).symm
  · rename_i h; exact (max_eq_left (not_lt.mp h)).symm

theorem minEl_fold (d : Dims K) (temps : List K) (L : List (ICEl K)) (m : K) :
    L.foldl (fun m i => if minIC d temps i < m then minIC d temps i else m) m = L.foldl (fun m i => min m (minIC d temps i)) m := by
  congr 1; funext m i
  split
  · rename_i h; exact (min_eq_right h.le).symm
  · rename_i h; exact (min_eq_left (not_lt.mp h)).symm

/-! ### One rectangle -/

theorem mem_icCells {ic : ICEl K} {r c : Nat} (hr : ic.swRow ≤ ic.neRow) (hc : ic.swCol ≤ ic.neCol) :
    (r, c) ∈ icCells ic ↔ (ic.swRow ≤ r ∧ r ≤ ic.neRow) ∧ ic.swCol ≤ c ∧ c ≤ ic.neCol := by
  unfold icCells
  simp only [List.mem_flatMap, List.mem_map, List.mem_range'_1, Prod.mk.injEq]
  constructor
  · rintro ⟨a, h1, b, h2, rfl, rfl⟩; omega
  · intro h; exact ⟨r, by omega, c, by omega, rfl, rfl⟩

theorem icCells_nodup (ic : ICEl K) : (icCells ic).Nodup := by
  unfold icCells
  rw [List.nodup_flatMap]
  refine ⟨fun r _ => List.Nodup.map (fun a b h => (Prod.mk.inj h).2) List.nodup_range', ?_⟩
  refine List.Pairwise.imp (R := fun a b => a ≠ b) ?_ (List.nodup_range' (s := ic.swRow) (n := ic.neRow + 1 - ic.swRow))
  intro a b hab p h1 h2
  obtain ⟨x, -, rfl⟩ := List.mem_map.mp h1
  obtain ⟨y, -, h⟩ := List.mem_map.mp h2
  exact hab (Prod.mk.inj h).1.symm

/-- The cells visited for an aligned rectangle are its cells. -/
theorem icCells_spec {d : Dims K} (h : GoodGrid d) {e : Rect K} (he : InGrid d e) {ic : ICEl K} (ha : alignToGrid d e = some ic) :
    (icCells ic).toFinset = rectCells d e ∧ (ic.swRow, ic.swCol) ∈ icCells ic := by
  obtain ⟨ic', h1, -, ⟨x1, x2, -, -⟩, y1, y2, -, -⟩ := align_spec h he
  obtain ⟨ic'', h1', -, -, -, h2⟩ := C27_cells_are_those_overlapped_partial h he
  have e1 : ic' = ic := by rw [ha] at h1; exact (Option.some.inj h1).symm
  have e2 : ic'' = ic := by rw [ha] at h1'; exact (Option.some.inj h1').symm
  subst e1; subst e2
  constructor
  · ext ⟨r, c⟩
    rw [List.mem_toFinset, mem_icCells y1 x1]
    unfold rectCells
    simp only [Finset.mem_filter, Finset.mem_product, Finset.mem_range]
    constructor
    · rintro ⟨⟨a, b⟩, a', b'⟩
      exact ⟨⟨by omega, by omega⟩, (h2 r c (by omega) (by omega)).mp ⟨a, b, a', b'⟩⟩
    · rintro ⟨⟨a, b⟩, q⟩
      obtain ⟨q1, q2, q3, q4⟩ := (h2 r c a b).mpr q
      exact ⟨⟨q1, q2⟩, q3, q4⟩
  · rw [mem_icCells y1 x1]; omega

theorem tempAt_cell {d : Dims K} (hW : d.nRows * d.nCols < W) (temps : List K) {e : Rect K} {p : Nat × Nat} (hp : p ∈ rectCells d e) :
    tempAt d temps p.1 p.2 = cellTemp d temps p.1 p.2 := by
  unfold rectCells at hp
  simp only [Finset.mem_filter, Finset.mem_product, Finset.mem_range] at hp
  unfold tempAt cellTemp
  rw [(offInLayer_eq hW hp.1.1 hp.1.2).1]

/-- Maximum of one rectangle. -/
theorem maxIC_spec {d : Dims K} (h : GoodGrid d) (hW : d.nRows * d.nCols < W) {e : Rect K} (he : InGrid d e) {ic : ICEl K}
    (ha : alignToGrid d e = some ic) (temps : List K) :
    (∃ p ∈ rectCells d e, cellTemp d temps p.1 p.2 = maxIC d temps ic) ∧ ∀ p ∈ rectCells d e, cellTemp d temps p.1 p.2 ≤ maxIC d temps ic := by
  obtain ⟨h1, h2⟩ := icCells_spec h he ha
  have hm : ∀ p, p ∈ icCells ic ↔ p ∈ rectCells d e := fun p => by rw [← h1, List.mem_toFinset]
  obtain ⟨a1, a2, a3⟩ := foldl_max_spec (fun p : Nat × Nat => tempAt d temps p.1 p.2) (icCells ic) (tempAt d temps ic.swRow ic.swCol)
  constructor
  · rcases a3 with a3 | ⟨p, hp, a3⟩
    · refine ⟨_, (hm _).mp h2, ?_⟩
      rw [← tempAt_cell hW temps ((hm _).mp h2)]; exact a3.symm
    · refine ⟨p, (hm _).mp hp, ?_⟩
      rw [← tempAt_cell hW temps ((hm _).mp hp)]; exact a3.symm
  · intro p hp
    rw [← tempAt_cell hW temps hp]
    exact a2 p ((hm p).mpr hp)

/-- Minimum of one rectangle. -/
theorem minIC_spec {d : Dims K} (h : GoodGrid d) (hW : d.nRows * d.nCols < W) {e : Rect K} (he : InGrid d e) {ic : ICEl K}
    (ha : alignToGrid d e = some ic) (temps : List K) :
    (∃ p ∈ rectCells d e, cellTemp d temps p.1 p.2 = minIC d temps ic) ∧ ∀ p ∈ rectCells d e, minIC d temps ic ≤ cellTemp d temps p.1 p.2 := by
  obtain ⟨h1, h2⟩ := icCells_spec h he ha
  have hm : ∀ p, p ∈ icCells ic ↔ p ∈ rectCells d e := fun p => by rw [← h1, List.mem_toFinset]
  obtain ⟨a1, a2, a3⟩ := foldl_min_spec (fun p : Nat × Nat => tempAt d temps p.1 p.2) (icCells ic) (tempAt d temps ic.swRow ic.swCol)
  constructor
  · rcases a3 with a3 | ⟨p, hp, a3⟩
    · refine ⟨_, (hm _).mp h2, ?_⟩
      rw [← tempAt_cell hW temps ((hm _).mp h2)]; exact a3.symm
    · refine ⟨p, (hm _).mp hp, ?_⟩
      rw [← tempAt_cell hW temps ((hm _).mp hp)]; exact a3.symm
  · intro p hp
    rw [← tempAt_cell hW temps hp]
    exact a2 p ((hm p).mpr hp)

/-- Average of one rectangle. -/
theorem avgIC_spec {d : Dims K} (h : GoodGrid d) (hW : d.nRows * d.nCols < W) {e : Rect K} (he : InGrid d e) {ic : ICEl K}
    (ha : alignToGrid d e = some ic) (temps : List K) : avgIC d temps ic = mean d temps (rectCells d e) := by
  obtain ⟨h1, h2⟩ := icCells_spec h he ha
  have hm : ∀ p, p ∈ icCells ic ↔ p ∈ rectCells d e := fun p => by rw [← h1, List.mem_toFinset]
  unfold avgIC mean
  rw [foldl_add_sum (fun p : Nat × Nat => tempAt d temps p.1 p.2), zero_add]
  congr 1
  · rw [← h1, List.sum_toFinset _ (icCells_nodup ic)]
    congr 1
    refine List.map_congr_left fun p hp => ?_
    exact tempAt_cell hW temps ((hm p).mp hp)
  · rw [← h1, List.toFinset_card_of_nodup (icCells_nodup ic)]

theorem rectCells_nonempty {d : Dims K} (h : GoodGrid d) {e : Rect K} (he : InGrid d e) : (rectCells d e).Nonempty := by
  obtain ⟨ic, h1, -⟩ := align_spec h he
  obtain ⟨a, b⟩ := icCells_spec h he h1
  exact ⟨_, by rw [← a, List.mem_toFinset]; exact b⟩

theorem mean_le {d : Dims K} {temps : List K} {s : Finset (Nat × Nat)} (hs : s.Nonempty) {m : K} (h : ∀ p ∈ s, cellTemp d temps p.1 p.2 ≤ m) :
    mean d temps s ≤ m := by
  have hc : (0 : K) < s.card := by exact_mod_cast hs.card_pos
  unfold mean
  rw [div_le_iff₀ hc]
  calc _ ≤ ∑ _p ∈ s, m := Finset.sum_le_sum h
    _ = m * s.card := by rw [Finset.sum_const, nsmul_eq_mul, mul_comm]

theorem le_mean {d : Dims K} {temps : List K} {s : Finset (Nat × Nat)} (hs : s.Nonempty) {m : K} (h : ∀ p ∈ s, m ≤ cellTemp d temps p.1 p.2) :
    m ≤ mean d temps s := by
  have hc : (0 : K) < s.card := by exact_mod_cast hs.card_pos
  unfold mean
  rw [le_div_iff₀ hc]
  calc _ = ∑ _p ∈ s, m := by rw [Finset.sum_const, nsmul_eq_mul, mul_comm]
    _ ≤ _ := Finset.sum_le_sum h

/-! ### Elements -/

theorem forall₂_mem {α β : Type} {R : α → β → Prop} {L : List α} {M : List β} (h : List.Forall₂ R L M) {b : β} (hb : b ∈ M) :
    ∃ a ∈ L, R a b := by
  induction h with
  | nil => simp at hb
  | cons hx _ ih =>
    rcases List.mem_cons.mp hb with rfl | hb
    · exact ⟨_, by simp, hx⟩
    · obtain ⟨a, h1, h2⟩ := ih hb; exact ⟨a, by simp [h1], h2⟩

theorem forall₂_mem' {α β : Type} {R : α → β → Prop} {L : List α} {M : List β} (h : List.Forall₂ R L M) {a : α} (ha : a ∈ L) :
    ∃ b ∈ M, R a b := by
  induction h with
  | nil => simp at ha
  | cons hx _ ih =>
    rcases List.mem_cons.mp ha with rfl | ha
    · exact ⟨_, by simp, hx⟩
    · obtain ⟨b, h1, h2⟩ := ih ha; exact ⟨b, by simp [h1], h2⟩

/-- What `From` says about the IC elements. -/
theorem from_el {d : Dims K} {raw : RawEl K} {el : FlpEl K} (hp : From d raw el) :
    raw.rects ≠ [] ∧ List.Forall₂ (fun e ic => alignToGrid d e = some ic) raw.rects el.ics := by
  obtain ⟨el0, h0, h1, -⟩ := hp
  obtain ⟨a, b, -⟩ := parse_el h0
  exact ⟨a, by rw [h1]; exact b⟩

/-- **C30** The reported maximum is the temperature of a cell of the element, and no cell of the element is hotter. -/
theorem C30_maximum {d : Dims K} (h : GoodGrid d) (hW : d.nRows * d.nCols < W) {raw : RawEl K} {el : FlpEl K} (hp : From d raw el)
    (hin : ∀ e ∈ raw.rects, InGrid d e) (temps : List K) :
    (∃ r c, CellOf d raw r c ∧ cellTemp d temps r c = maxEl d temps el) ∧
      ∀ r c, CellOf d raw r c → cellTemp d temps r c ≤ maxEl d temps el := by
  obtain ⟨hne, hf⟩ := from_el hp
  unfold maxEl
  cases hi : el.ics with
  | nil => rw [hi, List.forall₂_nil_right_iff] at hf; exact absurd hf hne
  | cons ic ics =>
    simp only
    rw [maxEl_fold]
    obtain ⟨a1, a2, a3⟩ := foldl_max_spec (maxIC d temps) ics (maxIC d temps ic)
    have hall : ∀ i ∈ el.ics, maxIC d temps i ≤ ics.foldl (fun m i => max m (maxIC d temps i)) (maxIC d temps ic) := by
      intro i hi'
      rw [hi] at hi'
      rcases List.mem_cons.mp hi' with rfl | hi'
      · exact a1
      · exact a2 i hi'
    have hatt : ∃ i ∈ el.ics, maxIC d temps i = ics.foldl (fun m i => max m (maxIC d temps i)) (maxIC d temps ic) := by
      rcases a3 with a3 | ⟨i, hi', a3⟩
      · exact ⟨ic, by rw [hi]; simp, a3.symm⟩
      · exact ⟨i, by rw [hi]; simp [hi'], a3.symm⟩
    constructor
    · obtain ⟨i, hi', e1⟩ := hatt
      obtain ⟨e, he, ha⟩ := forall₂_mem hf hi'
      obtain ⟨⟨p, hp1, hp2⟩, -⟩ := maxIC_spec h hW (hin e he) ha temps
      exact ⟨p.1, p.2, ⟨e, he, hp1⟩, by rw [hp2]; exact e1⟩
    · rintro r c ⟨e, he, hc⟩
      obtain ⟨i, hi', ha⟩ := forall₂_mem' hf he
      exact le_trans ((maxIC_spec h hW (hin e he) ha temps).2 (r, c) hc) (hall i hi')

/-- **C30** The reported minimum is the temperature of a cell of the element, and no cell of the element is colder. -/
theorem C30_minimum {d : Dims K} (h : GoodGrid d) (hW : d.nRows * d.nCols < W) {raw : RawEl K} {el : FlpEl K} (hp : From d raw el)
    (hin : ∀ e ∈ raw.rects, InGrid d e) (temps : List K) :
    (∃ r c, CellOf d raw r c ∧ cellTemp d temps r c = minEl d temps el) ∧
      ∀ r c, CellOf d raw r c → minEl d temps el ≤ cellTemp d temps r c := by
  obtain ⟨hne, hf⟩ := from_el hp
  unfold minEl
  cases hi : el.ics with
  | nil => rw [hi, List.forall₂_nil_right_iff] at hf; exact absurd hf hne
  | cons ic ics =>
    simp only
    rw [minEl_fold]
    obtain ⟨a1, a2, a3⟩ := foldl_min_spec (minIC d temps) ics (minIC d temps ic)
    have hall : ∀ i ∈ el.ics, ics.foldl (fun m i => min m (minIC d temps i)) (minIC d temps ic) ≤ minIC d temps i := by
      intro i hi'
      rw [hi] at hi'
      rcases List.mem_cons.mp hi' with rfl | hi'
      · exact a1
      · exact a2 i hi'
    have hatt : ∃ i ∈ el.ics, minIC d temps i = ics.foldl (fun m i => min m (minIC d temps i)) (minIC d temps ic) := by
      rcases a3 with a3 | ⟨i, hi', a3⟩
      · exact ⟨ic, by rw [hi]; simp, a3.symm⟩
      · exact ⟨i, by rw [hi]; simp [hi'], a3.symm⟩
    constructor
    · obtain ⟨i, hi', e1⟩ := hatt
      obtain ⟨e, he, ha⟩ := forall₂_mem hf hi'
      obtain ⟨⟨p, hp1, hp2⟩, -⟩ := minIC_spec h hW (hin e he) ha temps
      exact ⟨p.1, p.2, ⟨e, he, hp1⟩, by rw [hp2]; exact e1⟩
    · rintro r c ⟨e, he, hc⟩
      obtain ⟨i, hi', ha⟩ := forall₂_mem' hf he
      exact le_trans (hall i hi') ((minIC_spec h hW (hin e he) ha temps).2 (r, c) hc)

/-- **C30** The gradient is the difference of the two, and is not negative. -/
theorem C30_gradient {d : Dims K} (h : GoodGrid d) (hW : d.nRows * d.nCols < W) {raw : RawEl K} {el : FlpEl K} (hp : From d raw el)
    (hin : ∀ e ∈ raw.rects, InGrid d e) (temps : List K) :
    gradientEl d temps el = maxEl d temps el - minEl d temps el ∧ 0 ≤ gradientEl d temps el := by
  have e1 : gradientEl d temps el = maxEl d temps el - minEl d temps el := by
    unfold gradientEl maxEl minEl
    cases el.ics with
    | nil => simp
    | cons ic ics => simp only; rw [maxEl_fold, minEl_fold]
  refine ⟨e1, ?_⟩
  obtain ⟨⟨r, c, h1, h2⟩, -⟩ := C30_maximum h hW hp hin temps
  have := (C30_minimum h hW hp hin temps).2 r c h1
  rw [e1]; linarith

/-- The average of an element is the mean of the means of its rectangles. -/
theorem avgEl_eq {d : Dims K} (h : GoodGrid d) (hW : d.nRows * d.nCols < W) {raw : RawEl K} {el : FlpEl K} (hp : From d raw el)
    (hin : ∀ e ∈ raw.rects, InGrid d e) (temps : List K) :
    avgEl d temps el = (raw.rects.map fun e => mean d temps (rectCells d e)).sum / (raw.rects.length : K) := by
  obtain ⟨-, hf⟩ := from_el hp
  unfold avgEl
  rw [foldl_add_sum (avgIC d temps), zero_add, ← hf.length_eq]
  congr 2
  clear hp
  generalize raw.rects = L at hf hin
  generalize el.ics = M at hf
  induction hf with
  | nil => rfl
  | cons hx _ ih =>
    rw [List.map_cons, List.map_cons, ih (fun e he => hin e (by simp [he])), avgIC_spec h hW (hin _ (by simp)) hx]

/-- **C30** The average is between the minimum and the maximum. -/
theorem C30_average_between {d : Dims K} (h : GoodGrid d) (hW : d.nRows * d.nCols < W) {raw : RawEl K} {el : FlpEl K} (hp : From d raw el)
    (hin : ∀ e ∈ raw.rects, InGrid d e) (temps : List K) :
    minEl d temps el ≤ avgEl d temps el ∧ avgEl d temps el ≤ maxEl d temps el := by
  have hmax := (C30_maximum h hW hp hin temps).2
  have hmin := (C30_minimum h hW hp hin temps).2
  rw [avgEl_eq h hW hp hin]
  have hl : (0 : K) < raw.rects.length := by
    exact_mod_cast List.length_pos_of_ne_nil (from_el hp).1
  have up : ∀ (L : List (Rect K)) (m : K), (∀ e ∈ L, mean d temps (rectCells d e) ≤ m) →
      (L.map fun e => mean d temps (rectCells d e)).sum ≤ m * (L.length : K) := by
    intro L m hm
    induction L with
    | nil => simp
    | cons e L ih =>
      rw [List.map_cons, List.sum_cons, List.length_cons]; push_cast
      have := hm e (by simp)
      have := ih fun e he => hm e (by simp [he])
      linarith
  have lo : ∀ (L : List (Rect K)) (m : K), (∀ e ∈ L, m ≤ mean d temps (rectCells d e)) →
      m * (L.length : K) ≤ (L.map fun e => mean d temps (rectCells d e)).sum := by
    intro L m hm
    induction L with
    | nil => simp
    | cons e L ih =>
      rw [List.map_cons, List.sum_cons, List.length_cons]; push_cast
      have := hm e (by simp)
      have := ih fun e he => hm e (by simp [he])
      linarith
  constructor
  · rw [le_div_iff₀ hl]
    exact lo _ _ fun e he => le_mean (rectCells_nonempty h (hin e he)) fun p hp' => hmin p.1 p.2 ⟨e, he, hp'⟩
  · rw [div_le_iff₀ hl]
    exact up _ _ fun e he => mean_le (rectCells_nonempty h (hin e he)) fun p hp' => hmax p.1 p.2 ⟨e, he, hp'⟩

/-- **C30 (partial)** The average of an element made of one rectangle is the mean over its cells. Missing: elements with several
rectangles, for which it is the mean of the means of the rectangles (`avgEl_eq`, `C30_average_violated`). -/
theorem C30_average_partial {d : Dims K} (h : GoodGrid d) (hW : d.nRows * d.nCols < W) {raw : RawEl K} {el : FlpEl K} (hp : From d raw el)
    (hin : ∀ e ∈ raw.rects, InGrid d e) (temps : List K) {e : Rect K} (he : raw.rects = [e]) :
    avgEl d temps el = mean d temps (rectCells d e) := by
  rw [avgEl_eq h hW hp hin, he]; simp

/-- The same for several rectangles that have the same number of cells and share none. -/
theorem C30_average_same_size_partial {d : Dims K} (h : GoodGrid d) (hW : d.nRows * d.nCols < W) {raw : RawEl K} {el : FlpEl K}
    (hp : From d raw el) (hin : ∀ e ∈ raw.rects, InGrid d e) (temps : List K) (n : Nat)
    (hn : ∀ e ∈ raw.rects, (rectCells d e).card = n) (hd : raw.rects.Pairwise fun a b => Disjoint (rectCells d a) (rectCells d b)) :
    ∃ s : Finset (Nat × Nat), (∀ r c, (r, c) ∈ s ↔ CellOf d raw r c) ∧ avgEl d temps el = mean d temps s := by
  rw [avgEl_eq h hW hp hin]
  have hne := (from_el hp).1
  have hpos : 0 < n := by
    obtain ⟨e, L, hL⟩ := List.exists_cons_of_ne_nil hne
    have he : e ∈ raw.rects := by rw [hL]; simp
    rw [← hn e he]; exact (rectCells_nonempty h (hin e he)).card_pos
  have key : ∀ L : List (Rect K), (∀ e ∈ L, (rectCells d e).card = n) → L.Pairwise (fun a b => Disjoint (rectCells d a) (rectCells d b)) →
      ∃ s : Finset (Nat × Nat), (∀ p, p ∈ s ↔ ∃ e ∈ L, p ∈ rectCells d e) ∧ s.card = n * L.length ∧
        ∑ p ∈ s, cellTemp d temps p.1 p.2 = (L.map fun e => ∑ p ∈ rectCells d e, cellTemp d temps p.1 p.2).sum := by
    intro L h1 h2
    induction L with
    | nil => exact ⟨∅, by simp, by simp, by simp⟩
    | cons e L ih =>
      obtain ⟨h3, h4⟩ := List.pairwise_cons.mp h2
      obtain ⟨s, a, b, c⟩ := ih (fun e he => h1 e (by simp [he])) h4
      have hdis : Disjoint (rectCells d e) s := by
        rw [Finset.disjoint_left]
        intro p p1 p2
        obtain ⟨e', he', p3⟩ := (a p).mp p2
        exact Finset.disjoint_left.mp (h3 e' he') p1 p3
      refine ⟨rectCells d e ∪ s, ?_, ?_, ?_⟩
      · intro p; rw [Finset.mem_union, a]; simp
      · rw [Finset.card_union_of_disjoint hdis, b, h1 e (by simp), List.length_cons]; ring
      · rw [Finset.sum_union hdis, c, List.map_cons, List.sum_cons]
  obtain ⟨s, a, b, c⟩ := key raw.rects hn hd
  refine ⟨s, fun r c => a (r, c), ?_⟩
  unfold mean
  rw [c, b]
  have hn' : (n : K) ≠ 0 := by exact_mod_cast hpos.ne'
  have : (raw.rects.map fun e => (∑ p ∈ rectCells d e, cellTemp d temps p.1 p.2) / ((rectCells d e).card : K)) =
      raw.rects.map fun e => (∑ p ∈ rectCells d e, cellTemp d temps p.1 p.2) / (n : K) :=
    List.map_congr_left fun e he => by rw [hn e he]
  rw [this]
  push_cast
  rw [← div_div]
  congr 1
  induction raw.rects with
  | nil => simp
  | cons e L ih => rw [List.map_cons, List.sum_cons, List.map_cons, List.sum_cons, ih, add_div]

/-! ### Non-vacuity and violation -/

theorem ok_el1 : ∃ el, parseElement okDims okRaw1 = some el :=
  parse_total okGrid (raw := okRaw1) (by simp [okRaw1]) (okIn _ (by simp)) (okLoc _ (by simp))
theorem ok_el2 : ∃ el, parseElement okDims okRaw2 = some el :=
  parse_total okGrid (raw := okRaw2) (by simp [okRaw2]) (okIn _ (by simp)) (okLoc _ (by simp))

theorem ok_cells_a : rectCells okDims ⟨0, 0, 35, 10⟩ = {(0, 0), (0, 1), (0, 2)} := by decide +kernel
theorem ok_cells_b : rectCells okDims ⟨0, 10, 5, 10⟩ = {(1, 0)} := by decide +kernel
theorem ok_cells_c : rectCells okDims ⟨35, 0, 35, 20⟩ = {(0, 2), (0, 3), (0, 4), (1, 2), (1, 3), (1, 4)} := by decide +kernel

/-- Row 0 then row 1. -/
def okTemps : List ℚ := [300, 301, 302, 303, 304, 400, 311, 312, 313, 314]

/-- Non-vacuity: the L-shaped element of the example has its maximum, 400, in cell (1, 0) and its minimum, 300, in cell (0, 0). -/
example : ∃ el, parseElement okDims okRaw1 = some el ∧ maxEl okDims okTemps el = 400 ∧ minEl okDims okTemps el = 300 ∧
    gradientEl okDims okTemps el = 100 := by
  obtain ⟨el, hel⟩ := ok_el1
  have hf : From okDims okRaw1 el := ⟨el, hel, rfl, rfl⟩
  have hW : okDims.nRows * okDims.nCols < W := by simp [okDims, exDims, W]
  have hc : ∀ r c, CellOf okDims okRaw1 r c ↔ (r, c) = (0, 0) ∨ (r, c) = (0, 1) ∨ (r, c) = (0, 2) ∨ (r, c) = (1, 0) := by
    intro r c
    unfold CellOf okRaw1
    simp only [List.mem_cons, List.not_mem_nil, or_false, exists_eq_or_imp, exists_eq_left, ok_cells_a, ok_cells_b, Finset.mem_insert,
      Finset.mem_singleton, or_assoc]
  have t : ∀ r c v, cellTemp okDims okTemps r c = v ↔ okTemps.getD (r * 5 + c) 0 = v := fun _ _ _ => Iff.rfl
  obtain ⟨⟨r, c, a1, a2⟩, a3⟩ := C30_maximum okGrid hW hf (okIn _ (by simp)) okTemps
  obtain ⟨⟨r', c', b1, b2⟩, b3⟩ := C30_minimum okGrid hW hf (okIn _ (by simp)) okTemps
  have hmax : maxEl okDims okTemps el = 400 := by
    have := a3 1 0 ((hc 1 0).mpr (by simp))
    rw [(t 1 0 400).mpr rfl] at this
    refine le_antisymm ?_ this
    rw [← a2]
    rcases (hc r c).mp a1 with h | h | h | h <;> cases h <;> norm_num [cellTemp, okTemps, okDims, exDims]
  have hmin : minEl okDims okTemps el = 300 := by
    have := b3 0 0 ((hc 0 0).mpr (by simp))
    rw [(t 0 0 300).mpr rfl] at this
    refine le_antisymm this ?_
    rw [← b2]
    rcases (hc r' c').mp b1 with h | h | h | h <;> cases h <;> norm_num [cellTemp, okTemps, okDims, exDims]
  refine ⟨el, hel, hmax, hmin, ?_⟩
  rw [(C30_gradient okGrid hW hf (okIn _ (by simp)) okTemps).1, hmax, hmin]; norm_num

/-- Non-vacuity of the average: the second element has one rectangle. -/
example : ∃ el, parseElement okDims okRaw2 = some el ∧
    avgEl okDims okTemps el = (302 + 303 + 304 + 312 + 313 + 314) / 6 := by
  obtain ⟨el, hel⟩ := ok_el2
  have hf : From okDims okRaw2 el := ⟨el, hel, rfl, rfl⟩
  refine ⟨el, hel, ?_⟩
  rw [C30_average_partial okGrid (by simp [okDims, exDims, W]) hf (okIn _ (by simp)) okTemps (e := ⟨35, 0, 35, 20⟩) rfl, ok_cells_c]
  simp [mean, cellTemp, okTemps, okDims, exDims]
  norm_num

/-- Non-vacuity of `C30_average_same_size_partial`: two rectangles of one cell each. -/
example : ∃ el, parseElement okDims ⟨"two", [⟨0, 0, 10, 10⟩, ⟨0, 10, 5, 10⟩], []⟩ = some el ∧
    ∃ s : Finset (Nat × Nat), (∀ r c, (r, c) ∈ s ↔ CellOf okDims ⟨"two", [⟨0, 0, 10, 10⟩, ⟨0, 10, 5, 10⟩], []⟩ r c) ∧
      avgEl okDims okTemps el = mean okDims okTemps s := by
  have hin : ∀ e ∈ (⟨"two", [⟨0, 0, 10, 10⟩, ⟨0, 10, 5, 10⟩], []⟩ : RawEl ℚ).rects, InGrid okDims e := by
    intro e he
    simp only [List.mem_cons, List.not_mem_nil, or_false] at he
    rcases he with rfl | rfl <;> constructor <;> norm_num [ok_length, ok_width]
  have a : rectCells okDims ⟨0, 0, 10, 10⟩ = {(0, 0)} := by decide +kernel
  obtain ⟨el, hel⟩ := parse_total okGrid (raw := ⟨"two", [⟨0, 0, 10, 10⟩, ⟨0, 10, 5, 10⟩], []⟩) (by simp) hin (by
    intro e he
    simp only [List.mem_cons, List.not_mem_nil, or_false] at he
    rcases he with rfl | rfl <;> norm_num [checkLocation, epsilon, okDims, exDims])
  refine ⟨el, hel, C30_average_same_size_partial okGrid (by simp [okDims, exDims, W]) ⟨el, hel, rfl, rfl⟩ hin okTemps 1 ?_ ?_⟩
  · intro e he
    simp only [List.mem_cons, List.not_mem_nil, or_false] at he
    rcases he with rfl | rfl
    · rw [a]; rfl
    · rw [ok_cells_b]; rfl
  · simp [a, ok_cells_b]

/-- **C30 (violated)** The L-shaped element of four cells at 300, 301, 302 and 400 has the average 350.5 instead of 325.75: the single
cell of its second rectangle counts as much as the three cells of the first one. -/
theorem C30_average_violated : ∃ el, parseElement okDims okRaw1 = some el ∧
    (∀ r c, CellOf okDims okRaw1 r c ↔ (r, c) ∈ ({(0, 0), (0, 1), (0, 2), (1, 0)} : Finset (Nat × Nat))) ∧
    avgEl okDims okTemps el = 701 / 2 ∧ mean okDims okTemps {(0, 0), (0, 1), (0, 2), (1, 0)} = 1303 / 4 := by
  obtain ⟨el, hel⟩ := ok_el1
  have hf : From okDims okRaw1 el := ⟨el, hel, rfl, rfl⟩
  refine ⟨el, hel, ?_, ?_, ?_⟩
  · intro r c
    unfold CellOf okRaw1
    simp only [List.mem_cons, List.not_mem_nil, or_false, exists_eq_or_imp, exists_eq_left, ok_cells_a, ok_cells_b, Finset.mem_insert,
      Finset.mem_singleton, or_assoc]
  · rw [avgEl_eq okGrid (by simp [okDims, exDims, W]) hf (okIn _ (by simp)) okTemps]
    simp only [okRaw1, List.map_cons, List.map_nil, ok_cells_a, ok_cells_b]
    simp [mean, cellTemp, okTemps, okDims, exDims]
    norm_num
  · simp [mean, cellTemp, okTemps, okDims, exDims]
    norm_num

end Verif.Flp
