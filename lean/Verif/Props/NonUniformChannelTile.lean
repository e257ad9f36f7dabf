import Verif.Props.NonUniformCoolant
import Verif.Lemmas.NuChannelEx

set_option linter.unusedSectionVars false
set_option linter.unusedSimpArgs false
set_option linter.unusedVariables false

/-! # C58: the cells of the channels of a non-uniform grid -/

namespace Verif.NU
open Verif.Dim Verif.TG Verif.Stk Verif.SM

variable {K : Type} [Field K] [LinearOrder K] [IsStrictOrderedRing K]
variable {d0 : Dims K} {decl : Option (Channel K)} {rs : List (Raw K (List (FEl K)))} {ns : List (NElem K)} {G : Grid K} {a : Ana K} {m : Csc K}

/-- The chip is as long as its columns. -/
theorem whole_left {d : Dims K} (hs : Sized d) (hw : gridLength d = d.chipLength) {c : Nat} (hc : c < d.nCols) : chanX0 d c = locX d c := by
  by_cases h : c + 1 < d.nCols
  · exact chan_left hs h
  · by_cases h0 : c = 0
    · unfold chanX0; rw [if_pos h0, h0, locX_zero]
    · have e : c = d.nCols - 1 := by omega
      have h1 := gridLength_last hs
      have h2 := chan_len hs hc
      have h3 : chanX1 d c = d.chipLength := by unfold chanX1; rw [if_neg h0, if_pos e]
      rw [← e] at h1
      rw [h3] at h2
      linarith

theorem whole_right {d : Dims K} (hs : Sized d) (hw : gridLength d = d.chipLength) {c : Nat} (hc : c < d.nCols) :
    chanX1 d c = locX d c + cellLength d c := by
  have h2 := chan_len hs hc
  rw [whole_left hs hw hc] at h2
  linarith

/-- A point of the chip lies in one column. -/
theorem column_unique {d : Dims K} (hs : Sized d) (fit : ChipFits d) (hw : gridLength d = d.chipLength) {x : K} (h0 : 0 ≤ x) (h1 : x < d.chipLength) :
    ∃ k, k < d.nCols ∧ ∀ c, c < d.nCols → ((chanX0 d c ≤ x ∧ x < chanX1 d c) ↔ c = k) := by
  have hn := hs.cols.1
  have key : ∀ c, c < d.nCols → x < chanX1 d c → ∃ k, k ≤ c ∧ chanX0 d k ≤ x ∧ x < chanX1 d k := by
    intro c
    induction c with
    | zero =>
      intro hc h
      refine ⟨0, le_refl _, ?_, h⟩
      rw [whole_left hs hw hc, locX_zero]; exact h0
    | succ c ih =>
      intro hc h
      by_cases hx : x < chanX1 d c
      · obtain ⟨k, hk, h2⟩ := ih (by omega) hx
        exact ⟨k, by omega, h2⟩
      · refine ⟨c + 1, le_refl _, ?_, h⟩
        rw [whole_left hs hw hc, ← chan_right hs hc]
        exact not_lt.mp hx
  have hlast : x < chanX1 d (d.nCols - 1) := by
    rw [whole_right hs hw (by omega), ← gridLength_last hs, hw]; exact h1
  obtain ⟨k, hk, a1, a2⟩ := key (d.nCols - 1) (by omega) hlast
  refine ⟨k, by omega, fun c hc => ⟨?_, ?_⟩⟩
  · rintro ⟨b1, b2⟩
    by_contra hne
    rcases Nat.lt_or_gt_of_ne hne with h | h
    · have := columns_apart hs fit h (by omega); linarith
    · have := columns_apart hs fit h hc; linarith
  · rintro rfl; exact ⟨a1, a2⟩

/-- A point of the chip lies in one cell of a layer of a channel. -/
theorem channelLayer_point {d : Dims K} (hs : Sized d) (fit : ChipFits d) (hw : gridLength d = d.chipLength) {x y : K} (hx : 0 ≤ x ∧ x < d.chipLength)
    (hy : 0 ≤ y ∧ y < d.chipWidth) (mo : ChModel) (off li : Nat) : (channelLayer d mo off li).countP (inCell x y) = 1 := by
  obtain ⟨k, hk, hku⟩ := column_unique hs fit hw hx.1 hx.2
  obtain ⟨j, hj, hju⟩ := part_unique (x0 := (0 : K)) (n := d.nRows) fit.chip hs.rows.1 hy.1 (by rw [zero_add]; exact hy.2)
  have hnx := hs.cols.1
  unfold channelLayer
  rw [List.countP_map]
  have hcong : ∀ s ∈ List.range (d.nCols * d.nRows), ((inCell x y ∘ fun s => (⟨off + li, chanX0 d (s % d.nCols), d.chipWidth / (d.nRows : K) * ((s / d.nCols : Nat) : K),
      chanX1 d (s % d.nCols), d.chipWidth / (d.nRows : K) * ((s / d.nCols + 1 : Nat) : K), noMat, chanFlag d mo li (s % d.nCols)⟩ : Cell K)) s = true) ↔
      (s == k + d.nCols * j) = true := by
    intro s _
    simp only [Function.comp, inCell, decide_eq_true_eq, beq_iff_eq]
    have hcol := hku (s % d.nCols) (Nat.mod_lt _ hnx)
    have hrow := hju (s / d.nCols)
    rw [zero_add, zero_add] at hrow
    constructor
    · rintro ⟨a, b, c, e⟩
      rw [← hcol.mp ⟨a, b⟩, ← hrow.mp ⟨c, e⟩]
      exact (Nat.mod_add_div s d.nCols).symm
    · rintro rfl
      have e1 : (k + d.nCols * j) % d.nCols = k := by rw [Nat.add_mul_mod_self_left, Nat.mod_eq_of_lt hk]
      have e2 : (k + d.nCols * j) / d.nCols = j := by
        rw [Nat.add_mul_div_left _ _ hnx, Nat.div_eq_of_lt hk, Nat.zero_add]
      obtain ⟨a, b⟩ := hcol.mpr e1
      obtain ⟨c, e⟩ := hrow.mpr e2
      exact ⟨a, b, c, e⟩
  rw [List.countP_congr hcong]
  have hlt : k + d.nCols * j < d.nCols * d.nRows := by
    have := rc_lt hj hk
    rw [Nat.mul_comm j, Nat.add_comm] at this; exact this
  exact List.count_eq_one_of_mem List.nodup_range (List.mem_range.mpr hlt)

/-- **C58 (cells)** Every layer of a channel is divided into rows and columns like the layers of a uniform grid: the cell at row `r` and
column `c` begins where the previous columns end and has the length of its column; the rows divide the width of the chip equally. The
cells with coolant are those of the wet columns of the coolant layer. These are all the cells of the layer. -/
theorem C58_cells (hf : FromStack d0 decl rs ns G) (hw : gridLength G.d = G.d.chipLength) {n : NElem K} (hn : n ∈ ns)
    {ch : Channel K} (hb : n.elem.body = .channel ch) {k : Nat} (hk : k < chLayers ch) :
    (∀ r c, r < G.d.nRows → c < G.d.nCols → ∃ cell, G.cells[G.at (n.elem.offset + k) r c]? = some cell ∧ cell.layer = n.elem.offset + k ∧
      cell.x0 = ∑ i ∈ Finset.range c, cellLength G.d i ∧ cell.x1 = cell.x0 + cellLength G.d c ∧
      cell.y0 = G.d.chipWidth / (G.d.nRows : K) * (r : K) ∧ cell.y1 = cell.y0 + G.d.chipWidth / (G.d.nRows : K) ∧
      (cell.chan = true ↔ n.elem.offset + k = coolantLayer n.elem ch ∧ WetCol G ch c)) ∧
    ∀ (i : Nat) (hi : i < G.cells.length), G.cells[i].layer = n.elem.offset + k → ∃ r c, r < G.d.nRows ∧ c < G.d.nCols ∧ i = G.at (n.elem.offset + k) r c := by
  refine ⟨fun r c hr hc => ⟨_, chan_get hf hn hb hk hr hc, rfl, ?_, ?_, rfl, ?_, ?_⟩, fun i hi hl => chan_of_layer hf hn hb hk hi hl⟩
  · rw [sum_cellLength G.d hf.wf.sized.cols.2 c hc]
    exact whole_left hf.wf.sized hw hc
  · show chanX1 G.d c = chanX0 G.d c + _
    have := chan_len hf.wf.sized hc
    linarith
  · show G.d.chipWidth / (G.d.nRows : K) * ((r + 1 : Nat) : K) = G.d.chipWidth / (G.d.nRows : K) * (r : K) + G.d.chipWidth / (G.d.nRows : K)
    push_cast; ring
  · show chanFlag G.d ch.model k c = true ↔ _
    rw [wet_flag (G := G) hk (hf.channel hn hb).2.1 hc]
    have : k = coolantPos ch ↔ n.elem.offset + k = coolantLayer n.elem ch := by
      unfold coolantPos coolantLayer; split_ifs <;> omega
    rw [this]

/-- **C58 (points)** With channels too, every point of the chip lies in exactly one cell of each layer, if it lies in the first
rectangle of exactly one floorplan element of each die and the chip is as long as its columns. -/
theorem C58_one_cell_per_point (hf : FromStack d0 decl rs ns G) (fit : ChipFits G.d) (hw : gridLength G.d = G.d.chipLength) (hd : ∀ n ∈ ns, Divided n)
    (x y : K) (hx : 0 ≤ x ∧ x < G.d.chipLength) (hy : 0 ≤ y ∧ y < G.d.chipWidth)
    (hone : ∀ n ∈ ns, ∀ b, n.elem.body = .die b → (b.flp.map (·.rect)).countP (inRect x y) = 1) {l : Nat} (hl : l < G.d.nLayers) :
    ∃ lc, G.ls[l]? = some lc ∧ lc.countP (inCell x y) = 1 := by
  obtain ⟨n, hn, k, hk, rfl⟩ := hf.elemAt hl
  obtain ⟨-, h2, -⟩ := hf.layersAt hn hk
  have hlt : k < (elemLayers G.d n.elem.offset (fixDiscr n)).length := by rw [elemLayers_length, nLayersOf_fix]; exact hk
  rw [List.getElem?_eq_getElem hlt] at h2
  refine ⟨_, h2, ?_⟩
  have hdn := hd n hn
  cases hb : n.elem.body with
  | die b =>
    have e : (fixDiscr n).elem.body = .die { b with flp := b.flp.map (fixEl n) } := by rw [fixed_die hb]
    have e2 : (elemLayers G.d n.elem.offset (fixDiscr n))[k] = dieLayer (fixDiscr n) { b with flp := b.flp.map (fixEl n) } n.elem.offset k := by
      simp only [elemLayers, e, List.getElem_map, List.getElem_range]
    rw [e2, dieLayer_points hb hdn n.elem.offset k x y]
    exact hone n hn b hb
  | layer ly =>
    have e : fixDiscr n = n := by unfold fixDiscr; rw [hb]
    have e2 : (elemLayers G.d n.elem.offset (fixDiscr n))[k] = subCells (chipRect G.d) n.dx n.dy n.elem.offset noMat := by
      have hk0 : k = 0 := by unfold nLayersOf at hk; rw [hb] at hk; simpa using hk
      subst hk0
      simp only [elemLayers, e, hb, List.getElem_cons_zero]
    unfold Divided at hdn
    rw [hb] at hdn
    have hin : inRect x y (chipRect G.d) = true := by
      unfold inRect chipRect
      rw [decide_eq_true_eq]
      exact ⟨hx.1, by linarith [hx.2], hy.1, by linarith [hy.2]⟩
    rw [e2, subCells_count (show 0 < (chipRect G.d).length by show 0 < G.d.chipLength; linarith) (show 0 < (chipRect G.d).width from fit.chip) hdn.1 hdn.2, if_pos hin]
  | channel ch =>
    have e : fixDiscr n = n := by unfold fixDiscr; rw [hb]
    have e2 : (elemLayers G.d n.elem.offset (fixDiscr n))[k] = channelLayer G.d ch.model n.elem.offset k := by
      simp only [elemLayers, e, hb, List.getElem_map, List.getElem_range]
    rw [e2]
    exact channelLayer_point hf.wf.sized fit hw hx hy _ _ _

/-! ## Examples -/

theorem wet4Whole : gridLength wet4Grid.d = wet4Grid.d.chipLength := by decide +kernel
theorem wet2Whole : gridLength wet2Grid.d = wet2Grid.d.chipLength := by decide +kernel

/-- Non-vacuity: the second column of the 4RM example is coolant, the third one is a wall. -/
example : ∃ c1 c2, wet4Grid.cells[wet4Grid.at 1 1 1]? = some c1 ∧ c1.chan = true ∧ wet4Grid.cells[wet4Grid.at 1 1 2]? = some c2 ∧ ¬ c2.chan = true := by
  have h := (C58_cells wet4From wet4Whole wet4_mem (ch := exChannel .mc4rm) rfl (k := 0) (by decide)).1
  obtain ⟨c1, e1, -, -, -, -, -, i1⟩ := h 1 1 (by decide) (by decide)
  obtain ⟨c2, e2, -, -, -, -, -, i2⟩ := h 1 2 (by decide) (by decide)
  refine ⟨c1, c2, e1, i1.mpr ⟨rfl, fun _ => ⟨by decide, by decide⟩⟩, e2, fun h2 => ?_⟩
  have h3 := ((i2.mp h2).2 rfl).1
  exact absurd h3 (by decide)

theorem wetDivided (mo : ChModel) (t : Nat) : ∀ n ∈ wetElems mo t, Divided n := by
  intro n hn
  simp only [wetElems, List.mem_cons, List.not_mem_nil, or_false] at hn
  rcases hn with rfl | rfl | rfl
  · show 0 < 1 ∧ 0 < 1; decide
  · trivial
  · intro e he
    simp only [wetFlp, List.mem_cons, List.not_mem_nil, or_false] at he
    rcases he with rfl | rfl <;> norm_num

/-- Non-vacuity: the point (50, 3) lies in one cell of each of the six layers of the 2RM example. -/
example {l : Nat} (hl : l < 6) : ∃ lc, wet2Grid.ls[l]? = some lc ∧ lc.countP (inCell 50 3) = 1 := by
  refine C58_one_cell_per_point wet2From wet2Fits wet2Whole (wetDivided _ _) 50 3 (by decide +kernel) (by decide +kernel) ?_ hl
  intro n hn b hb
  simp only [wetElems, List.mem_cons, List.not_mem_nil, or_false] at hn
  rcases hn with rfl | rfl | rfl
  · cases hb
  · cases hb
  · cases hb; decide +kernel

/-- **C55** On any stack, a probe in the chip reports the temperature of the only cell of its layer that contains the point, when the point
lies in the first rectangle of exactly one floorplan element of each die. -/
theorem C55_probe_in_stack (hf : FromStack d0 decl rs ns G) (fit : ChipFits G.d) (hw : gridLength G.d = G.d.chipLength) (hd : ∀ n ∈ ns, Divided n)
    (x y : K) (hx : 0 ≤ x ∧ x < G.d.chipLength) (hy : 0 ≤ y ∧ y < G.d.chipWidth)
    (hone : ∀ n ∈ ns, ∀ b, n.elem.body = .die b → (b.flp.map (·.rect)).countP (inRect x y) = 1) {l : Nat} (hl : l < G.d.nLayers)
    (temps sources : List K) (time : K) (q : Out.Quantity) :
    ∃ i c, G.cells[i]? = some c ∧ c.layer = l ∧ inCell x y c = true ∧
      (∀ i' c', G.cells[i']? = some c' → c'.layer = l → inCell x y c' = true → i' = i) ∧
      renderNU G.cells temps sources time q (.tcell l x y) = some (.line time [temps.getD i 0]) := by
  obtain ⟨lc, hlc, hcount⟩ := C58_one_cell_per_point hf fit hw hd x y hx hy hone hl
  exact probe_of_count hf hlc hcount temps sources time q

/-- Non-vacuity: a probe in the third layer of the 2RM example. -/
example (temps : List ℚ) (t : ℚ) := C55_probe_in_stack wet2From wet2Fits wet2Whole (wetDivided _ _) 50 3 (by decide +kernel) (by decide +kernel)
  (by
    intro n hn b hb
    simp only [wetElems, List.mem_cons, List.not_mem_nil, or_false] at hn
    rcases hn with rfl | rfl | rfl
    · cases hb
    · cases hb
    · cases hb; decide +kernel) (l := 2) (by decide) temps [] t .none

end Verif.NU
