import Verif.Lemmas.NuChannel
import Verif.Props.NonUniformContact
import Verif.Props.Dimensions

set_option linter.unusedSectionVars false
set_option linter.unusedSimpArgs false
set_option linter.unusedVariables false

/-! The cells of a channel and their connections, on a non-uniform grid. -/

namespace Verif.NU
open Verif.Dim Verif.TG Verif.Stk Verif.SM

variable {K : Type} [Field K] [LinearOrder K] [IsStrictOrderedRing K]

/-! ### Columns -/

/-- Positive sizes, and columns that fit into the chip. -/
structure ChipFits (d : Dims K) : Prop where
  pos : 0 < d.firstWall ∧ 0 < d.wall ∧ 0 < d.channel ∧ 0 < d.lastWall
  chip : 0 < d.chipWidth
  fit : gridLength d ≤ d.chipLength

theorem chan_left {d : Dims K} (hs : Sized d) {c : Nat} (hc : c + 1 < d.nCols) : chanX0 d c = locX d c := by
  have hW := hs.cols.2
  unfold chanX0
  by_cases h0 : c = 0
  · rw [if_pos h0, h0, locX_zero]
  · rw [if_neg h0, if_neg (by omega)]
    unfold locX
    rw [if_neg h0]
    have hsub : sub32 c 1 = c - 1 := by unfold sub32; unfold W at *; omega
    rw [hsub]
    by_cases hodd : c % 2 ≠ 0
    · rw [if_pos hodd]
      have h1 : c / 2 = (c - 1) / 2 := by omega
      rw [h1]; ring
    · rw [if_neg hodd]
      have h1 : c / 2 = (c - 2) / 2 + 1 := by omega
      have h2 : (c - 1) / 2 = (c - 2) / 2 := by omega
      rw [h1, h2]; push_cast; ring

theorem chan_len {d : Dims K} (hs : Sized d) {c : Nat} (hc : c < d.nCols) : chanX1 d c - chanX0 d c = cellLength d c := by
  have hl := lastColumn_eq hs.cols.1 hs.cols.2
  unfold chanX1 cellLength
  rw [if_neg (show ¬ c > lastColumn d by omega), hl]
  by_cases h0 : c = 0
  · rw [if_pos h0, if_pos h0]; unfold chanX0; rw [if_pos h0]; ring
  · rw [if_neg h0, if_neg h0]
    by_cases h1 : c = d.nCols - 1
    · rw [if_pos h1, if_pos h1]; unfold chanX0; rw [if_neg h0, if_pos h1]; ring
    · rw [if_neg h1, if_neg h1]
      by_cases h2 : c % 2 = 1
      · rw [if_pos (by omega), if_pos h2]; ring
      · rw [if_neg (by omega), if_neg h2]; ring

theorem chan_right {d : Dims K} (hs : Sized d) {c : Nat} (hc : c + 1 < d.nCols) : chanX1 d c = locX d (c + 1) := by
  have h1 := chan_len hs (show c < d.nCols by omega)
  rw [chan_left hs hc] at h1
  rw [locX_succ d c hc hs.cols.2]; linarith

theorem gridLength_last {d : Dims K} (hs : Sized d) : gridLength d = locX d (d.nCols - 1) + cellLength d (d.nCols - 1) := by
  have h1 := hs.cols.1
  unfold gridLength
  obtain ⟨n, hn⟩ : ∃ n, d.nCols = n + 1 := ⟨d.nCols - 1, by omega⟩
  rw [hn, Finset.sum_range_succ, sum_cellLength d hs.cols.2 n (by omega), Nat.add_sub_cancel]

theorem chan_left_ge {d : Dims K} (hs : Sized d) (hf : ChipFits d) {c : Nat} (hc : c < d.nCols) : locX d c ≤ chanX0 d c := by
  by_cases h : c + 1 < d.nCols
  · rw [chan_left hs h]
  · have e : c = d.nCols - 1 := by omega
    by_cases h0 : c = 0
    · unfold chanX0; rw [if_pos h0, h0, locX_zero]
    · unfold chanX0
      rw [if_neg h0, if_pos e]
      have h1 := gridLength_last hs
      have h2 := hf.fit
      have h3 : cellLength d (d.nCols - 1) = d.lastWall := by
        have hl := lastColumn_eq hs.cols.1 hs.cols.2
        unfold cellLength
        rw [if_neg (by omega), if_neg (by omega), if_pos (by omega)]
      rw [h3, ← e] at h1
      linarith

theorem locX_mono {d : Dims K} (hs : Sized d) (hf : ChipFits d) {c c' : Nat} (h : c ≤ c') (hc : c' < d.nCols) : locX d c ≤ locX d c' := by
  induction c' with
  | zero => rw [show c = 0 by omega]
  | succ k ih =>
    by_cases e : c = k + 1
    · rw [e]
    · have h1 := ih (by omega) (by omega)
      rw [locX_succ d k hc hs.cols.2]
      have := cellLength_pos hs hf.pos (c := k) (by omega)
      linarith

theorem columns_apart {d : Dims K} (hs : Sized d) (hf : ChipFits d) {c c' : Nat} (h : c < c') (hc : c' < d.nCols) : chanX1 d c ≤ chanX0 d c' := by
  rw [chan_right hs (by omega)]
  exact le_trans (locX_mono hs hf h hc) (chan_left_ge hs hf hc)

theorem column_pos {d : Dims K} (hs : Sized d) (hf : ChipFits d) {c : Nat} (hc : c < d.nCols) : chanX0 d c < chanX1 d c := by
  have := chan_len hs hc
  have := cellLength_pos hs hf.pos hc
  linarith

/-! ### Cells -/

/-- The cell at row `r` and column `c` of the layer `k` of a channel. -/
def chanCell (d : Dims K) (m : ChModel) (off k r c : Nat) : Cell K :=
  ⟨off + k, chanX0 d c, d.chipWidth / (d.nRows : K) * (r : K), chanX1 d c, d.chipWidth / (d.nRows : K) * ((r + 1 : Nat) : K), noMat, chanFlag d m k c⟩

theorem channelLayer_length (d : Dims K) (m : ChModel) (off k : Nat) : (channelLayer d m off k).length = d.nCols * d.nRows := by
  simp [channelLayer]

theorem rc_lt {nR nC r c : Nat} (hr : r < nR) (hc : c < nC) : r * nC + c < nC * nR := by
  have : (r + 1) * nC ≤ nR * nC := Nat.mul_le_mul_right _ hr
  rw [Nat.add_mul, Nat.one_mul, Nat.mul_comm nR] at this
  omega

theorem channelLayer_get (d : Dims K) (m : ChModel) (off k : Nat) {r c : Nat} (hr : r < d.nRows) (hc : c < d.nCols) :
    (channelLayer d m off k)[r * d.nCols + c]? = some (chanCell d m off k r c) := by
  unfold channelLayer
  rw [List.getElem?_map, List.getElem?_range (rc_lt hr hc)]
  have e1 : (r * d.nCols + c) % d.nCols = c := by rw [Nat.add_comm, Nat.add_mul_mod_self_right, Nat.mod_eq_of_lt hc]
  have e2 : (r * d.nCols + c) / d.nCols = r := by
    rw [Nat.add_comm, Nat.add_mul_div_right _ _ (by omega), Nat.div_eq_of_lt hc, Nat.zero_add]
  simp only [Option.map_some, e1, e2, chanCell]

section
variable {d0 : Dims K} {decl : Option (Channel K)} {rs : List (Raw K (List (FEl K)))} {ns : List (NElem K)} {G : Grid K}

/-- Position of the cell at row `r` and column `c` of the layer `k` of a channel. -/
def chanIdx (G : Grid K) (n : NElem K) (k r c : Nat) : Nat := firstCell G (n.elem.offset + k) + (r * G.d.nCols + c)

theorem chan_get (hf : FromStack d0 decl rs ns G) {n : NElem K} (hn : n ∈ ns) {ch : Channel K} (hb : n.elem.body = .channel ch) {k r c : Nat}
    (hk : k < chLayers ch) (hr : r < G.d.nRows) (hc : c < G.d.nCols) :
    G.cells[chanIdx G n k r c]? = some (chanCell G.d ch.model n.elem.offset k r c) := by
  obtain ⟨-, -, -, -, -, h⟩ := hf.channel hn hb
  unfold chanIdx
  have hl := (h k hk).1
  have := flatten_get G.ls hl (s := r * G.d.nCols + c) (by rw [channelLayer_length]; exact rc_lt hr hc)
  rw [channelLayer_get _ _ _ _ hr hc] at this
  exact this

theorem chan_lt (hf : FromStack d0 decl rs ns G) {n : NElem K} (hn : n ∈ ns) {ch : Channel K} (hb : n.elem.body = .channel ch) {k r c : Nat}
    (hk : k < chLayers ch) (hr : r < G.d.nRows) (hc : c < G.d.nCols) : chanIdx G n k r c < G.cells.length :=
  (List.getElem?_eq_some_iff.mp (chan_get hf hn hb hk hr hc)).1

theorem chan_cell (hf : FromStack d0 decl rs ns G) {n : NElem K} (hn : n ∈ ns) {ch : Channel K} (hb : n.elem.body = .channel ch) {k r c : Nat}
    (hk : k < chLayers ch) (hr : r < G.d.nRows) (hc : c < G.d.nCols) :
    cellAt G.cells (chanIdx G n k r c) = chanCell G.d ch.model n.elem.offset k r c := by
  unfold cellAt; rw [List.getD_eq_getElem?_getD, chan_get hf hn hb hk hr hc]; rfl

/-- The cells of the layers of a channel are given by their rows and columns. -/
theorem chan_of_layer (hf : FromStack d0 decl rs ns G) {n : NElem K} (hn : n ∈ ns) {ch : Channel K} (hb : n.elem.body = .channel ch) {k i : Nat}
    (hk : k < chLayers ch) (hi : i < G.cells.length) (hl : G.cells[i].layer = n.elem.offset + k) :
    ∃ r c, r < G.d.nRows ∧ c < G.d.nCols ∧ i = chanIdx G n k r c := by
  obtain ⟨lc, h1, h2, h3, -, -, -⟩ := hf.pos_layer hi
  obtain ⟨-, -, -, -, -, h⟩ := hf.channel hn hb
  rw [hl] at h1 h2 h3
  rw [(h k hk).1, Option.some.injEq] at h1
  rw [← h1, channelLayer_length] at h3
  have hpos : 0 < G.d.nCols := by
    rcases Nat.eq_zero_or_pos G.d.nCols with e | e
    · rw [e, Nat.zero_mul] at h3; omega
    · exact e
  refine ⟨(i - start G.ls (n.elem.offset + k)) / G.d.nCols, (i - start G.ls (n.elem.offset + k)) % G.d.nCols, ?_, Nat.mod_lt _ hpos, ?_⟩
  · rw [Nat.div_lt_iff_lt_mul hpos, Nat.mul_comm]; omega
  · unfold chanIdx
    have := Nat.div_add_mod (i - start G.ls (n.elem.offset + k)) G.d.nCols
    rw [Nat.mul_comm] at this
    show _ = start G.ls _ + _
    omega

/-- A cell marked as coolant belongs to a channel. -/
theorem coolant_cell (hf : FromStack d0 decl rs ns G) {i : Nat} (hi : i < G.cells.length) (hch : G.cells[i].chan = true) :
    ∃ n ∈ ns, ∃ ch, n.elem.body = .channel ch ∧ ∃ k r c, k < chLayers ch ∧ r < G.d.nRows ∧ c < G.d.nCols ∧ i = chanIdx G n k r c ∧
      chanFlag G.d ch.model k c = true := by
  obtain ⟨lc, h1, h2, h3, -, h5, h6⟩ := hf.pos_layer hi
  have hmem : G.cells[i] ∈ lc := List.mem_of_getElem? h5
  have hlay : G.cells[i].layer < G.d.nLayers := by
    rcases h6 with h | ⟨h, s, m, ht⟩
    · exact h
    · exfalso
      obtain ⟨p, -, -, -, -, hls, -⟩ := hf.spec
      rw [hls, h] at h1
      unfold layersOf at h1
      simp only at h1
      rw [List.getElem?_append_right (by rw [hf.nLayers]), hf.nLayers, Nat.sub_self] at h1
      unfold spreaderLayer at h1
      rw [ht] at h1
      simp only [List.getElem?_cons_zero, Option.some.injEq] at h1
      rw [← h1] at hmem
      rw [(subCells_layer hmem).2] at hch
      cases hch
  obtain ⟨n, hn, k, hk, hl⟩ := hf.elemAt hlay
  obtain ⟨-, g2, -⟩ := hf.layersAt hn hk
  rw [hl, g2] at h1
  have hc := (elemLayers_cell h1 _ hmem).2
  rw [isChannel_fix] at hc
  cases hb : n.elem.body with
  | die b => exfalso; rw [hc (by unfold isChannel; rw [hb])] at hch; cases hch
  | layer ly => exfalso; rw [hc (by unfold isChannel; rw [hb])] at hch; cases hch
  | channel ch =>
    have hk' : k < chLayers ch := by unfold nLayersOf at hk; rw [hb] at hk; exact hk
    obtain ⟨r, c, hr, hcc, e⟩ := chan_of_layer hf hn hb hk' hi hl
    refine ⟨n, hn, ch, hb, k, r, c, hk', hr, hcc, e, ?_⟩
    have hget := chan_get hf hn hb hk' hr hcc
    rw [← e, List.getElem?_eq_getElem hi, Option.some.injEq] at hget
    rw [hget] at hch
    exact hch

end

/-! ### Connections -/

/-- What the loop over the pairs of a layer finds, for every type of layer. -/
theorem inLayer_cases {cs : List (Cell K)} {ty i j : Nat} {a b : Cell K} (hi : cellAt cs i = a) (hj : cellAt cs j = b)
    (ha : Solid a) (hb : Solid b) (h : Apart a b) :
    inLayer cs ty i j = if TouchX a b then (if ty = 1 ∨ ty = 2 ∨ ty = 3 then none else some ⟨i, j, shortest (a.y0 - b.y1) (a.y1 - b.y0), 1⟩)
      else if TouchY a b then (if ty = 1 ∨ ty = 3 then none else some ⟨i, j, shortest (a.x0 - b.x1) (a.x1 - b.x0), 2⟩) else none := by
  obtain ⟨h0, h1, h2, h3⟩ := h
  obtain ⟨ax, ay⟩ := solid_lt ha
  obtain ⟨bx, by'⟩ := solid_lt hb
  unfold inLayer mink
  rw [hi, hj]
  simp only
  simp only [small_iff h0, small_iff h1, small_iff h2, small_iff h3, smallMul_iff h0 h2, smallMul_iff h1 h3]
  have n02 : a.x0 - b.x1 < a.x1 - b.x0 := by linarith
  have n13 : a.y0 - b.y1 < a.y1 - b.y0 := by linarith
  have m02 := negMul_iff h0 h2 n02
  have m13 := negMul_iff h1 h3 n13
  have hX : TouchX a b ↔ (a.x0 - b.x1 = 0 ∨ a.x1 - b.x0 = 0) ∧ a.y0 - b.y1 < 0 ∧ 0 < a.y1 - b.y0 := by
    unfold TouchX commonY
    rw [overlap_pos ay by', sub_eq_zero, sub_eq_zero, or_comm, eq_comm (a := b.x1)]
  have hY : TouchY a b ↔ (a.y0 - b.y1 = 0 ∨ a.y1 - b.y0 = 0) ∧ a.x0 - b.x1 < 0 ∧ 0 < a.x1 - b.x0 := by
    unfold TouchY commonX
    rw [overlap_pos ax bx, sub_eq_zero, sub_eq_zero, or_comm, eq_comm (a := b.y1)]
  simp only [hX, hY]
  exact decision m02 m13

theorem posSum_of_mem' {n : Nat} {g : TGrid K} {d : Dims K} {cs : List (Cell K)} {L : List (Conn K)} (h : Proper n L) {cn : Conn K} (hc : cn ∈ L) :
    posSum (offDiag g d cs L) cn.node1 cn.node2 = (conductance g d cn (cellAt cs cn.node2) (cellAt cs cn.node1)).2 *
      (conductance g d cn (cellAt cs cn.node2) (cellAt cs cn.node1)).1 := by
  induction L with
  | nil => cases hc
  | cons c L ih =>
    have hL : Proper n L := ⟨fun x hx => h.lt x (List.mem_cons_of_mem _ hx), (List.nodup_cons.mp h.once).2⟩
    have hnot := (List.nodup_cons.mp h.once).1
    have hlt := h.lt c List.mem_cons_self
    unfold offDiag at ih ⊢
    rw [List.flatMap_cons, posSum_append]
    have hcn := h.lt cn hc
    rcases List.mem_cons.mp hc with rfl | hc
    · have hz : posSum (L.flatMap (pairOf g d cs)) cn.node1 cn.node2 = 0 := by
        unfold posSum
        rw [List.filter_eq_nil_iff.mpr]; · simp
        intro e he hh
        rw [decide_eq_true_eq] at hh
        obtain ⟨c', hc', h'⟩ := mem_off (g := g) (d := d) (cs := cs) he
        have hlt' := hL.lt c' hc'
        apply hnot
        rw [List.mem_map]
        refine ⟨c', hc', ?_⟩
        rw [Prod.mk.injEq]
        omega
      rw [hz, add_zero]
      unfold pairOf
      rw [posSum_cons, posSum_cons, if_neg (by simp only; omega), if_pos ⟨rfl, rfl⟩]
      simp [posSum]
    · rw [ih hL hc]
      have hne : ¬ (c.node1 = cn.node1 ∧ c.node2 = cn.node2) := by
        rintro ⟨e1, e2⟩
        apply hnot
        rw [List.mem_map]
        exact ⟨cn, hc, by simp only; rw [e1, e2]⟩
      unfold pairOf
      rw [posSum_cons, posSum_cons, if_neg (by simp only; omega), if_neg (fun hh => hne ⟨hh.1, hh.2⟩)]
      simp [posSum]

theorem posSum_of_not_mem' {n : Nat} {g : TGrid K} {d : Dims K} {cs : List (Cell K)} {L : List (Conn K)} (h : Proper n L) {i j : Nat} (hij : i < j)
    (hc : ∀ cn ∈ L, ¬ (cn.node1 = i ∧ cn.node2 = j)) : posSum (offDiag g d cs L) i j = 0 := by
  unfold posSum
  rw [List.filter_eq_nil_iff.mpr]; · simp
  intro e he hh
  rw [decide_eq_true_eq] at hh
  obtain ⟨c', hc', h'⟩ := mem_off (g := g) (d := d) (cs := cs) he
  have hlt' := h.lt c' hc'
  apply hc c' hc'
  omega

/-- The two coefficients of a pair of cells. -/
theorem pair_entries {G : Grid K} {a : Ana K} {rnd : K → K} {L : List (Conn K)} (hr : Runs (regions G.d.nLayers G.ty G.ls) L) {i j : Nat}
    (hij : i < j) (hj : j < G.cells.length) :
    let m := fillMatrixNU rnd G.g a G.d G.ls.flatten L
    (∃ cn ∈ L, cn.node1 = i ∧ cn.node2 = j ∧ m.entry j i = (conductance G.g G.d cn (cellAt G.cells j) (cellAt G.cells i)).1 ∧
      m.entry i j = (conductance G.g G.d cn (cellAt G.cells j) (cellAt G.cells i)).2 * (conductance G.g G.d cn (cellAt G.cells j) (cellAt G.cells i)).1) ∨
    ((∀ cn ∈ L, ¬ (cn.node1 = i ∧ cn.node2 = j)) ∧ m.entry j i = 0 ∧ m.entry i j = 0) := by
  have hp := runs_proper G.okTy hr
  simp only
  rw [entry_eq rnd G.g a G.d hp j (show i < G.ls.flatten.length by unfold Grid.cells at hj; omega), if_neg (by omega), add_zero,
    entry_eq rnd G.g a G.d hp i hj, if_neg (by omega), add_zero]
  by_cases h : ∃ cn ∈ L, cn.node1 = i ∧ cn.node2 = j
  · obtain ⟨cn, hc, rfl, rfl⟩ := h
    exact Or.inl ⟨cn, hc, rfl, rfl, posSum_of_mem hp hc, posSum_of_mem' hp hc⟩
  · have h' : ∀ cn ∈ L, ¬ (cn.node1 = i ∧ cn.node2 = j) := fun cn hc hh => h ⟨cn, hc, hh⟩
    exact Or.inr ⟨h', posSum_of_not_mem hp hij h', posSum_of_not_mem' hp hij h'⟩

end Verif.NU
