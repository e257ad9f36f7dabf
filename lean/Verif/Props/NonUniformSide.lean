import Verif.Props.NonUniformFilm

set_option linter.unusedSectionVars false
set_option linter.unusedSimpArgs false
set_option linter.unusedVariables false

/-! # C58: heat exchange inside a layer of a channel on a non-uniform grid -/

namespace Verif.NU
open Verif.Dim Verif.TG Verif.Stk Verif.SM

variable {K : Type} [Field K] [LinearOrder K] [IsStrictOrderedRing K]
variable {d0 : Dims K} {decl : Option (Channel K)} {rs : List (Raw K (List (FEl K)))} {ns : List (NElem K)} {G : Grid K} {a : Ana K} {m : Csc K}

/-! ## Specification -/

/-- Conductance between two consecutive rows of a wall in the column `c`. -/
def wallAlong (G : Grid K) (ch : Channel K) (c : Nat) : K := ch.wallMat.ky * (cellLength G.d c * ch.height) / rowWidth G

/-! ## Proofs -/

theorem rowWidth_pos (hs : Sized G.d) (fit : ChipFits G.d) : 0 < rowWidth G :=
  div_pos fit.chip (by exact_mod_cast hs.rows.1)

theorem column_next {d : Dims K} (hs : Sized d) (fit : ChipFits d) (hw : gridLength d = d.chipLength) {c c' : Nat} (hc : c < d.nCols) (hc' : c' < d.nCols) :
    chanX1 d c = chanX0 d c' ↔ c + 1 = c' := by
  constructor
  · intro h
    have p := column_pos hs fit hc
    rcases Nat.lt_trichotomy c c' with h1 | h1 | h1
    · by_contra hne
      have a1 := columns_apart hs fit (show c < c + 1 by omega) (by omega)
      have a2 := column_pos hs fit (show c + 1 < d.nCols by omega)
      have a3 := columns_apart hs fit (show c + 1 < c' by omega) hc'
      linarith
    · subst h1; linarith
    · have a1 := columns_apart hs fit h1 hc
      have a2 := column_pos hs fit hc'
      linarith
  · rintro rfl
    rw [chan_right hs hc', whole_left hs hw hc']

theorem column_overlap {d : Dims K} (hs : Sized d) (fit : ChipFits d) {c c' : Nat} (hc : c < d.nCols) (hc' : c' < d.nCols) :
    0 < overlap (chanX0 d c) (chanX1 d c) (chanX0 d c') (chanX1 d c') ↔ c = c' := by
  rw [overlap_pos (column_pos hs fit hc) (column_pos hs fit hc')]
  constructor
  · rintro ⟨h1, h2⟩
    rcases Nat.lt_trichotomy c c' with h | h | h
    · have := columns_apart hs fit h hc'; linarith
    · exact h
    · have := columns_apart hs fit h hc; linarith
  · rintro rfl
    have := column_pos hs fit hc
    constructor <;> linarith

theorem row_overlap {w : K} (hw : 0 < w) {r r' : Nat} :
    0 < overlap (w * (r : K)) (w * ((r + 1 : Nat) : K)) (w * (r' : K)) (w * ((r' + 1 : Nat) : K)) ↔ r = r' := by
  have hrow : ∀ r : Nat, w * (r : K) < w * ((r + 1 : Nat) : K) := by intro r; push_cast; nlinarith
  rw [overlap_pos (hrow r) (hrow r')]
  constructor
  · rintro ⟨h3, h4⟩
    rw [sub_neg, mul_lt_mul_iff_right₀ hw, Nat.cast_lt] at h3
    rw [sub_pos, mul_lt_mul_iff_right₀ hw, Nat.cast_lt] at h4
    omega
  · rintro rfl
    have := hrow r
    constructor <;> linarith

theorem row_next {w : K} (hw : 0 < w) {r r' : Nat} : w * ((r + 1 : Nat) : K) = w * (r' : K) ↔ r + 1 = r' := by
  rw [mul_right_inj' (ne_of_gt hw), Nat.cast_inj]

/-- Cells of a layer of a channel that are side by side. -/
theorem chan_touch (hs : Sized G.d) (fit : ChipFits G.d) (hw : gridLength G.d = G.d.chipLength) {mo : ChModel} {o k r c r' c' : Nat} (hr : r < G.d.nRows)
    (hc : c < G.d.nCols) (hr' : r' < G.d.nRows) (hc' : c' < G.d.nCols) :
    (TouchX (chanCell G.d mo o k r c) (chanCell G.d mo o k r' c') ↔ r = r' ∧ (c + 1 = c' ∨ c' + 1 = c)) ∧
    (TouchY (chanCell G.d mo o k r c) (chanCell G.d mo o k r' c') ↔ c = c' ∧ (r + 1 = r' ∨ r' + 1 = r)) := by
  have hwp := rowWidth_pos hs fit
  unfold rowWidth at hwp
  constructor
  · unfold TouchX commonY
    change ((chanX1 G.d c = chanX0 G.d c' ∨ chanX1 G.d c' = chanX0 G.d c) ∧
      0 < overlap (G.d.chipWidth / (G.d.nRows : K) * (r : K)) (G.d.chipWidth / (G.d.nRows : K) * ((r + 1 : Nat) : K))
        (G.d.chipWidth / (G.d.nRows : K) * (r' : K)) (G.d.chipWidth / (G.d.nRows : K) * ((r' + 1 : Nat) : K))) ↔ _
    rw [column_next hs fit hw hc hc', column_next hs fit hw hc' hc, row_overlap hwp, and_comm]
  · unfold TouchY commonX
    change ((G.d.chipWidth / (G.d.nRows : K) * ((r + 1 : Nat) : K) = G.d.chipWidth / (G.d.nRows : K) * (r' : K) ∨
      G.d.chipWidth / (G.d.nRows : K) * ((r' + 1 : Nat) : K) = G.d.chipWidth / (G.d.nRows : K) * (r : K)) ∧
      0 < overlap (chanX0 G.d c) (chanX1 G.d c) (chanX0 G.d c') (chanX1 G.d c')) ↔ _
    rw [column_overlap hs fit hc hc', row_next hwp, row_next hwp, and_comm]

theorem at_lt {l r c r' c' : Nat} (hc : c < G.d.nCols) (h : r < r' ∨ (r = r' ∧ c < c')) : G.at l r c < G.at l r' c' := by
  unfold Grid.at
  rcases h with h | ⟨rfl, h⟩
  · have : G.d.nCols * (r + 1) ≤ G.d.nCols * r' := Nat.mul_le_mul_left _ h
    rw [Nat.mul_succ] at this
    simp only [Nat.mul_comm] at *
    omega
  · omega

section
variable (hf : FromStack d0 decl rs ns G) (fit : ChipFits G.d) (ph : PhysicalNU G) (hsh : Sharp G) (hw : gridLength G.d = G.d.chipLength)
include hf fit ph hsh hw

/-- Cells of the same layer of a channel that do not exchange heat. -/
theorem layer_apart {rnd : K → K} (hm : Assembled rnd G a m) {n : NElem K} (hn : n ∈ ns) {ch : Channel K} (hb : n.elem.body = .channel ch) {k r c r' c' : Nat}
    (hk : k < chLayers ch) (hr : r < G.d.nRows) (hc : c < G.d.nCols) (hr' : r' < G.d.nRows) (hc' : c' < G.d.nCols) (hne : (r, c) ≠ (r', c'))
    (hx : r = r' → (c + 1 = c' ∨ c' + 1 = c) → G.ty (n.elem.offset + k) = 1 ∨ G.ty (n.elem.offset + k) = 2 ∨ G.ty (n.elem.offset + k) = 3)
    (hy : c = c' → (r + 1 = r' ∨ r' + 1 = r) → G.ty (n.elem.offset + k) = 1 ∨ G.ty (n.elem.offset + k) = 3) :
    Conducts m (G.at (n.elem.offset + k) r c) (G.at (n.elem.offset + k) r' c') 0 := by
  have main : ∀ {r c r' c' : Nat} (hr : r < G.d.nRows) (hc : c < G.d.nCols) (hr' : r' < G.d.nRows) (hc' : c' < G.d.nCols)
      (hlt : r < r' ∨ (r = r' ∧ c < c'))
      (hx : r = r' → (c + 1 = c' ∨ c' + 1 = c) → G.ty (n.elem.offset + k) = 1 ∨ G.ty (n.elem.offset + k) = 2 ∨ G.ty (n.elem.offset + k) = 3)
      (hy : c = c' → (r + 1 = r' ∨ r' + 1 = r) → G.ty (n.elem.offset + k) = 1 ∨ G.ty (n.elem.offset + k) = 3),
      Conducts m (G.at (n.elem.offset + k) r c) (G.at (n.elem.offset + k) r' c') 0 := by
    intro r c r' c' hr hc hr' hc' hlt hx hy
    obtain ⟨hi, hci⟩ := chan_place hf fit ph hsh hn hb hk hr hc
    obtain ⟨hj, hcj⟩ := chan_place hf fit ph hsh hn hb hk hr' hc'
    obtain ⟨tx, ty⟩ := chan_touch (G := G) (mo := ch.model) (o := n.elem.offset) (k := k) hf.wf.sized fit hw hr hc hr' hc'
    have li : G.cells[G.at (n.elem.offset + k) r c].layer = n.elem.offset + k := by rw [hci]; rfl
    have lj : G.cells[G.at (n.elem.offset + k) r' c'].layer = n.elem.offset + k := by rw [hcj]; rfl
    obtain ⟨e1, e2⟩ := apart hf ph hsh hm (at_lt hc hlt) hj hi (fun _ => by
      rw [li, hci, hcj, tx, ty]
      exact ⟨fun h => hx h.1 h.2, fun _ h => hy h.1 h.2⟩) (fun h => by
      rw [li, lj] at h
      rcases h with ⟨h, -⟩ | ⟨o, -, h⟩ <;> omega)
    exact ⟨by rw [e2, neg_zero], by rw [e1, neg_zero]⟩
  by_cases hlt : r < r' ∨ (r = r' ∧ c < c')
  · exact main hr hc hr' hc' hlt hx hy
  · have : r' < r ∨ (r' = r ∧ c' < c) := by
      by_contra h
      apply hne
      rw [Prod.mk.injEq]
      omega
    exact (main hr' hc' hr hc this (fun h h' => hx h.symm h'.symm) (fun h h' => hy h.symm h'.symm)).symm

/-- Lateral half conductances of a cell of a 4RM channel. -/
theorem gx_4rm {n : NElem K} (hn : n ∈ ns) {ch : Channel K} (hb : n.elem.body = .channel ch) (h4 : ch.model = .mc4rm) {r c : Nat}
    (hr : r < G.d.nRows) (hc : c < G.d.nCols) :
    (WetCol G ch c → gx G.g G.d (rowWidth G) (chanCell G.d ch.model n.elem.offset 0 r c) = coolantSide G ch) ∧
    (¬ WetCol G ch c → gx G.g G.d (rowWidth G) (chanCell G.d ch.model n.elem.offset 0 r c) = wallSide G ch c ∧
      ∀ note, gy G.g G.d (cellLength G.d c) (chanCell G.d ch.model n.elem.offset 0 r c) note = ch.wallMat.ky * (cellLength G.d c * ch.height) / (rowWidth G / 2)) := by
  obtain ⟨h1, h2, -, h5, h6, -⟩ := hf.channel hn hb
  have hk : 0 < chLayers ch := by unfold chLayers; split_ifs <;> omega
  have ht : (chTypes ch.model)[0]? = some LType.ch4rm := by rw [h4]; rfl
  obtain ⟨t1, t2, t3⟩ := h6 0 _ ht
  have e1 : (chanCell G.d ch.model n.elem.offset 0 r c).layer = n.elem.offset + 0 := rfl
  have hfl : (chanCell G.d ch.model n.elem.offset 0 r c).chan = chanFlag G.d ch.model 0 c := rfl
  have hlen : (chanCell G.d ch.model n.elem.offset 0 r c).length = cellLength G.d c := chan_len hf.wf.sized hc
  have hwid : (chanCell G.d ch.model n.elem.offset 0 r c).width = rowWidth G := by
    show G.d.chipWidth / (G.d.nRows : K) * ((r + 1 : Nat) : K) - G.d.chipWidth / (G.d.nRows : K) * (r : K) = _
    unfold rowWidth; push_cast; ring
  have hwf := wet_flag (G := G) hk h2 hc
  have kx : condX G.g G.d (n.elem.offset + 0) 0 0 = ch.wallMat.kx := by unfold condX; rw [t2]; rfl
  have ky : condY G.g G.d (n.elem.offset + 0) 0 0 = ch.wallMat.ky := by unfold condY; rw [t2]; rfl
  have hcp : coolantPos ch = 0 := by simp [coolantPos, h4]
  unfold gx gy
  rw [e1, hfl, if_neg (by omega), t1, hlen, hwid, kx, ky, t3]
  simp only [chan, h1, Option.map_some, Option.getD_some]
  constructor
  · intro hwet
    have : chanFlag G.d ch.model 0 c = true := hwf.mpr ⟨hcp.symm, hwet⟩
    rw [this]
    simp only [if_true, coolantSide]; ring
  · intro hwet
    have : chanFlag G.d ch.model 0 c = false := by simpa using hwf.not.mpr fun h => hwet h.2
    rw [this]
    refine ⟨?_, fun note => ?_⟩
    · simp only [wallSide]
      rw [if_neg (by simp)]; ring
    · simp only [Bool.false_eq_true, if_false]
      try rw [if_neg (by omega)]
      ring

/-- **C58 (4RM)** In a 4RM channel the coolant exchanges heat with the two walls beside it, through the film on its sides and half of
the length of the wall; the rows of a wall conduct heat along it; other cells of the layer do not exchange heat. -/
theorem C58_inside_4rm {rnd : K → K} (hm : Assembled rnd G a m) {n : NElem K} (hn : n ∈ ns) {ch : Channel K} (hb : n.elem.body = .channel ch) (h4 : ch.model = .mc4rm)
    (hside : 0 < ch.coolant.htcSide) {r c : Nat} (hr : r < G.d.nRows) (hc : c < G.d.nCols) :
    (c + 1 < G.d.nCols → WetCol G ch c → Conducts m (G.at n.elem.offset r c) (G.at n.elem.offset r (c + 1)) (series (coolantSide G ch) (wallSide G ch (c + 1)))) ∧
    (c + 1 < G.d.nCols → WetCol G ch (c + 1) → Conducts m (G.at n.elem.offset r c) (G.at n.elem.offset r (c + 1)) (series (wallSide G ch c) (coolantSide G ch))) ∧
    (r + 1 < G.d.nRows → ¬ WetCol G ch c → Conducts m (G.at n.elem.offset r c) (G.at n.elem.offset (r + 1) c) (wallAlong G ch c)) ∧
    (∀ r' c', r' < G.d.nRows → c' < G.d.nCols → (r, c) ≠ (r', c') → ¬ (r = r' ∧ (c + 1 = c' ∨ c' + 1 = c)) → ¬ (c = c' ∧ (r + 1 = r' ∨ r' + 1 = r)) →
      Conducts m (G.at n.elem.offset r c) (G.at n.elem.offset r' c') 0) := by
  have hk : 0 < chLayers ch := by unfold chLayers; split_ifs <;> omega
  have hs := hf.wf.sized
  have hwp := rowWidth_pos hs fit
  obtain ⟨-, pkx, pky, phh⟩ := wallFace_pos hf fit ph hsh hn hb (by omega) (by omega)
  have hty : G.ty n.elem.offset = 0 := by
    have := ty_elem hf hn (k := 0) (by unfold nLayersOf; rw [hb]; exact hk)
    rw [hb] at this
    simp only [h4, Nat.add_zero] at this
    exact this
  have pc : ∀ c, c < G.d.nCols → 0 < cellLength G.d c := fun c hc => by
    rw [← chan_len hs hc]; linarith [column_pos hs fit hc]
  have pwall : ∀ c, c < G.d.nCols → 0 < wallSide G ch c := fun c hc => by
    have := pc c hc; unfold wallSide; positivity
  have pcool : 0 < coolantSide G ch := by unfold coolantSide; positivity
  have pair : ∀ {r c : Nat}, r < G.d.nRows → c + 1 < G.d.nCols → ∀ {g1 g2 : K}, 0 < g1 → 0 < g2 →
      gx G.g G.d (rowWidth G) (chanCell G.d ch.model n.elem.offset 0 r c) = g1 →
      gx G.g G.d (rowWidth G) (chanCell G.d ch.model n.elem.offset 0 r (c + 1)) = g2 →
      Conducts m (G.at n.elem.offset r c) (G.at n.elem.offset r (c + 1)) (series g1 g2) := by
    intro r c hr hc g1 g2 p1 p2 e1 e2
    obtain ⟨hi, hci⟩ := chan_place hf fit ph hsh hn hb hk hr (show c < G.d.nCols by omega)
    obtain ⟨hj, hcj⟩ := chan_place hf fit ph hsh hn hb hk hr hc
    simp only [Nat.add_zero] at hi hci hj hcj
    obtain ⟨tx, -⟩ := chan_touch (G := G) (mo := ch.model) (o := n.elem.offset) (k := 0) hs fit hw hr (show c < G.d.nCols by omega) hr hc
    have hX : TouchX G.cells[G.at n.elem.offset r c] G.cells[G.at n.elem.offset r (c + 1)] := by
      rw [hci, hcj, tx]; exact ⟨rfl, Or.inl rfl⟩
    have hl1 : G.cells[G.at n.elem.offset r c].layer = n.elem.offset := by rw [hci]; rfl
    have hl2 : G.cells[G.at n.elem.offset r (c + 1)].layer = n.elem.offset := by rw [hcj]; rfl
    obtain ⟨f1, f2⟩ := side_x hf ph hsh hm (at_lt (by omega) (Or.inr ⟨rfl, by omega⟩)) hj hi (hl1.trans hl2.symm) hX (by rw [hl1, hty]; omega)
    have hv : shortest (G.cells[G.at n.elem.offset r c].y0 - G.cells[G.at n.elem.offset r (c + 1)].y1)
        (G.cells[G.at n.elem.offset r c].y1 - G.cells[G.at n.elem.offset r (c + 1)].y0) = rowWidth G := by
      rw [hci, hcj]
      show shortest (G.d.chipWidth / (G.d.nRows : K) * (r : K) - G.d.chipWidth / (G.d.nRows : K) * ((r + 1 : Nat) : K))
        (G.d.chipWidth / (G.d.nRows : K) * ((r + 1 : Nat) : K) - G.d.chipWidth / (G.d.nRows : K) * (r : K)) = _
      have ea : G.d.chipWidth / (G.d.nRows : K) * ((r + 1 : Nat) : K) - G.d.chipWidth / (G.d.nRows : K) * (r : K) = rowWidth G := by
        unfold rowWidth; push_cast; ring
      have eb : G.d.chipWidth / (G.d.nRows : K) * (r : K) - G.d.chipWidth / (G.d.nRows : K) * ((r + 1 : Nat) : K) = - rowWidth G := by rw [← ea]; ring
      rw [ea, eb, shortest_eq (by linarith) hwp, neg_neg, min_self]
    rw [hv, hci, hcj, e1, e2, par_eq_series p2 p1, series_comm] at f1 f2
    exact ⟨f2, f1⟩
  refine ⟨fun hc1 hwet => ?_, fun hc1 hwet => ?_, fun hr1 hdry => ?_, fun r' c' hr' hc' hne h1 h2 => ?_⟩
  · have hdry : ¬ WetCol G ch (c + 1) := fun h => by have := hwet h4; have := h h4; omega
    exact pair hr hc1 pcool (pwall _ hc1) ((gx_4rm hf fit ph hsh hw hn hb h4 hr hc).1 hwet) ((gx_4rm hf fit ph hsh hw hn hb h4 hr hc1).2 hdry).1
  · have hdry : ¬ WetCol G ch c := fun h => by have := hwet h4; have := h h4; omega
    exact pair hr hc1 (pwall _ hc) pcool ((gx_4rm hf fit ph hsh hw hn hb h4 hr hc).2 hdry).1 ((gx_4rm hf fit ph hsh hw hn hb h4 hr hc1).1 hwet)
  · obtain ⟨hi, hci⟩ := chan_place hf fit ph hsh hn hb hk hr hc
    obtain ⟨hj, hcj⟩ := chan_place hf fit ph hsh hn hb hk hr1 hc
    simp only [Nat.add_zero] at hi hci hj hcj
    obtain ⟨tx, ty⟩ := chan_touch (G := G) (mo := ch.model) (o := n.elem.offset) (k := 0) hs fit hw hr hc hr1 hc
    have hY : TouchY G.cells[G.at n.elem.offset r c] G.cells[G.at n.elem.offset (r + 1) c] := by
      rw [hci, hcj, ty]; exact ⟨rfl, Or.inl rfl⟩
    have hX : ¬ TouchX G.cells[G.at n.elem.offset r c] G.cells[G.at n.elem.offset (r + 1) c] := by
      rw [hci, hcj, tx]; omega
    have hl1 : G.cells[G.at n.elem.offset r c].layer = n.elem.offset := by rw [hci]; rfl
    have hl2 : G.cells[G.at n.elem.offset (r + 1) c].layer = n.elem.offset := by rw [hcj]; rfl
    have hch : G.cells[G.at n.elem.offset r c].chan = false := by
      rw [hci]
      show chanFlag G.d ch.model 0 c = false
      obtain ⟨-, h2, -⟩ := hf.channel hn hb
      simpa using (wet_flag (G := G) hk h2 hc).not.mpr fun h => hdry h.2
    obtain ⟨f1, f2⟩ := side_y hf ph hsh hm (at_lt hc (Or.inl (by omega))) hj hi (hl1.trans hl2.symm) hX hY (by rw [hl1, hty]; omega) hch
    have hv : shortest (G.cells[G.at n.elem.offset r c].x0 - G.cells[G.at n.elem.offset (r + 1) c].x1)
        (G.cells[G.at n.elem.offset r c].x1 - G.cells[G.at n.elem.offset (r + 1) c].x0) = cellLength G.d c := by
      rw [hci, hcj]
      show shortest (chanX0 G.d c - chanX1 G.d c) (chanX1 G.d c - chanX0 G.d c) = _
      have ea := chan_len hs hc
      have eb : chanX0 G.d c - chanX1 G.d c = - cellLength G.d c := by rw [← ea]; ring
      rw [ea, eb, shortest_eq (by linarith [pc c hc]) (pc c hc), neg_neg, min_self]
    rw [hv, hci, hcj] at f1 f2
    have q1 := ((gx_4rm hf fit ph hsh hw hn hb h4 hr hc).2 hdry).2
    have q2 := ((gx_4rm hf fit ph hsh hw hn hb h4 hr1 hc).2 hdry).2
    have pg : 0 < ch.wallMat.ky * (cellLength G.d c * ch.height) / (rowWidth G / 2) := by
      have := pc c hc; positivity
    have hw0 := ne_of_gt hwp
    have es : series (ch.wallMat.ky * (cellLength G.d c * ch.height) / (rowWidth G / 2)) (ch.wallMat.ky * (cellLength G.d c * ch.height) / (rowWidth G / 2)) =
        wallAlong G ch c := by
      have := ne_of_gt pg
      unfold series wallAlong
      have hk0 := ne_of_gt pky; have hh0 := ne_of_gt phh; have hc0 := ne_of_gt (pc c hc)
      field_simp
      norm_num
    rw [q1, q2, par_eq_series pg pg, es] at f1 f2
    exact ⟨f2, f1⟩
  · have := layer_apart hf fit ph hsh hw hm hn hb (k := 0) hk hr hc hr' hc' hne (fun a b => absurd ⟨a, b⟩ h1) (fun a b => absurd ⟨a, b⟩ h2)
    rw [Nat.add_zero] at this
    exact this

/-- **C58 (2RM and pin fins, inside a layer)** The surfaces of a channel and the material between the pins do not conduct heat along
the layer; the coolant and the material between the channels do not conduct heat across the channels. -/
theorem C58_inside_layer_2rm {rnd : K → K} (hm : Assembled rnd G a m) {n : NElem K} (hn : n ∈ ns) {ch : Channel K} (hb : n.elem.body = .channel ch) (h4 : ch.model ≠ .mc4rm)
    {k r c r' c' : Nat} (hk : k < 4) (hr : r < G.d.nRows) (hc : c < G.d.nCols) (hr' : r' < G.d.nRows) (hc' : c' < G.d.nCols) (hne : (r, c) ≠ (r', c'))
    (h : k = 0 ∨ k = 3 ∨ (k = 1 ∧ ch.model ≠ .mc2rm) ∨ ¬ (c = c' ∧ (r + 1 = r' ∨ r' + 1 = r))) :
    Conducts m (G.at (n.elem.offset + k) r c) (G.at (n.elem.offset + k) r' c') 0 := by
  have hL : chLayers ch = 4 := by simp [chLayers, h4]
  have ht := ty_elem hf hn (k := k) (by unfold nLayersOf; rw [hb]; show k < chLayers ch; omega)
  obtain ⟨-, h2, -⟩ := hf.channel hn hb
  rw [hb] at ht
  have hty : G.ty (n.elem.offset + k) = 1 ∨ G.ty (n.elem.offset + k) = 2 ∨ G.ty (n.elem.offset + k) = 3 := by
    rw [ht]
    have hk' : k = 0 ∨ k = 1 ∨ k = 2 ∨ k = 3 := by omega
    cases hmm : ch.model <;> rcases hk' with rfl | rfl | rfl | rfl <;> simp_all
  refine layer_apart hf fit ph hsh hw hm hn hb (by omega) hr hc hr' hc' hne (fun _ _ => hty) (fun a b => ?_)
  rcases h with rfl | rfl | ⟨rfl, h⟩ | h
  · rw [ht]; cases hmm : ch.model <;> simp_all
  · rw [ht]; cases hmm : ch.model <;> simp_all
  · rw [ht]; cases hmm : ch.model <;> simp_all
  · exact absurd ⟨a, b⟩ h

end

end Verif.NU
