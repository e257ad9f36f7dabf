import Verif.Lemmas.NuUniform
import Verif.Lemmas.RowSums
import Verif.Props.NonUniformOut

set_option linter.unusedSectionVars false
set_option linter.unusedSimpArgs false
set_option linter.unusedVariables false

/-! # C56: a non-uniform grid with the cells of the uniform one gives the same system -/

namespace Verif.NU
open Verif.Dim Verif.TG Verif.Stk Verif.SM

variable {K : Type} [Field K] [LinearOrder K] [IsStrictOrderedRing K]
variable {d0 : Dims K} {rs : List (Raw K (List (FEl K)))} {ns : List (NElem K)} {G : Grid K} {a : Ana K} {m : Csc K}

/-! ## Specification -/

/-- Cell `q` has the layer, the rectangle and the material of the cell in row `r` and column `c` of the uniform grid. -/
structure IsCell (G : Grid K) (l r c : Nat) (q : Cell K) : Prop where
  layer : q.layer = l
  x0 : q.x0 = locX G.d c
  x1 : q.x1 = locX G.d c + cellLength G.d c
  y0 : q.y0 = locY G.d r
  y1 : q.y1 = locY G.d r + cellWidth G.d r
  mat : ownMat G q = cellMaterial (layerAt G.g l) G.d r c

/-- The cells of the non-uniform grid are those of the uniform grid, each of them once, in any order: cell `i` is the one of layer
`L i`, row `R i` and column `C i`. -/
structure SameCells (G : Grid K) (L R C : Nat → Nat) : Prop where
  is : ∀ (i : Nat) q, G.cells[i]? = some q → L i < G.d.nLayers ∧ R i < G.d.nRows ∧ C i < G.d.nCols ∧ IsCell G (L i) (R i) (C i) q
  once : ∀ l r c, l < G.d.nLayers → r < G.d.nRows → c < G.d.nCols → ∃! i, i < G.cells.length ∧ L i = l ∧ R i = r ∧ C i = c

/-- Conductance between a cell of the lowest layer and the ambient of the bottom sink: convection in series with half of the layer. -/
def toBottom (G : Grid K) (c : Cell K) : K :=
  match G.g.bottom with
  | some b => if c.layer = 0 then series (b.htc * area c) ((ownMat G c).kz * area c / (height G.d c.layer / 2)) else 0
  | none => 0

/-! ## Proofs -/

section bands
variable {A B : Nat → K} {n : Nat} (h1 : ∀ c, c < n → A c < B c) (h2 : ∀ c, c + 1 < n → A (c + 1) = B c)
include h1 h2

theorem band_le {c c' : Nat} (h : c < c') (hn : c' < n) : B c ≤ A c' := by
  induction c' with
  | zero => omega
  | succ k ih =>
    rw [h2 k hn]
    rcases Nat.lt_or_ge c k with q | q
    · exact (ih q (by omega)).trans (h1 k (by omega)).le
    · rw [show c = k by omega]

theorem band_lt {c c' : Nat} (h : c + 1 < c') (hn : c' < n) : B c < A c' := by
  rw [← h2 c (by omega)]
  exact (h1 (c + 1) (by omega)).trans_le (band_le h1 h2 h hn)

theorem band_overlap {c c' : Nat} (hc : c < n) (hc' : c' < n) : 0 < overlap (A c) (B c) (A c') (B c') ↔ c = c' := by
  unfold overlap
  constructor
  · intro h
    by_contra hne
    rcases Nat.lt_or_gt_of_ne hne with q | q
    · have e := band_le h1 h2 q hc'
      have := min_le_left (B c) (B c')
      have := le_max_right (A c) (A c')
      linarith
    · have e := band_le h1 h2 q hc
      have := min_le_right (B c) (B c')
      have := le_max_left (A c) (A c')
      linarith
  · rintro rfl
    rw [min_self, max_self]
    have := h1 c hc
    linarith

theorem band_touch {c c' : Nat} (hc : c < n) (hc' : c' < n) : (B c = A c' ∨ B c' = A c) ↔ (c + 1 = c' ∨ c' + 1 = c) := by
  have one : ∀ {c c' : Nat}, c < n → c' < n → (B c = A c' ↔ c + 1 = c') := by
    intro c c' hc hc'
    constructor
    · intro e
      rcases Nat.lt_trichotomy c c' with q | rfl | q
      · by_contra hne
        have := band_lt h1 h2 (show c + 1 < c' by omega) hc'
        rw [e] at this; exact absurd this (lt_irrefl _)
      · have := h1 c hc
        rw [e] at this; exact absurd this (lt_irrefl _)
      · have e1 := band_le h1 h2 q hc
        have e2 := h1 c' hc'
        have e3 := h1 c hc
        rw [e] at e3
        linarith
    · rintro rfl
      exact (h2 c hc').symm
  rw [one hc hc', one hc' hc]

end bands

theorem overlap_self {x y : K} : overlap x y x y = y - x := by unfold overlap; rw [min_self, max_self]

/-- The columns and the rows of the uniform grid follow one another. -/
theorem cols_follow {g : TGrid K} {d : Dims K} (wf : WF g d) {c : Nat} (h : c + 1 < d.nCols) : locX d (c + 1) = locX d c + cellLength d c :=
  locX_succ d c h wf.sized.cols.2

theorem rows_follow {g : TGrid K} {d : Dims K} (wf : WF g d) {r : Nat} (h : r + 1 < d.nRows) : locY d (r + 1) = locY d r + cellWidth d r := by
  unfold locY cellWidth
  rw [if_neg (by rw [wf.lastRow]; omega)]
  push_cast; ring

section
variable {L R C : Nat → Nat} (hf : FromFile d0 rs ns G) (ph : PhysicalNU G) (hc : SameCells G L R C)
include hf ph hc

theorem colPos {c : Nat} (h : c < G.d.nCols) : 0 < cellLength G.d c := by
  obtain ⟨i, ⟨hi, h1, h2, h3⟩, -⟩ := hc.once 0 0 c hf.wf.L1 hf.wf.sized.rows.1 h
  obtain ⟨-, -, -, q⟩ := hc.is i _ (List.getElem?_eq_getElem hi)
  have := (ph.cell _ (List.getElem_mem hi)).1
  unfold Cell.length at this
  rw [q.x0, q.x1, h3] at this
  linarith

theorem rowPos {r : Nat} (h : r < G.d.nRows) : 0 < cellWidth G.d r := by
  obtain ⟨i, ⟨hi, h1, h2, h3⟩, -⟩ := hc.once 0 r 0 hf.wf.L1 h hf.wf.sized.cols.1
  obtain ⟨-, -, -, q⟩ := hc.is i _ (List.getElem?_eq_getElem hi)
  have := (ph.cell _ (List.getElem_mem hi)).2
  unfold Cell.width at this
  rw [q.y0, q.y1, h2] at this
  linarith

theorem cell_x {c c' : Nat} (h : c < G.d.nCols) (h' : c' < G.d.nCols) {p q : Cell K} {l r l' r' : Nat} (hp : IsCell G l r c p) (hq : IsCell G l' r' c' q) :
    (0 < commonX p q ↔ c = c') ∧ ((p.x1 = q.x0 ∨ q.x1 = p.x0) ↔ (c + 1 = c' ∨ c' + 1 = c)) ∧ (c = c' → commonX p q = cellLength G.d c) ∧
      p.length = cellLength G.d c := by
  have h1 : ∀ c, c < G.d.nCols → locX G.d c < locX G.d c + cellLength G.d c := fun c h => by
    have := colPos hf ph hc h; linarith
  have h2 : ∀ c, c + 1 < G.d.nCols → locX G.d (c + 1) = locX G.d c + cellLength G.d c := fun c h => cols_follow hf.wf h
  unfold commonX Cell.length
  rw [hp.x0, hp.x1, hq.x0, hq.x1]
  refine ⟨band_overlap (A := locX G.d) (B := fun c => locX G.d c + cellLength G.d c) h1 h2 h h',
    band_touch (A := locX G.d) (B := fun c => locX G.d c + cellLength G.d c) h1 h2 h h', ?_, by ring⟩
  rintro rfl
  rw [overlap_self]; ring

theorem cell_y {r r' : Nat} (h : r < G.d.nRows) (h' : r' < G.d.nRows) {p q : Cell K} {l c l' c' : Nat} (hp : IsCell G l r c p) (hq : IsCell G l' r' c' q) :
    (0 < commonY p q ↔ r = r') ∧ ((p.y1 = q.y0 ∨ q.y1 = p.y0) ↔ (r + 1 = r' ∨ r' + 1 = r)) ∧ (r = r' → commonY p q = cellWidth G.d r) ∧
      p.width = cellWidth G.d r := by
  have h1 : ∀ c, c < G.d.nRows → locY G.d c < locY G.d c + cellWidth G.d c := fun c h => by
    have := rowPos hf ph hc h; linarith
  have h2 : ∀ c, c + 1 < G.d.nRows → locY G.d (c + 1) = locY G.d c + cellWidth G.d c := fun c h => rows_follow hf.wf h
  unfold commonY Cell.width
  rw [hp.y0, hp.y1, hq.y0, hq.y1]
  refine ⟨band_overlap (A := locY G.d) (B := fun c => locY G.d c + cellWidth G.d c) h1 h2 h h',
    band_touch (A := locY G.d) (B := fun c => locY G.d c + cellWidth G.d c) h1 h2 h h', ?_, by ring⟩
  rintro rfl
  rw [overlap_self]; ring

/-- The conductance of two cells of the grid, by rows and columns. -/
theorem link_grid {l r c l' r' c' : Nat} {p q : Cell K} (hl : l < G.d.nLayers) (hr : r < G.d.nRows) (hcc : c < G.d.nCols) (hl' : l' < G.d.nLayers) (hr' : r' < G.d.nRows)
    (hcc' : c' < G.d.nCols) (hp : IsCell G l r c p) (hq : IsCell G l' r' c' q) :
    (p.layer = q.layer → ¬ NestedSide p q) ∧
    link G p q =
      if l = l' then
        if r = r' ∧ (c + 1 = c' ∨ c' + 1 = c) then sideX G (cellWidth G.d r) p q
        else if c = c' ∧ (r + 1 = r' ∨ r' + 1 = r) then sideY G (cellLength G.d c) p q else 0
      else if (l + 1 = l' ∨ l' + 1 = l) ∧ r = r' ∧ c = c' then
        series (vertical G p * (cellLength G.d c * cellWidth G.d r) / depth G p) (vertical G q * (cellLength G.d c * cellWidth G.d r) / depth G q)
      else 0 := by
  obtain ⟨x1, x2, x3, -⟩ := cell_x hf ph hc hcc hcc' hp hq
  obtain ⟨y1, y2, y3, -⟩ := cell_y hf ph hc hr hr' hp hq
  have tX : TouchX p q ↔ r = r' ∧ (c + 1 = c' ∨ c' + 1 = c) := by unfold TouchX; rw [x2, y1]; exact and_comm
  have tY : TouchY p q ↔ c = c' ∧ (r + 1 = r' ∨ r' + 1 = r) := by unfold TouchY; rw [y2, x1]; exact and_comm
  have oV : Overlap p q ↔ r = r' ∧ c = c' := by unfold Overlap; rw [y1, x1]; exact and_comm
  constructor
  · intro _ hn
    unfold NestedSide at hn
    rw [tX, tY] at hn
    rcases hn with ⟨⟨h, -⟩, hn⟩ | ⟨⟨h, -⟩, hn⟩
    · unfold Nested at hn
      rw [hp.y0, hp.y1, hq.y0, hq.y1, h] at hn
      rcases hn with ⟨h, -⟩ | ⟨h, -⟩ <;> exact absurd h (lt_irrefl _)
    · unfold Nested at hn
      rw [hp.x0, hp.x1, hq.x0, hq.x1, h] at hn
      rcases hn with ⟨h, -⟩ | ⟨h, -⟩ <;> exact absurd h (lt_irrefl _)
  · unfold link
    rw [hp.layer, hq.layer]
    simp only [tX, tY, oV]
    by_cases h1 : l = l'
    · rw [if_pos h1, if_pos h1]
      split_ifs with h2 h3
      · rw [y3 h2.1]
      · rw [x3 h3.1]
      · rfl
    · rw [if_neg h1, if_neg h1]
      by_cases h2 : l + 1 = l' ∨ l' + 1 = l
      · rw [if_pos h2]
        by_cases h3 : r = r' ∧ c = c'
        · rw [if_pos h3, if_pos ⟨h2, h3⟩, x3 h3.2, y3 h3.1]
        · rw [if_neg h3, if_neg (fun h => h3 h.2)]
      · rw [if_neg h2, if_neg (fun h => h2 h.1)]

end

theorem par_comm (x y : K) : par x y = par y x := by unfold par; rw [mul_comm, add_comm]

/-- Half conductances of the uniform grid. -/
theorem uniform_half {g : TGrid K} {d : Dims K} {l r c : Nat} (hs : solidish (typeAt g l) = true) :
    gEast g d l r c = condX g d l r c * (cellWidth d r * height d l) / (cellLength d c / 2) ∧
    gWest g d l r c = condX g d l r c * (cellWidth d r * height d l) / (cellLength d c / 2) ∧
    gNorth g d l r c = condY g d l r c * (cellLength d c * height d l) / (cellWidth d r / 2) ∧
    gSouth g d l r c = condY g d l r c * (cellLength d c * height d l) / (cellWidth d r / 2) ∧
    capacity g d l r c = heatCap g d l r c * (cellLength d c * cellWidth d r * height d l) := by
  unfold gEast gWest gNorth gSouth capacity
  revert hs
  cases typeAt g l <;> simp [solidish] <;> (refine ⟨?_, ?_, ?_⟩ <;> ring)

theorem uniform_sym {g : TGrid K} {d : Dims K} {l r c : Nat} (hs : solidish (typeAt g l) = true) :
    gEast g d l r c = gWest g d l r c ∧ gNorth g d l r c = gSouth g d l r c := by
  obtain ⟨h1, h2, h3, h4, -⟩ := uniform_half (g := g) (d := d) (l := l) (r := r) (c := c) hs
  exact ⟨by rw [h1, h2], by rw [h3, h4]⟩

/-- The neighbours found by the two programs. -/
theorem same_cases {l r c l' r' c' : Nat} {x y v B T S N W E : K} (hne : ¬ (l = l' ∧ r = r' ∧ c = c'))
    (hB : l + 1 = l' → r = r' → c = c' → v = B) (hT : l = l' + 1 → r = r' → c = c' → v = T)
    (hS : l = l' → r + 1 = r' → c = c' → y = S) (hN : l = l' → r = r' + 1 → c = c' → y = N)
    (hW : l = l' → r = r' → c + 1 = c' → x = W) (hE : l = l' → r = r' → c = c' + 1 → x = E) :
    (if l = l' then (if r = r' ∧ (c + 1 = c' ∨ c' + 1 = c) then x else if c = c' ∧ (r + 1 = r' ∨ r' + 1 = r) then y else 0)
      else if (l + 1 = l' ∨ l' + 1 = l) ∧ r = r' ∧ c = c' then v else 0) =
    (if l + 1 = l' ∧ r = r' ∧ c = c' then B else if l = l' + 1 ∧ r = r' ∧ c = c' then T
      else if l = l' ∧ r + 1 = r' ∧ c = c' then S else if l = l' ∧ r = r' + 1 ∧ c = c' then N
      else if l = l' ∧ r = r' ∧ c + 1 = c' then W else if l = l' ∧ r = r' ∧ c = c' + 1 then E else 0) := by
  by_cases h1 : l + 1 = l' ∧ r = r' ∧ c = c'
  · rw [if_neg (by omega), if_pos (by omega), if_pos h1, hB h1.1 h1.2.1 h1.2.2]
  rw [if_neg (c := l + 1 = l' ∧ r = r' ∧ c = c') h1]
  by_cases h2 : l = l' + 1 ∧ r = r' ∧ c = c'
  · rw [if_neg (by omega), if_pos (by omega), if_pos h2, hT h2.1 h2.2.1 h2.2.2]
  rw [if_neg (c := l = l' + 1 ∧ r = r' ∧ c = c') h2]
  by_cases h3 : l = l'
  · rw [if_pos h3]
    by_cases h4 : r = r'
    · rw [if_neg (c := l = l' ∧ r + 1 = r' ∧ c = c') (by omega), if_neg (c := l = l' ∧ r = r' + 1 ∧ c = c') (by omega)]
      by_cases h5 : c + 1 = c'
      · rw [if_pos ⟨h4, Or.inl h5⟩, if_pos ⟨h3, h4, h5⟩, hW h3 h4 h5]
      rw [if_neg (c := l = l' ∧ r = r' ∧ c + 1 = c') (by omega)]
      by_cases h6 : c = c' + 1
      · rw [if_pos ⟨h4, Or.inr h6.symm⟩, if_pos ⟨h3, h4, h6⟩, hE h3 h4 h6]
      rw [if_neg (by omega), if_neg (by omega), if_neg (by omega)]
    · rw [if_neg (c := r = r' ∧ _) (by omega), if_neg (c := l = l' ∧ r = r' ∧ c + 1 = c') (by omega), if_neg (c := l = l' ∧ r = r' ∧ c = c' + 1) (by omega)]
      by_cases h5 : r + 1 = r' ∧ c = c'
      · rw [if_pos ⟨h5.2, Or.inl h5.1⟩, if_pos ⟨h3, h5⟩, hS h3 h5.1 h5.2]
      rw [if_neg (c := l = l' ∧ r + 1 = r' ∧ c = c') (by omega)]
      by_cases h6 : r = r' + 1 ∧ c = c'
      · rw [if_pos ⟨h6.2, Or.inr h6.1.symm⟩, if_pos ⟨h3, h6⟩, hN h3 h6.1 h6.2]
      rw [if_neg (by omega), if_neg (by omega)]
  · rw [if_neg h3, if_neg (by omega), if_neg (by omega), if_neg (by omega), if_neg (by omega), if_neg (by omega)]

section
variable {L R C : Nat → Nat} (hf : FromFile d0 rs ns G) {s : Sink K} (ht : G.g.top = some (.ambient s))
include hf ht

theorem type_cases {l : Nat} (hl : l < G.d.nLayers) :
    (l + 1 < G.d.nLayers ∧ (l = 0 → G.g.bottom = none) ∧ (typeAt G.g l = .solid ∨ typeAt G.g l = .source)) ∨
    (l + 1 < G.d.nLayers ∧ l = 0 ∧ G.g.bottom.isSome ∧ (typeAt G.g l = .solidPcb ∨ typeAt G.g l = .sourcePcb)) ∨
    (l + 1 = G.d.nLayers ∧ (l = 0 → G.g.bottom = none) ∧ (typeAt G.g l = .solidAmb ∨ typeAt G.g l = .sourceAmb)) := by
  obtain ⟨t, h1, -, h2⟩ := hf.typeSpec hl
  obtain ⟨p, hb, -, hd, -⟩ := hf.spec
  have two : G.g.bottom.isSome → 1 < G.d.nLayers := by
    intro hbs
    by_contra hlt
    have : fillGrid p.dims.nLayers p.elems G.g.top G.g.bottom = none := by
      rw [C18_refused_iff hb.ok hb.parse]
      left
      refine ⟨by rw [ht]; rfl, hbs, ?_⟩
      rw [← hd]; omega
    rw [hb.fill] at this; cases this
  have hno : ¬ (l = 0 ∧ G.g.bottom.isSome) → l = 0 → G.g.bottom = none := by
    intro h h0
    cases e : G.g.bottom with
    | none => rfl
    | some x => exact absurd ⟨h0, by rw [e]; rfl⟩ h
  by_cases h0 : l = 0 ∧ G.g.bottom.isSome
  · rw [if_pos h0] at h2
    right; left
    have := two h0.2
    refine ⟨by omega, h0.1, h0.2, ?_⟩
    obtain ⟨x, hx⟩ := Option.isSome_iff_exists.mp h0.2
    rw [h2, hx]
    rcases h1 with rfl | rfl <;> simp [withBottom]
  rw [if_neg h0] at h2
  by_cases h : l = G.d.nLayers - 1
  · rw [if_pos h, ht] at h2
    right; right
    refine ⟨by omega, hno h0, ?_⟩
    rw [h2]
    rcases h1 with rfl | rfl <;> simp [withTop]
  · rw [if_neg h] at h2
    left
    exact ⟨by omega, hno h0, by rw [h2]; exact h1⟩

theorem uniform_top {l r c : Nat} (hl : l + 1 < G.d.nLayers) :
    gTop G.g G.d l r c =
      condZ G.g G.d l r c * (cellLength G.d c * cellWidth G.d r) / (if l = 0 ∧ G.g.bottom.isNone then height G.d l else height G.d l / 2) := by
  unfold gTop
  have hn : ¬ l = lastLayer G.d := by rw [hf.wf.lastLayer]; omega
  rcases type_cases hf ht (l := l) (by omega) with ⟨-, h0, h⟩ | ⟨-, h0, hs, h⟩ | ⟨h, -⟩
  · have e : (l = 0 ∧ G.g.bottom.isNone) ↔ l = 0 := ⟨fun h => h.1, fun h => ⟨h, by rw [h0 h]; rfl⟩⟩
    simp only [e]
    rcases h with h | h <;> rw [h] <;> simp only <;> rw [if_neg hn] <;> split_ifs <;> ring
  · have e : ¬ (l = 0 ∧ G.g.bottom.isNone) := by
      rintro ⟨-, h⟩
      obtain ⟨x, hx⟩ := Option.isSome_iff_exists.mp hs
      rw [hx] at h; cases h
    rw [if_neg e]
    rcases h with h | h <;> rw [h] <;> simp only <;> ring
  · omega

theorem uniform_bottom {l r c : Nat} (h0 : l ≠ 0) (hl : l < G.d.nLayers) :
    gBottom G.g G.d l r c = condZ G.g G.d l r c * (cellLength G.d c * cellWidth G.d r) / (height G.d l / 2) := by
  unfold gBottom
  rcases type_cases hf ht hl with ⟨q, -, h | h⟩ | ⟨-, q, -⟩ | ⟨q, -, h | h⟩
  · rw [h]; simp only; rw [if_neg h0, if_neg (by rw [hf.wf.lastLayer]; omega)]; ring
  · rw [h]; simp only; rw [if_neg h0, if_neg (by rw [hf.wf.lastLayer]; omega)]; ring
  · exact absurd q h0
  · rw [h]; simp only; ring
  · rw [h]; simp only; ring

end

section
variable {L R C : Nat → Nat} (hf : FromFile d0 rs ns G) (ph : PhysicalNU G) (hs : Sharp G) (hc : SameCells G L R C) (hm : Assembled id G a m)
  {s : Sink K} (ht : G.g.top = some (.ambient s))
include hf ph hc ht

theorem sideX_uniform {l r c c' : Nat} {p q : Cell K} (hl : l < G.d.nLayers) (hr : r < G.d.nRows) (hcc : c < G.d.nCols)
    (hcc' : c' < G.d.nCols) (hpm : p ∈ G.cells) (hqm : q ∈ G.cells) (hp : IsCell G l r c p) (hq : IsCell G l r c' q) :
    sideX G (cellWidth G.d r) p q = par (gEast G.g G.d l r c) (gWest G.g G.d l r c') := by
  have hv := rowPos hf ph hc hr
  have hlp : p.layer < G.d.nLayers := by rw [hp.layer]; exact hl
  have hlq : q.layer < G.d.nLayers := by rw [hq.layer]; exact hl
  have h1 := (half_pos hf ph hpm hlp hv).1
  have h2 := (half_pos hf ph hqm hlq hv).1
  unfold sideX
  rw [← par_eq_series h1 h2, (uniform_half (hf.types hl)).1, (uniform_half (hf.types hl)).2.1, hp.mat, hq.mat,
    (cell_x hf ph hc hcc hcc hp hp).2.2.2, (cell_x hf ph hc hcc' hcc' hq hq).2.2.2, hp.layer, hq.layer]
  rfl

theorem sideY_uniform {l r r' c : Nat} {p q : Cell K} (hl : l < G.d.nLayers) (hr : r < G.d.nRows) (hr' : r' < G.d.nRows) (hcc : c < G.d.nCols)
    (hpm : p ∈ G.cells) (hqm : q ∈ G.cells) (hp : IsCell G l r c p) (hq : IsCell G l r' c q) :
    sideY G (cellLength G.d c) p q = par (gNorth G.g G.d l r c) (gSouth G.g G.d l r' c) := by
  have hv := colPos hf ph hc hcc
  have hlp : p.layer < G.d.nLayers := by rw [hp.layer]; exact hl
  have hlq : q.layer < G.d.nLayers := by rw [hq.layer]; exact hl
  have h1 := (half_pos hf ph hpm hlp hv).2
  have h2 := (half_pos hf ph hqm hlq hv).2
  unfold sideY
  rw [← par_eq_series h1 h2, (uniform_half (hf.types hl)).2.2.1, (uniform_half (hf.types hl)).2.2.2.1, hp.mat, hq.mat,
    (cell_y hf ph hc hr hr hp hp).2.2.2, (cell_y hf ph hc hr' hr' hq hq).2.2.2, hp.layer, hq.layer]
  rfl

theorem half_up {l r c : Nat} {p : Cell K} (hl : l + 1 < G.d.nLayers) (hp : IsCell G l r c p) :
    vertical G p * (cellLength G.d c * cellWidth G.d r) / depth G p = gTop G.g G.d l r c := by
  rw [uniform_top hf ht hl]
  unfold vertical depth
  rw [hp.layer, if_pos (by omega), if_pos (by omega), hp.mat]
  rfl

theorem half_down {l r c : Nat} {p : Cell K} (h0 : l ≠ 0) (hl : l < G.d.nLayers) (hp : IsCell G l r c p) :
    vertical G p * (cellLength G.d c * cellWidth G.d r) / depth G p = gBottom G.g G.d l r c := by
  rw [uniform_bottom hf ht h0 hl]
  unfold vertical depth
  rw [hp.layer, if_pos hl, if_pos hl, if_neg (by simp [h0]), hp.mat]
  rfl

/-- Two cells on top of each other. -/
theorem vertical_uniform {l r c : Nat} {p q : Cell K} (hl : l + 1 < G.d.nLayers) (hr : r < G.d.nRows) (hcc : c < G.d.nCols)
    (hpm : p ∈ G.cells) (hqm : q ∈ G.cells) (hp : IsCell G l r c p) (hq : IsCell G (l + 1) r c q) :
    series (vertical G p * (cellLength G.d c * cellWidth G.d r) / depth G p) (vertical G q * (cellLength G.d c * cellWidth G.d r) / depth G q) =
      par (gTop G.g G.d l r c) (gBottom G.g G.d (l + 1) r c) ∧ 0 < gTop G.g G.d l r c ∧ 0 < gBottom G.g G.d (l + 1) r c := by
  have hx := colPos hf ph hc hcc
  have hy := rowPos hf ph hc hr
  obtain ⟨p1, p2⟩ := depth_pos hf ph hpm
  obtain ⟨q1, q2⟩ := depth_pos hf ph hqm
  have h1 : 0 < vertical G p * (cellLength G.d c * cellWidth G.d r) / depth G p := by positivity
  have h2 : 0 < vertical G q * (cellLength G.d c * cellWidth G.d r) / depth G q := by positivity
  rw [← par_eq_series h1 h2]
  rw [half_up hf ph hc ht hl hp] at h1 ⊢
  rw [half_down hf ph hc ht (by omega) hl hq] at h2 ⊢
  exact ⟨rfl, h1, h2⟩

theorem solidVert {l r c : Nat} {p q : Cell K} (hl : l + 1 < G.d.nLayers) (hr : r < G.d.nRows) (hcc : c < G.d.nCols)
    (hpm : p ∈ G.cells) (hqm : q ∈ G.cells) (hp : IsCell G l r c p) (hq : IsCell G (l + 1) r c q) :
    series (vertical G p * (cellLength G.d c * cellWidth G.d r) / depth G p) (vertical G q * (cellLength G.d c * cellWidth G.d r) / depth G q) =
      solidTop G.g G.d l r c ∧
    series (vertical G q * (cellLength G.d c * cellWidth G.d r) / depth G q) (vertical G p * (cellLength G.d c * cellWidth G.d r) / depth G p) =
      solidBottom G.g G.d (l + 1) r c := by
  obtain ⟨h1, h2, h3⟩ := vertical_uniform hf ph hc ht hl hr hcc hpm hqm hp hq
  unfold solidTop solidBottom
  rw [if_neg (ne_of_gt h3), Nat.add_sub_cancel, if_neg (ne_of_gt h2), series_comm (vertical G q * _ / _), h1]
  exact ⟨rfl, par_comm _ _⟩

include hs hm in
/-- Coefficients outside the diagonal. -/
theorem same_off {i j : Nat} (hij : i ≠ j) (hi : i < G.cells.length) (hj : j < G.cells.length) :
    m.entry i j = (fillMatrix G.g a G.d).entry (offInStack G.d (L i) (R i) (C i)) (offInStack G.d (L j) (R j) (C j)) := by
  obtain ⟨hli, hri, hci, hp⟩ := hc.is i _ (List.getElem?_eq_getElem hi)
  obtain ⟨hlj, hrj, hcj, hq⟩ := hc.is j _ (List.getElem?_eq_getElem hj)
  have hne : ¬ (L i = L j ∧ R i = R j ∧ C i = C j) := by
    rintro ⟨h1, h2, h3⟩
    obtain ⟨k, -, hk⟩ := hc.once (L j) (R j) (C j) hlj hrj hcj
    exact hij ((hk i ⟨hi, h1, h2, h3⟩).trans (hk j ⟨hj, rfl, rfl, rfl⟩).symm)
  have hpm := List.getElem_mem hi
  have hqm := List.getElem_mem hj
  obtain ⟨hn, hl⟩ := link_grid hf ph hc hli hri hci hlj hrj hcj hp hq
  rw [C52_conductances_partial hf ph hs hm hij hi hj fun e => ⟨by rw [hp.layer]; exact hli, hn e⟩, hl]
  have hspr : isSpr (typeAt G.g (L j)) = false := by
    rcases type_cases hf ht hlj with ⟨-, -, h | h⟩ | ⟨-, -, -, h | h⟩ | ⟨-, -, h | h⟩ <;> rw [h] <;> rfl
  rw [entry_solid hf.wf a hlj hrj hcj hli hri hci (hf.types hlj) hspr hne]
  congr 1
  clear hl hn
  generalize G.cells[i] = p at *
  generalize G.cells[j] = q at *
  generalize L i = l at *
  generalize R i = r at *
  generalize C i = c at *
  generalize L j = l' at *
  generalize R j = r' at *
  generalize C j = c' at *
  refine same_cases hne ?_ ?_ ?_ ?_ ?_ ?_
  · rintro rfl rfl rfl
    rw [series_comm]
    exact (solidVert hf ph hc ht hlj hri hci hpm hqm hp hq).2
  · rintro rfl rfl rfl
    rw [series_comm]
    exact (solidVert hf ph hc ht hli hri hci hqm hpm hq hp).1
  · rintro rfl rfl rfl
    rw [sideY_uniform hf ph hc ht hli hri hrj hci hpm hqm hp hq, par_comm, Nat.add_sub_cancel]
  · rintro rfl rfl rfl
    rw [sideY_uniform hf ph hc ht hli hri hrj hci hpm hqm hp hq, par_comm, (uniform_sym (hf.types hli)).2, (uniform_sym (hf.types hli)).2]
  · rintro rfl rfl rfl
    rw [sideX_uniform hf ph hc ht hli hri hci hcj hpm hqm hp hq, par_comm, Nat.add_sub_cancel]
  · rintro rfl rfl rfl
    rw [sideX_uniform hf ph hc ht hli hri hci hcj hpm hqm hp hq, par_comm, (uniform_sym (hf.types hli)).1, (uniform_sym (hf.types hli)).1]

omit ph in
/-- The renumbering of the cells is a bijection. -/
theorem renumber : (∀ i, i < G.cells.length → offInStack G.d (L i) (R i) (C i) < G.d.nCells) ∧
    (∀ i j, i < G.cells.length → j < G.cells.length → offInStack G.d (L i) (R i) (C i) = offInStack G.d (L j) (R j) (C j) → i = j) ∧
    (∀ k, k < G.d.nCells → ∃ i, i < G.cells.length ∧ offInStack G.d (L i) (R i) (C i) = k) := by
  have hv : ∀ i, i < G.cells.length → Valid G.g G.d (.box (L i) (R i) (C i)) := by
    intro i hi
    obtain ⟨h1, h2, h3, -⟩ := hc.is i _ (List.getElem?_eq_getElem hi)
    exact ⟨h1, h2, h3⟩
  refine ⟨?_, ?_, ?_⟩
  · intro i hi
    rw [nCells_eq hf.wf]
    exact offset_lt_size hf.wf (hv i hi)
  · intro i j hi hj h
    have e := offset_inj hf.wf (hv i hi) (hv j hj) h
    simp only [SM.Cell.box.injEq] at e
    obtain ⟨h1, h2, h3⟩ := hv j hj
    obtain ⟨k, -, hk⟩ := hc.once (L j) (R j) (C j) h1 h2 h3
    exact (hk i ⟨hi, e⟩).trans (hk j ⟨hj, rfl, rfl, rfl⟩).symm
  · intro k hk
    obtain ⟨p, hp, rfl⟩ := exists_cell hf.wf hk
    cases p with
    | spr r c =>
      obtain ⟨s', m', h, -, -⟩ := hp
      rw [ht] at h; simp at h
    | box l r c =>
      obtain ⟨i, ⟨hi, rfl, rfl, rfl⟩, -⟩ := hc.once l r c hp.1 hp.2.1 hp.2.2
      exact ⟨i, hi, rfl⟩

omit ph in
theorem sum_renumber (f : Nat → K) :
    ∑ i ∈ Finset.range G.cells.length, f (offInStack G.d (L i) (R i) (C i)) = ∑ k ∈ Finset.range G.d.nCells, f k := by
  obtain ⟨h1, h2, h3⟩ := renumber hf hc ht
  refine Finset.sum_bij (fun i _ => offInStack G.d (L i) (R i) (C i)) ?_ ?_ ?_ ?_
  · intro i hi; rw [Finset.mem_range] at hi ⊢; exact h1 i hi
  · intro i hi j hj h; rw [Finset.mem_range] at hi hj; exact h2 i j hi hj h
  · intro k hk
    rw [Finset.mem_range] at hk
    obtain ⟨i, hi, e⟩ := h3 k hk
    exact ⟨i, Finset.mem_range.mpr hi, e⟩
  · intro i _; rfl

theorem not_coolant {l c : Nat} (hl : l < G.d.nLayers) : ¬ IsCoolant G.g l c := by
  intro h
  have := hf.types hl
  rcases h with h | h | h | ⟨h, -⟩ <;> rw [h] at this <;> simp [solidish] at this

/-- Connection to the ambient. -/
theorem same_ambient (hpb : ∀ b, G.g.bottom = some b → 0 < b.htc) {l r c : Nat} {p : Cell K} (hl : l < G.d.nLayers) (hr : r < G.d.nRows)
    (hcc : c < G.d.nCols) (hpm : p ∈ G.cells) (hp : IsCell G l r c p) :
    toAmbient G p + toBottom G p = ambientTerm G.g G.d l r c ∧ heatCapacity G p = Emu.capOf G.g G.d (.box l r c) := by
  have zero : (l = 0 → G.g.bottom = none) → toBottom G p = 0 := by
    intro h
    unfold toBottom
    cases e : G.g.bottom with
    | none => rfl
    | some b =>
      simp only
      rw [if_neg]
      rw [hp.layer]
      intro h0
      rw [h h0] at e; cases e
  constructor
  · unfold toAmbient ambientTerm
    rw [ht]
    simp only
    rcases type_cases hf ht hl with ⟨h1, h0, h | h⟩ | ⟨h1, h0, hsome, h⟩ | ⟨h1, h0, h⟩
    · rw [if_neg (by rw [hp.layer]; omega), h, zero h0, add_zero]
    · rw [if_neg (by rw [hp.layer]; omega), h, zero h0, add_zero]
    · rw [if_neg (by rw [hp.layer]; omega), zero_add]
      obtain ⟨b, hbb⟩ := Option.isSome_iff_exists.mp hsome
      have hk := (ph.mat p hpm (by rw [hp.layer]; exact hl)).2.2.1
      have hh := heightAt_pos hf.wf ph.hts hl
      have hA : 0 < area p := by
        obtain ⟨q1, q2⟩ := ph.cell p hpm
        unfold area; positivity
      have e : toBottom G p = gBottom G.g G.d l r c := by
        unfold toBottom
        rw [hbb]
        simp only
        rw [if_pos (by rw [hp.layer]; exact h0), hp.layer, ← series_top hk hh (hpb b hbb) hA]
        have hH : bottomHtc G.g = b.htc := by unfold bottomHtc; rw [hbb]; rfl
        have : gBottom G.g G.d l r c =
            (2 * condZ G.g G.d l r c * bottomHtc G.g * cellLength G.d c * cellWidth G.d r) / (height G.d l * bottomHtc G.g + 2 * condZ G.g G.d l r c) := by
          unfold gBottom
          rcases h with h | h <;> rw [h]
        rw [this, hH]
        unfold area condZ
        rw [(cell_x hf ph hc hcc hcc hp hp).2.2.2, (cell_y hf ph hc hr hr hp hp).2.2.2, hp.mat]
        congr 1; ring
      rw [e]
      rcases h with h | h <;> rw [h]
    · rw [zero h0, add_zero, if_pos (by rw [hp.layer]; exact h1), ← topSeries_eq hf.laid ph ht hpm (by rw [hp.layer]; exact hl)]
      have e : topSeries G.g G.d (ownMat G p).kz p = gTop G.g G.d l r c := by
        have : topSeries G.g G.d (ownMat G p).kz p =
            (2 * condZ G.g G.d l r c * topHtc G.g * cellLength G.d c * cellWidth G.d r) / (height G.d l * topHtc G.g + 2 * condZ G.g G.d l r c) := by
          unfold topSeries
          rw [(cell_x hf ph hc hcc hcc hp hp).2.2.2, (cell_y hf ph hc hr hr hp hp).2.2.2, hp.layer, hp.mat]
          rfl
        rw [this]
        unfold gTop
        rcases h with h | h <;> rw [h]
      rw [e]
      rcases h with h | h <;> rw [h]
  · unfold heatCapacity Emu.capOf area
    rw [if_pos (by rw [hp.layer]; exact hl), (cell_x hf ph hc hcc hcc hp hp).2.2.2, (cell_y hf ph hc hr hr hp hp).2.2.2, hp.layer, hp.mat]
    simp only
    rw [(uniform_half (hf.types hl)).2.2.2.2]
    rfl

include hs hm in
/-- The diagonal: only the conductance to the bottom sink is missing. -/
theorem same_diag (hpb : ∀ b, G.g.bottom = some b → 0 < b.htc) {j : Nat} (hj : j < G.cells.length) :
    m.entry j j + toBottom G G.cells[j] =
      (fillMatrix G.g a G.d).entry (offInStack G.d (L j) (R j) (C j)) (offInStack G.d (L j) (R j) (C j)) := by
  obtain ⟨hlj, hrj, hcj, hq⟩ := hc.is j _ (List.getElem?_eq_getElem hj)
  have hqm := List.getElem_mem hj
  have h1 := colSum_base hm j hj
  obtain ⟨e1, e2⟩ := same_ambient hf ph hc ht hpb hlj hrj hcj hqm hq
  rw [cellAt_eq hj, diagBase_eq hf ph _ hqm, e2] at h1
  have h2 := col_sum hf.wf a (p := .box (L j) (R j) (C j)) ⟨hlj, hrj, hcj⟩
  simp only [offset] at h2
  have h0 : outletG G.g G.d (L j) (R j) (C j) = 0 := by
    unfold outletG; rw [if_neg (fun h => not_coolant hf ph hc ht hlj h.1)]
  rw [h0, add_zero, ← e1, ← add_assoc, ← h1, ← sum_renumber hf hc ht] at h2
  rw [← Finset.add_sum_erase _ _ (Finset.mem_range.mpr hj), ← Finset.add_sum_erase (Finset.range G.cells.length) _ (Finset.mem_range.mpr hj)] at h2
  rw [Finset.sum_congr rfl fun i hi => same_off hf ph hs hc hm ht (Finset.ne_of_mem_erase hi) (Finset.mem_range.mp (Finset.mem_of_mem_erase hi)) hj] at h2
  linarith

end

/-! ## C56 -/

section
variable {L R C : Nat → Nat} (hf : FromFile d0 rs ns G) (ph : PhysicalNU G) (hc : SameCells G L R C)
  {s : Sink K} (ht : G.g.top = some (.ambient s))
include hf ph hc ht

/-- If the cells of the non-uniform grid are those of the uniform grid, in any order, the program builds the same matrix in both
modes, up to that order, but for the conductance to the bottom sink: it is missing in the diagonal of the non-uniform matrix. Stacks
of dies and layers with a conventional top sink, with or without a bottom sink. -/
theorem C56_matrices (hpb : ∀ b, G.g.bottom = some b → 0 < b.htc) (hs : Sharp G) (hm : Assembled id G a m) :
    G.cells.length = G.d.nCells ∧
    (∀ i j, i < G.cells.length → j < G.cells.length → offInStack G.d (L i) (R i) (C i) = offInStack G.d (L j) (R j) (C j) → i = j) ∧
    ∀ (i j : Nat) q, G.cells[i]? = some q → j < G.cells.length →
      m.entry i j + (if i = j then toBottom G q else 0) =
        (fillMatrix G.g a G.d).entry (offInStack G.d (L i) (R i) (C i)) (offInStack G.d (L j) (R j) (C j)) := by
  refine ⟨?_, (renumber hf hc ht).2.1, ?_⟩
  · have := sum_renumber hf hc ht (fun _ => (1 : K))
    simpa using this
  · intro i j q hq hj
    obtain ⟨hi, rfl⟩ := List.getElem?_eq_some_iff.mp hq
    by_cases hij : i = j
    · subst hij; rw [if_pos rfl]; exact same_diag hf ph hs hc hm ht hpb hi
    · rw [if_neg hij, add_zero]; exact same_off hf ph hs hc hm ht hij hi hj

/-- Without a bottom sink the two matrices are equal. -/
theorem C56_same_matrix_partial (hb : G.g.bottom = none) (hs : Sharp G) (hm : Assembled id G a m) :
    G.cells.length = G.d.nCells ∧
    (∀ i j, i < G.cells.length → j < G.cells.length → offInStack G.d (L i) (R i) (C i) = offInStack G.d (L j) (R j) (C j) → i = j) ∧
    ∀ i j, i < G.cells.length → j < G.cells.length →
      m.entry i j = (fillMatrix G.g a G.d).entry (offInStack G.d (L i) (R i) (C i)) (offInStack G.d (L j) (R j) (C j)) := by
  obtain ⟨h1, h2, h3⟩ := C56_matrices hf ph hc ht (fun b h => by rw [hb] at h; cases h) hs hm
  refine ⟨h1, h2, fun i j hi hj => ?_⟩
  rw [← h3 i j _ (List.getElem?_eq_getElem hi) hj]
  have : toBottom G G.cells[i] = 0 := by unfold toBottom; rw [hb]
  rw [this, ite_self, add_zero]

/-- With a bottom sink they never are: the diagonal of every cell of the lowest layer is smaller than in the uniform grid. -/
theorem C56_bottom_sink_violated {b : Sink K} (hb : G.g.bottom = some b) (hpos : 0 < b.htc) (hs : Sharp G) (hm : Assembled id G a m) :
    (∃ (i : Nat) (q : Cell K), G.cells[i]? = some q ∧ q.layer = 0) ∧
    ∀ (i : Nat) (q : Cell K), G.cells[i]? = some q → q.layer = 0 →
      m.entry i i < (fillMatrix G.g a G.d).entry (offInStack G.d (L i) (R i) (C i)) (offInStack G.d (L i) (R i) (C i)) := by
  obtain ⟨-, -, h3⟩ := C56_matrices hf ph hc ht (fun b' h => by rw [hb] at h; cases h; exact hpos) hs hm
  constructor
  · obtain ⟨i, ⟨hi, h0, -⟩, -⟩ := hc.once 0 0 0 hf.wf.L1 hf.wf.sized.rows.1 hf.wf.sized.cols.1
    obtain ⟨-, -, -, q⟩ := hc.is i _ (List.getElem?_eq_getElem hi)
    exact ⟨i, _, List.getElem?_eq_getElem hi, by rw [q.layer]; exact h0⟩
  · intro i q hq hl
    have hqm := List.mem_of_getElem? hq
    rw [← h3 i i q hq (List.getElem?_eq_some_iff.mp hq).1, if_pos rfl]
    have hk := (ph.mat q hqm (by rw [hl]; exact hf.wf.L1)).2.2.1
    have hh := heightAt_pos hf.wf ph.hts hf.wf.L1
    have hA : 0 < area q := by
      obtain ⟨q1, q2⟩ := ph.cell q hqm
      unfold area; positivity
    have : 0 < toBottom G q := by
      unfold toBottom
      rw [hb]
      simp only
      rw [if_pos hl, hl, ← series_top hk hh hpos hA]
      positivity
    linarith

end

end Verif.NU
