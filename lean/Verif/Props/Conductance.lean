import Verif.Props.SystemMatrix

set_option linter.unusedSectionVars false
set_option linter.unusedSimpArgs false
set_option linter.unusedVariables false

/-! # C43: material of a cell; C48: conductances between solid cells -/

namespace Verif.SM
open Verif.Dim Verif.TG Verif.Stk

variable {K φ : Type} [Field K] [LinearOrder K] [IsStrictOrderedRing K]

/-! ## C43 -/

/-- The point (x, y) is in the rectangle: left and lower borders included, right and upper borders excluded. -/
def InRect (e : Rect K) (x y : K) : Prop := e.x ≤ x ∧ x < e.x + e.length ∧ e.y ≤ y ∧ y < e.y + e.width

/-- The material at a point of a layer: the one of the first layout entry with an area that contains the point, the layer's own
material if no area does. -/
def MaterialAt (ly : Layer K) (x y : K) (m : Material K) : Prop :=
  (∃ before areas after, ly.layout = before ++ (m, areas) :: after ∧ (∃ e ∈ areas, InRect e x y) ∧
    ∀ p ∈ before, ∀ e ∈ p.2, ¬ InRect e x y) ∨
  (m = ly.mat ∧ ∀ p ∈ ly.layout, ∀ e ∈ p.2, ¬ InRect e x y)

theorem hasCenter_iff (e : Rect K) (x y : K) : hasCenter e x y = true ↔ InRect e x y := by
  unfold hasCenter InRect
  rw [decide_eq_true_eq]
  constructor
  · rintro ⟨a, b, c, d⟩; exact ⟨a, c, b, d⟩
  · rintro ⟨a, c, b, d⟩; exact ⟨a, b, c, d⟩

theorem materialAt_cell (ly : Layer K) (d : Dims K) (r c : Nat) :
    MaterialAt ly (centerX d c) (centerY d r) (cellMaterial ly d r c) := by
  unfold MaterialAt cellMaterial
  cases h : ly.layout.findSome? fun m => materialAt m d r c with
  | none =>
    right
    refine ⟨rfl, fun p hp e he hin => ?_⟩
    have := List.findSome?_eq_none_iff.mp h p hp
    unfold materialAt at this
    rw [if_pos (List.any_eq_true.mpr ⟨e, he, (hasCenter_iff e _ _).mpr hin⟩)] at this
    cases this
  | some m =>
    left
    obtain ⟨l1, a, l2, h1, h2, h3⟩ := List.findSome?_eq_some_iff.mp h
    unfold materialAt at h2
    split at h2
    · rename_i hany
      obtain ⟨e, he, hin⟩ := List.any_eq_true.mp hany
      simp only [Option.some.injEq] at h2
      refine ⟨l1, a.2, l2, ?_, ⟨e, he, (hasCenter_iff _ _ _).mp hin⟩, fun p hp e he hin => ?_⟩
      · rw [h1]; simp [← h2]
      · have := h3 p hp
        unfold materialAt at this
        rw [if_pos (List.any_eq_true.mpr ⟨e, he, (hasCenter_iff e _ _).mpr hin⟩)] at this
        cases this
    · cases h2

/-- The specification determines the conductivities and the heat capacity: two materials at the same point are equal. -/
theorem MaterialAt.unique {ly : Layer K} {x y : K} {m m' : Material K} (h : MaterialAt ly x y m) (h' : MaterialAt ly x y m') : m = m' := by
  rcases h with ⟨b, ar, af, e, ⟨q, hq, hin⟩, hb⟩ | ⟨rfl, hn⟩ <;> rcases h' with ⟨b', ar', af', e', ⟨q', hq', hin'⟩, hb'⟩ | ⟨rfl, hn'⟩
  · rw [e] at e'
    rcases List.append_eq_append_iff.mp e' with ⟨as, h1, h2⟩ | ⟨bs, h1, h2⟩
    · cases as with
      | nil => simp at h2; exact h2.1.1
      | cons z zs =>
        simp at h2
        exact absurd hin (hb' (m, ar) (by rw [h1, ← h2.1]; simp) q hq)
    · cases bs with
      | nil => simp at h2; exact h2.1.1.symm
      | cons z zs =>
        simp at h2
        exact absurd hin' (hb (m', ar') (by rw [h1, ← h2.1]; simp) q' hq')
  · exact absurd hin (hn' (m, ar) (by rw [e]; simp) q hq)
  · exact absurd hin' (hn (m', ar') (by rw [e']; simp) q' hq')
  · rfl

/-- **C43** The conductivities (x, y, z) and the heat capacity of a cell are those of the first layout area that contains the
middle of the cell, and those of the layer's own material if no area does. Not for grids with exactly two columns, see
`C43_two_columns_violated`. -/
theorem C43_material_of_cell_partial [FloorSemiring K] {chipL chipW cellL cellW : K} {ch : Option (FourRM K)} {d : Dims K}
    (h : parseDimensions chipL chipW cellL cellW ch = .ok d) (hp : PosGeom chipL chipW cellL cellW ch) (hs : Sized d)
    (h2 : d.nCols ≠ 2) (g : TGrid K) (l r c : Nat) (hr : r < d.nRows) (hc : c < d.nCols) :
    ∃ m, MaterialAt (layerAt g l) (locX d c + cellLength d c / 2) (locY d r + cellWidth d r / 2) m ∧
      condX g d l r c = m.kx ∧ condY g d l r c = m.ky ∧ condZ g d l r c = m.kz ∧ heatCap g d l r c = m.vhc := by
  obtain ⟨h3, h4⟩ := C13_centers h hp hs h2
  refine ⟨cellMaterial (layerAt g l) d r c, ?_, rfl, rfl, rfl, rfl⟩
  rw [← h3 c hc, ← h4 r hr]
  exact materialAt_cell _ d r c

/-- **C43 violated** With exactly two columns the centre of the second column is computed wrongly (C13): an area that covers the
whole second column, hence the middle of its cells, is not found there. -/
theorem C43_two_columns_violated :
    ∃ (d : Dims ℚ) (g : TGrid ℚ) (m : Material ℚ), parseDimensions (20 : ℚ) 20 10 10 none = .ok d ∧ 0 < d.nRows ∧ 1 < d.nCols ∧
      MaterialAt (layerAt g 0) (locX d 1 + cellLength d 1 / 2) (locY d 0 + cellWidth d 0 / 2) m ∧ heatCap g d 0 0 1 ≠ m.vhc := by
  have h5 : ⌊(20 : ℚ) / 10⌋₊ = 2 := by rw [show (20 : ℚ) / 10 = ((2 : Nat) : ℚ) by norm_num, Nat.floor_natCast]
  refine ⟨_, ⟨1, [.source], [⟨5, ⟨1, 1, 1, 1⟩, [(⟨2, 2, 2, 2⟩, [⟨10, 0, 10, 20⟩])]⟩], none, none, none⟩, ⟨2, 2, 2, 2⟩, rfl, ?_, ?_, ?_, ?_⟩
  · show 0 < ⌊(20 : ℚ) / 10⌋₊; omega
  · show 1 < ⌊(20 : ℚ) / 10⌋₊; omega
  · left
    refine ⟨[], [⟨10, 0, 10, 20⟩], [], rfl, ⟨_, List.mem_singleton.mpr rfl, ?_⟩, by simp⟩
    simp only [InRect, locX, cellLength, lastColumn, locY, cellWidth, lastRow, h5, sub32, W]; norm_num
  · simp only [heatCap, layerAt, List.getD_cons_zero, cellMaterial, materialAt, List.any_cons, List.any_nil, hasCenter, List.findSome?_cons,
      List.findSome?_nil, centerX, lastColumn, h5, sub32, W]
    norm_num

/-- Non-vacuity of C43: a layer with two overlapping areas; the first one wins. -/
example : MaterialAt (⟨5, ⟨1, 1, 1, 1⟩, [(⟨2, 2, 2, 2⟩, [⟨0, 0, 10, 10⟩]), (⟨3, 3, 3, 3⟩, [⟨5, 0, 10, 10⟩])]⟩ : Layer ℚ) 7 5 ⟨2, 2, 2, 2⟩ :=
  Or.inl ⟨[], _, _, rfl, ⟨_, List.mem_singleton.mpr rfl, by unfold InRect; norm_num⟩, by simp⟩

/-! ## C48 -/

/-- Two conductances one after the other. -/
def series (x y : K) : K := 1 / (1 / x + 1 / y)

theorem par_series {x y : K} (hx : 0 < x) (hy : 0 < y) : par x y = series x y := by
  unfold par series
  have := hx.ne'; have := hy.ne'
  have : x + y ≠ 0 := by positivity
  field_simp
  ring

/-- A series combination of two positive conductances is positive and smaller than each of them. -/
theorem series_lt {x y : K} (hx : 0 < x) (hy : 0 < y) : 0 < series x y ∧ series x y < x ∧ series x y < y := by
  rw [← par_series hx hy]
  unfold par
  have h := add_pos hx hy
  refine ⟨by positivity, ?_, ?_⟩
  · rw [div_lt_iff₀ h]; nlinarith
  · rw [div_lt_iff₀ h]; nlinarith

/-- Conductance of half a cell: conductivity × area / half the size, along x, y, z. -/
def halfX (g : TGrid K) (d : Dims K) (l r c : Nat) : K := condX g d l r c * (cellWidth d r * height d l) / (cellLength d c / 2)
def halfY (g : TGrid K) (d : Dims K) (l r c : Nat) : K := condY g d l r c * (cellLength d c * height d l) / (cellWidth d r / 2)
def halfZ (g : TGrid K) (d : Dims K) (l r c : Nat) : K := condZ g d l r c * (cellLength d c * cellWidth d r) / (height d l / 2)

section
variable {g : TGrid K} {d : Dims K} (wf : WF g d) (ph : Physical g d)
include wf ph

theorem half_pos {l r c : Nat} (hl : l < d.nLayers) (hr : r < d.nRows) (hc : c < d.nCols) :
    0 < halfX g d l r c ∧ 0 < halfY g d l r c ∧ 0 < halfZ g d l r c := by
  have h1 := len_pos wf ph hc
  have h2 := wid_pos wf ph hr
  have h3 := height_pos wf ph hl
  have k1 := condX_pos wf ph hl r c
  have k2 := condY_pos wf ph hl r c
  have k3 := condZ_pos wf ph hl r c
  unfold halfX halfY halfZ
  exact ⟨by positivity, by positivity, by positivity⟩

theorem entry_of_ent (a : Ana K) {q : Cell} (hq : Valid g d q) {e : Ent K} (he : e ∈ loOf g d q ++ hiOf g d q) :
    (fillMatrix g a d).entry (offset d (spreaderOf g) e.cell) (offset d (spreaderOf g) q) = e.val := by
  have hv := ent_valid wf hq he
  have h := congrFun (congrFun (matrix_eq wf a) ⟨_, offset_lt_size wf hv⟩) ⟨_, offset_lt_size wf hq⟩
  simp only [matrix] at h
  rw [h]
  have hm : (rowOf g d ⟨_, offset_lt_size wf hq⟩ e.cell, e.val, e.contrib) ∈ (netw g a d).ents ⟨_, offset_lt_size wf hq⟩ := by
    refine List.mem_map.mpr ⟨e, ?_, rfl⟩
    simp only [cellAt_offset wf hq]; exact he
  have := Net2.mat_entry (netw_ok wf ph a) hm
  rw [show rowOf g d ⟨_, offset_lt_size wf hq⟩ e.cell = (⟨_, offset_lt_size wf hv⟩ : Fin (size g d)) from
    Fin.ext (rowOf_val wf _ hv)] at this
  exact this

end

theorem kind_of_solid {t : LType} (h : solidish t = true) (c : Nat) : kindOf t c = .solid := by
  revert h; cases t <;> simp [solidish, kindOf]

/-- **C48** Heat capacity of a cell of a solid layer: volume times volumetric heat capacity, positive. -/
theorem C48_capacity {g : TGrid K} {d : Dims K} (hb : Built φ g d) (hp : Physical g d) {l r c : Nat} (hl : l < d.nLayers)
    (hr : r < d.nRows) (hc : c < d.nCols) (hs : solidish (typeAt g l) = true) :
    capacity g d l r c = heatCap g d l r c * (cellLength d c * cellWidth d r * height d l) ∧ 0 < capacity g d l r c := by
  refine ⟨?_, (solid_pos (wf_of_built hb) hp hl hr hc hs).1⟩
  unfold capacity
  revert hs; cases typeAt g l <;> simp [solidish] <;> ring

/-- **C48** Side neighbours in a solid layer are coupled by the series combination of their half-cell conductances, along x and
along y: positive and smaller than each of them. -/
theorem C48_lateral_series {g : TGrid K} {d : Dims K} (hb : Built φ g d) (hp : Physical g d) (a : Ana K) {l r c : Nat}
    (hl : l < d.nLayers) (hr : r < d.nRows) (hc : c < d.nCols) (hs : solidish (typeAt g l) = true) :
    (c + 1 < d.nCols →
      (fillMatrix g a d).entry (offInStack d l r (c + 1)) (offInStack d l r c) = - series (halfX g d l r c) (halfX g d l r (c + 1)) ∧
      0 < series (halfX g d l r c) (halfX g d l r (c + 1)) ∧
      series (halfX g d l r c) (halfX g d l r (c + 1)) < halfX g d l r c ∧
      series (halfX g d l r c) (halfX g d l r (c + 1)) < halfX g d l r (c + 1)) ∧
    (r + 1 < d.nRows →
      (fillMatrix g a d).entry (offInStack d l (r + 1) c) (offInStack d l r c) = - series (halfY g d l r c) (halfY g d l (r + 1) c) ∧
      0 < series (halfY g d l r c) (halfY g d l (r + 1) c) ∧
      series (halfY g d l r c) (halfY g d l (r + 1) c) < halfY g d l r c ∧
      series (halfY g d l r c) (halfY g d l (r + 1) c) < halfY g d l (r + 1) c) := by
  have wf := wf_of_built hb
  have hk := kind_of_solid hs c
  have hv : Valid g d (.box l r c) := ⟨hl, hr, hc⟩
  constructor
  · intro hc'
    obtain ⟨p1, -, -⟩ := half_pos wf hp hl hr hc
    obtain ⟨p2, -, -⟩ := half_pos wf hp hl hr hc'
    refine ⟨?_, series_lt p1 p2⟩
    have e1 : gEast g d l r c = halfX g d l r c := by
      unfold gEast halfX; revert hs; cases typeAt g l <;> simp [solidish] <;> ring
    have e2 : gWest g d l r (c + 1) = halfX g d l r (c + 1) := by
      unfold gWest halfX; revert hs; cases typeAt g l <;> simp [solidish] <;> ring
    have := entry_of_ent wf hp a hv (e := link (.box l r (c + 1)) (par (gEast g d l r c) (gWest g d l r (c + 1)))) (by
      have : c ≠ lastColumn d := by rw [wf.lastColumn]; omega
      simp [hiOf, hk, solidHi, mem_opt, this])
    rw [e1, e2, par_series p1 p2] at this
    exact this
  · intro hr'
    obtain ⟨-, p1, -⟩ := half_pos wf hp hl hr hc
    obtain ⟨-, p2, -⟩ := half_pos wf hp hl hr' hc
    refine ⟨?_, series_lt p1 p2⟩
    have e1 : gNorth g d l r c = halfY g d l r c := by
      unfold gNorth halfY; revert hs; cases typeAt g l <;> simp [solidish] <;> ring
    have e2 : gSouth g d l (r + 1) c = halfY g d l (r + 1) c := by
      unfold gSouth halfY; revert hs; cases typeAt g l <;> simp [solidish] <;> ring
    have := entry_of_ent wf hp a hv (e := link (.box l (r + 1) c) (par (gNorth g d l r c) (gSouth g d l (r + 1) c))) (by
      have : r ≠ lastRow d := by rw [wf.lastRow]; omega
      simp [hiOf, hk, solidHi, mem_opt, this])
    rw [e1, e2, par_series p1 p2] at this
    exact this

/-- The bottommost layer is attached to a sink. -/
def bottomSunk (g : TGrid K) : Prop := typeAt g 0 = .solidPcb ∨ typeAt g 0 = .sourcePcb
/-- The topmost layer is attached to a sink. -/
def topSunk (g : TGrid K) (d : Dims K) : Prop :=
  typeAt g (d.nLayers - 1) = .solidAmb ∨ typeAt g (d.nLayers - 1) = .sourceAmb ∨ isSpr (typeAt g (d.nLayers - 1)) = true

/-- Conductance used by the code from the middle of a cell of layer `l` to the layer above (`up`) or below. -/
def towards (g : TGrid K) (d : Dims K) (outer : Prop) [Decidable outer] (l r c : Nat) : K :=
  if outer then halfZ g d l r c / 2 else halfZ g d l r c

open Classical in
/-- Conductance of a solid cell towards the layer above. -/
theorem top_towards {g : TGrid K} {d : Dims K} (wf : WF g d) {l r c : Nat} (hl : l + 1 < d.nLayers) (hs : solidish (typeAt g l) = true) :
    gTop g d l r c = towards g d (l = 0 ∧ ¬ bottomSunk g) l r c := by
  have hll : l < d.nLayers := by omega
  have hla := wf.lastLayer
  have hna : ¬ (typeAt g l = .solidAmb ∨ typeAt g l = .sourceAmb) := fun hx => by have := (wf.amb l hll hx).1; omega
  have hns : ¬ isSpr (typeAt g l) = true := fun hx => by have := ((wf.spr l hll).mp hx).1; omega
  have hpc : (typeAt g l = .solidPcb ∨ typeAt g l = .sourcePcb) → l = 0 ∧ bottomSunk g := fun hx => by
    have := (wf.pcb l hll hx).1; subst this; exact ⟨rfl, hx⟩
  have hnl : l ≠ lastLayer d := by omega
  have hb0 : ∀ t, typeAt g l = t → (t = .solid ∨ t = .source) → l = 0 → ¬ bottomSunk g := by
    rintro t ht hx rfl hbs; unfold bottomSunk at hbs; rw [ht] at hbs
    rcases hx with rfl | rfl <;> simp at hbs
  unfold gTop towards halfZ
  generalize ht : typeAt g l = t at *
  cases t <;> simp [solidish, isSpr] at hs hna hns hpc ⊢
  · rw [if_neg hnl]
    by_cases h0 : l = 0
    · rw [if_pos h0, if_pos ⟨h0, hb0 _ rfl (Or.inl rfl) h0⟩]; ring
    · rw [if_neg h0, if_neg (fun hx => h0 hx.1)]; ring
  · rw [if_neg hnl]
    by_cases h0 : l = 0
    · rw [if_pos h0, if_pos ⟨h0, hb0 _ rfl (Or.inr rfl) h0⟩]; ring
    · rw [if_neg h0, if_neg (fun hx => h0 hx.1)]; ring
  · rw [if_neg (fun hx => hx.2 hpc.2)]; ring
  · rw [if_neg (fun hx => hx.2 hpc.2)]; ring

open Classical in
/-- Conductance of a solid cell towards the layer below. -/
theorem bottom_towards {g : TGrid K} {d : Dims K} (wf : WF g d) {l r c : Nat} (hl : l + 1 < d.nLayers) (hs' : solidish (typeAt g (l + 1)) = true) :
    gBottom g d (l + 1) r c = towards g d (l + 1 = d.nLayers - 1 ∧ ¬ topSunk g d) (l + 1) r c := by
  have hla := wf.lastLayer
  have hpc : ¬ (typeAt g (l + 1) = .solidPcb ∨ typeAt g (l + 1) = .sourcePcb) := fun hx => by
    have := (wf.pcb (l + 1) hl hx).1; omega
  have ham : (typeAt g (l + 1) = .solidAmb ∨ typeAt g (l + 1) = .sourceAmb) → topSunk g d := fun hx => by
    have := (wf.amb (l + 1) hl hx).1; unfold topSunk; rw [← this]; tauto
  have hsp : isSpr (typeAt g (l + 1)) = true → topSunk g d := fun hx => by
    have := ((wf.spr (l + 1) hl).mp hx).1; unfold topSunk; rw [← this]; exact Or.inr (Or.inr hx)
  have hb0 : ∀ t, typeAt g (l + 1) = t → (t = .solid ∨ t = .source) → l + 1 = d.nLayers - 1 → ¬ topSunk g d := by
    rintro t ht hx hl' hbs; unfold topSunk at hbs; rw [← hl', ht] at hbs
    rcases hx with rfl | rfl <;> simp [isSpr] at hbs
  unfold gBottom towards halfZ
  generalize ht : typeAt g (l + 1) = t at *
  cases t <;> simp [solidish, isSpr] at hs' hpc ham hsp ⊢
  · by_cases h0 : l + 1 = lastLayer d
    · rw [if_pos h0, if_pos ⟨by omega, hb0 _ rfl (Or.inl rfl) (by omega)⟩]; ring
    · rw [if_neg h0, if_neg (fun hx => h0 (by omega))]; ring
  · by_cases h0 : l + 1 = lastLayer d
    · rw [if_pos h0, if_pos ⟨by omega, hb0 _ rfl (Or.inr rfl) (by omega)⟩]; ring
    · rw [if_neg h0, if_neg (fun hx => h0 (by omega))]; ring
  · rw [if_neg (fun hx => hx.2 ham)]; ring
  · rw [if_neg (fun hx => hx.2 ham)]; ring
  · rw [if_neg (fun hx => hx.2 hsp)]; ring
  · rw [if_neg (fun hx => hx.2 hsp)]; ring

open Classical in
/-- **C48 (partial)** Vertical neighbours in two solid layers are coupled by the series combination of one conductance of the
lower cell and one of the upper cell, positive and smaller than each of them. These are the half-cell conductances, except in
an outermost layer without a sink, where the full height of the layer is used (half the conductance). Missing from the full
statement: the half-cell conductance in such layers (`C48_outermost_layer_violated`). -/
theorem C48_vertical_series_partial {g : TGrid K} {d : Dims K} (hb : Built φ g d) (hp : Physical g d) (a : Ana K) {l r c : Nat}
    (hl : l + 1 < d.nLayers) (hr : r < d.nRows) (hc : c < d.nCols) (hs : solidish (typeAt g l) = true)
    (hs' : solidish (typeAt g (l + 1)) = true) :
    ∃ lower upper : K,
      lower = towards g d (l = 0 ∧ ¬ bottomSunk g) l r c ∧
      upper = towards g d (l + 1 = d.nLayers - 1 ∧ ¬ topSunk g d) (l + 1) r c ∧
      (fillMatrix g a d).entry (offInStack d (l + 1) r c) (offInStack d l r c) = - series lower upper ∧
      0 < series lower upper ∧ series lower upper < lower ∧ series lower upper < upper := by
  have wf := wf_of_built hb
  have hll : l < d.nLayers := by omega
  have hk := kind_of_solid hs c
  have hk' := kind_of_solid hs' c
  have hv : Valid g d (.box l r c) := ⟨hll, hr, hc⟩
  have hla := wf.lastLayer
  refine ⟨_, _, rfl, rfl, ?_⟩
  have p1 := up_pos wf hp hl hr hc (Or.inl hk)
  have p2 := down_pos wf hp hl hr hc (Or.inl hk')
  have e1 := top_towards wf (r := r) (c := c) hl hs
  have e2 := bottom_towards wf (r := r) (c := c) hl hs'
  rw [← e1, ← e2]
  refine ⟨?_, series_lt p1 p2⟩
  have := entry_of_ent wf hp a hv (e := link (.box (l + 1) r c) (solidTop g d l r c)) (by
    have : l ≠ lastLayer d := by omega
    simp [hiOf, hk, solidHi, mem_opt, this])
  rw [(vertical_eq wf hp hl hr hc (Or.inl hk) (Or.inl hk')).1, par_series p1 p2] at this
  exact this

/-- **C48 violated** In a stack with no sink at the bottom, the coupling of the two lowest layers is not the series combination of
their half-cell conductances: it is smaller. -/
theorem C48_outermost_layer_violated {g : TGrid K} {d : Dims K} (hb : Built φ g d) (hp : Physical g d) (a : Ana K) {r c : Nat}
    (hl : 1 < d.nLayers) (hr : r < d.nRows) (hc : c < d.nCols) (hs : solidish (typeAt g 1) = true) (hn : ¬ bottomSunk g) :
    - (fillMatrix g a d).entry (offInStack d 1 r c) (offInStack d 0 r c) < series (halfZ g d 0 r c) (halfZ g d 1 r c) := by
  classical
  have wf := wf_of_built hb
  obtain ⟨lo, up, h1, h2, h3, h4, h5, h6⟩ := C48_vertical_series_partial hb hp a (l := 0) hl hr hc wf.first hs
  rw [h3, neg_neg]
  have p1 := (half_pos wf hp (by omega : 0 < d.nLayers) hr hc).2.2
  have p2 := (half_pos wf hp (by omega : 1 < d.nLayers) hr hc).2.2
  have elo : lo = halfZ g d 0 r c / 2 := by rw [h1, towards, if_pos ⟨rfl, hn⟩]
  have q1 : 0 < lo := by rw [elo]; positivity
  have q2 : 0 < up := by rw [h2, towards]; simp only [zero_add]; split <;> positivity
  have hup : up ≤ halfZ g d 1 r c := by
    rw [h2, towards]; simp only [zero_add]; split
    · linarith
    · exact le_refl _
  have hlo : lo < halfZ g d 0 r c := by rw [elo]; linarith
  unfold series
  refine one_div_lt_one_div_of_lt (by positivity) (add_lt_add_of_lt_of_le ?_ ?_)
  · exact one_div_lt_one_div_of_lt q1 hlo
  · exact one_div_le_one_div_of_le q2 hup

/-- **C48** The coupling of a cell of an outermost layer to the ambient (which is what its row sums exceed the storage by, C23): series
combination of the half-cell conductance and of the heat transfer coefficient times the area. -/
theorem C48_sink_series {g : TGrid K} {d : Dims K} (hb : Built φ g d) (hp : Physical g d) {r c : Nat} (hr : r < d.nRows)
    (hc : c < d.nCols) :
    (∀ s, (typeAt g (d.nLayers - 1) = .solidAmb ∨ typeAt g (d.nLayers - 1) = .sourceAmb) → g.top = some (.ambient s) →
      ambientTerm g d (d.nLayers - 1) r c = series (halfZ g d (d.nLayers - 1) r c) (s.htc * (cellLength d c * cellWidth d r))) ∧
    (∀ s, bottomSunk g → g.bottom = some s →
      ambientTerm g d 0 r c = series (halfZ g d 0 r c) (s.htc * (cellLength d c * cellWidth d r))) := by
  have wf := wf_of_built hb
  have hL := wf.L1
  have h1 := len_pos wf hp hc
  have h2 := wid_pos wf hp hr
  constructor
  · intro s ht hs
    have h3 := height_pos wf hp (show d.nLayers - 1 < d.nLayers by omega)
    have k3 := condZ_pos wf hp (show d.nLayers - 1 < d.nLayers by omega) r c
    have hh := hp.top s hs
    have : ambientTerm g d (d.nLayers - 1) r c = (2 * condZ g d (d.nLayers - 1) r c * s.htc * cellLength d c * cellWidth d r) /
        (height d (d.nLayers - 1) * s.htc + 2 * condZ g d (d.nLayers - 1) r c) := by
      unfold ambientTerm gTop topHtc
      rcases ht with ht | ht <;> rw [ht, hs]
    rw [this]
    unfold series halfZ
    have : height d (d.nLayers - 1) * s.htc + 2 * condZ g d (d.nLayers - 1) r c ≠ 0 := by positivity
    field_simp
  · intro s ht hs
    have h3 := height_pos wf hp (show 0 < d.nLayers by omega)
    have k3 := condZ_pos wf hp (show 0 < d.nLayers by omega) r c
    have hh := hp.bot s hs
    have : ambientTerm g d 0 r c = (2 * condZ g d 0 r c * s.htc * cellLength d c * cellWidth d r) /
        (height d 0 * s.htc + 2 * condZ g d 0 r c) := by
      unfold ambientTerm gBottom bottomHtc
      rcases ht with ht | ht <;> rw [ht, hs] <;> rfl
    rw [this]
    unfold series halfZ
    have : height d 0 * s.htc + 2 * condZ g d 0 r c ≠ 0 := by positivity
    field_simp

/-- Non-vacuity: the two layers of the example stack. -/
example (a : Ana ℚ) : ∃ lower upper : ℚ, (fillMatrix exSolidG a exSolidD).entry (offInStack exSolidD 1 1 2) (offInStack exSolidD 0 1 2) =
    - series lower upper ∧ 0 < series lower upper := by
  obtain ⟨lo, up, -, -, h, h', -⟩ := C48_vertical_series_partial exSolidBuilt exSolidPhysical a (l := 0) (r := 1) (c := 2) (by decide) (by decide)
    (by decide) rfl rfl
  exact ⟨lo, up, h, h'⟩
example (a : Ana ℚ) := (C48_lateral_series exSolidBuilt exSolidPhysical a (l := 0) (r := 0) (c := 2) (by decide) (by decide) (by decide) rfl).1 (by decide)
example := (C48_sink_series exSolidBuilt exSolidPhysical (r := 0) (c := 2) (by decide) (by decide)).2 ⟨2, 300⟩ (Or.inr rfl) rfl

end Verif.SM
