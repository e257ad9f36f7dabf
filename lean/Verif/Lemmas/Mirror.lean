import Verif.Lemmas.Conductance

set_option linter.unusedSectionVars false
set_option linter.unusedSimpArgs false
set_option linter.unusedVariables false

/-! Every coefficient of a column has its counterpart in the column of the other cell. -/

namespace Verif.SM
open Verif.Dim Verif.TG Verif.Stk

variable {K : Type} [Field K] [LinearOrder K] [IsStrictOrderedRing K]

/-- Cells of the grid. -/
def Valid (g : TGrid K) (d : Dims K) : Cell → Prop
  | .box l r c => l < d.nLayers ∧ r < d.nRows ∧ c < d.nCols
  | .spr r c => ∃ s m, g.top = some (.pluggable s m) ∧ r < s.nRows ∧ c < s.nCols

/-- Kind of column of a cell of a layer. -/
inductive Kind where
  | solid | liquid4 | liquid2 | vwall | top | bottom | none
deriving DecidableEq

def kindOf (t : LType) (c : Nat) : Kind :=
  match t with
  | .solid | .source | .solidAmb | .sourceAmb | .solidSpr | .sourceSpr | .solidPcb | .sourcePcb => .solid
  | .ch4rm => if isChannelCol c then .liquid4 else .solid
  | .ch2rm | .pfInline | .pfStag => .liquid2
  | .vwallCh | .vwallPf => .vwall
  | .topWall => .top
  | .bottomWall => .bottom
  | .none => .none

def loOf (g : TGrid K) (d : Dims K) : Cell → List (Ent K)
  | .box l r c =>
    match kindOf (typeAt g l) c with
    | .solid => solidLo g d l r c
    | .liquid4 => liquid4Lo g d l r c
    | .liquid2 => liquid2Lo g d l r c
    | .vwall => vwallLo g d l r c
    | .top => topWallLo g d l r c
    | .bottom => bottomWallLo g d l r c
    | .none => []
  | .spr r c => match g.top with
    | some (.pluggable s m) => sprLo g d s m r c
    | _ => []

def hiOf (g : TGrid K) (d : Dims K) : Cell → List (Ent K)
  | .box l r c =>
    match kindOf (typeAt g l) c with
    | .solid => solidHi g d l r c
    | .liquid4 => liquid4Hi g d l r c
    | .liquid2 => liquid2Hi g d l r c
    | .vwall => vwallHi g d l r c
    | .top => topWallHi g d l r c
    | .bottom => bottomWallHi g d l r c
    | .none => []
  | .spr r c => match g.top with
    | some (.pluggable s m) => sprHi s m r c
    | _ => []

/-- Storage, ambient and port terms of a diagonal. -/
def baseOf (g : TGrid K) (a : Ana K) (d : Dims K) : Cell → K
  | .box l r c =>
    match kindOf (typeAt g l) c with
    | .solid => storage a (capacity g d l r c) + ambientTerm g d l r c
    | .liquid4 | .liquid2 => storage a (capacity g d l r c) + portTerm g d l r c
    | _ => storage a (capacity g d l r c)
  | .spr r c => match g.top with
    | some (.pluggable s m) => storage a (sprCapacity s m)
    | _ => 0

/-- The column of a cell. -/
def columnOf (g : TGrid K) (a : Ana K) (d : Dims K) : Cell → List (Cell × K)
  | .box l r c => boxColumn g a d l r c
  | .spr r c => match g.top with
    | some (.pluggable s m) => spreaderColumn g a d s m r c
    | _ => []

/-- Two entries that are each other's counterpart. -/
def Mir (e e' : Ent K) : Prop := e'.contrib = e.contrib ∧ e'.val + e'.contrib = -(e.val + e.contrib)

theorem mir_link (p q : Cell) {x y : K} (h : y = x) : Mir (link p x) (link q y) := by
  subst h; simp [Mir, link]

theorem mir_flow (p q : Cell) {x y : K} (h : y = -x) : Mir (flow p x) (flow q y) := by
  subst h; simp [Mir, flow]

theorem mem_opt {b : Prop} [Decidable b] {e x : Ent K} : e ∈ opt b x ↔ b ∧ e = x := by
  unfold opt; split <;> simp_all

section
variable {g : TGrid K} {d : Dims K} (wf : WF g d) (ph : Physical g d)
include wf ph

omit ph in
theorem column_eq (a : Ana K) {p : Cell} (hp : Valid g d p) :
    columnOf g a d p = assemble p (baseOf g a d p) (loOf g d p) (hiOf g d p) := by
  cases p with
  | spr r c =>
    obtain ⟨s, m, ht, -, -⟩ := hp
    simp only [columnOf, baseOf, loOf, hiOf, ht, spreaderColumn]
  | box l r c =>
    have hnn : typeAt g l ≠ .none := by
      intro hx
      by_cases h0 : l + 1 < d.nLayers
      · have := wf.chain l h0; rw [hx] at this; simp [adj, solidish] at this
      · have := wf.last; rw [show d.nLayers - 1 = l by have := hp.1; omega, hx] at this; simp [solidish] at this
    have h4 : typeAt g l = .ch4rm → chModel g = .mc4rm := by
      intro h; have := wf.mdl l hp.1; rw [h] at this; exact this
    simp only [columnOf, boxColumn, baseOf, loOf, hiOf]
    revert hnn h4
    cases typeAt g l <;> simp [kindOf, solidColumn, liquid4Column, liquid2Column, vwallColumn, topWallColumn, bottomWallColumn]
    intro h; simp only [h, if_true]
    cases isChannelCol c <;> rfl

omit ph in
theorem kind_solid_cases {t : LType} {c : Nat} (h : kindOf t c = .solid) :
    solidish t = true ∨ (t = .ch4rm ∧ isChannelCol c = false) := by
  revert h; cases t <;> simp [kindOf, solidish]

omit ph in
theorem kind_liquid4 {t : LType} {c : Nat} (h : kindOf t c = .liquid4) : t = .ch4rm ∧ isChannelCol c = true := by
  revert h; cases t <;> simp [kindOf]

omit ph in
theorem kind_liquid2 {t : LType} {c : Nat} (h : kindOf t c = .liquid2) : t = .ch2rm ∨ t = .pfInline ∨ t = .pfStag := by
  revert h; cases t <;> simp [kindOf] <;> split <;> simp

omit ph in
theorem kind_vwall {t : LType} {c : Nat} (h : kindOf t c = .vwall) : t = .vwallCh ∨ t = .vwallPf := by
  revert h; cases t <;> simp [kindOf] <;> split <;> simp

omit ph in
theorem kind_top {t : LType} {c : Nat} (h : kindOf t c = .top) : t = .topWall := by
  revert h; cases t <;> simp [kindOf] <;> split <;> simp

omit ph in
theorem kind_bottom {t : LType} {c : Nat} (h : kindOf t c = .bottom) : t = .bottomWall := by
  revert h; cases t <;> simp [kindOf] <;> split <;> simp


omit wf ph in
theorem adj_kind {t u : LType} (h : adj t u = true) (c : Nat) :
    (kindOf t c, kindOf u c) ∈ [(Kind.solid, Kind.solid), (.solid, .liquid4), (.liquid4, .solid), (.liquid4, .liquid4),
      (.solid, .bottom), (.bottom, .vwall), (.vwall, .liquid2), (.liquid2, .top), (.top, .solid), (.top, .bottom)] := by
  revert h
  cases t <;> cases u <;> simp [adj, solidish, kindOf] <;> cases isChannelCol c <;> simp

theorem up_pos {l r c : Nat} (hl : l + 1 < d.nLayers) (hr : r < d.nRows) (hc : c < d.nCols)
    (hk : kindOf (typeAt g l) c = .solid ∨ kindOf (typeAt g l) c = .liquid4) : 0 < gTop g d l r c := by
  have h4 : typeAt g l = .ch4rm → 0 < gTop g d l r c := fun h => (ch4_pos wf ph (by omega) hr hc h).2.1
  rcases hk with hk | hk
  · rcases kind_solid_cases wf hk with h | h
    · exact solid_top_pos wf ph (by omega) hr hc h (Or.inl (by omega))
    · exact h4 h.1
  · exact h4 (kind_liquid4 wf hk).1

theorem down_pos {l r c : Nat} (hl : l + 1 < d.nLayers) (hr : r < d.nRows) (hc : c < d.nCols)
    (hk : kindOf (typeAt g (l + 1)) c = .solid ∨ kindOf (typeAt g (l + 1)) c = .liquid4) : 0 < gBottom g d (l + 1) r c := by
  have h4 : typeAt g (l + 1) = .ch4rm → 0 < gBottom g d (l + 1) r c := fun h => (ch4_pos wf ph hl hr hc h).2.2.1
  rcases hk with hk | hk
  · rcases kind_solid_cases wf hk with h | h
    · exact solid_bottom_pos wf ph hl hr hc h (Or.inl (by omega))
    · exact h4 h.1
  · exact h4 (kind_liquid4 wf hk).1

theorem wall_zero {l r c : Nat} (hk : kindOf (typeAt g l) c = .top ∨ kindOf (typeAt g l) c = .bottom) :
    gTop g d l r c = 0 ∧ gBottom g d l r c = 0 := by
  rcases hk with hk | hk
  · have := kind_top wf hk; simp [gTop, gBottom, this]
  · have := kind_bottom wf hk; simp [gTop, gBottom, this]

/-- The conductance used upwards by the lower cell is the one used downwards by the upper cell: layers of solid material and
4RM layers. -/
theorem vertical_eq {l r c : Nat} (hl : l + 1 < d.nLayers) (hr : r < d.nRows) (hc : c < d.nCols)
    (h1 : kindOf (typeAt g l) c = .solid ∨ kindOf (typeAt g l) c = .liquid4)
    (h2 : kindOf (typeAt g (l + 1)) c = .solid ∨ kindOf (typeAt g (l + 1)) c = .liquid4) :
    solidTop g d l r c = par (gTop g d l r c) (gBottom g d (l + 1) r c) ∧
    solidBottom g d (l + 1) r c = par (gTop g d l r c) (gBottom g d (l + 1) r c) := by
  have p1 := up_pos wf ph hl hr hc h1
  have p2 := down_pos wf ph hl hr hc h2
  unfold solidTop solidBottom
  rw [Nat.add_sub_cancel, if_neg p1.ne', if_neg p2.ne']
  exact ⟨rfl, par_comm _ _⟩

/-- Conductances of a virtual wall do not depend on the row. -/
theorem vwall_row {l r r' c : Nat} (hl : l < d.nLayers) (hr : r < d.nRows) (hr' : r' < d.nRows) (ht : typeAt g l = .vwallCh) :
    gNorth g d l r c = gNorth g d l r' c ∧ gSouth g d l r c = gSouth g d l r' c := by
  have hlay := wf.lay l hl (Or.inl ht)
  have hm : ∀ r, cellMaterial (layerAt g l) d r c = (layerAt g l).mat := by
    intro r; simp [cellMaterial, hlay]
  have hw : ∀ r, r < d.nRows → cellWidth d r = d.width := by
    intro r hr; unfold cellWidth; rw [if_neg (by rw [wf.lastRow]; omega)]
  unfold gNorth gSouth condY
  simp only [ht, hm, hw r hr, hw r' hr', and_self]

omit ph in
/-- The chain seen from a layer of a given kind: its neighbours. -/
theorem below_kinds {l : Nat} (hl : l + 1 < d.nLayers) (c : Nat) :
    (kindOf (typeAt g l) c, kindOf (typeAt g (l + 1)) c) ∈ [(Kind.solid, Kind.solid), (.solid, .liquid4), (.liquid4, .solid),
      (.liquid4, .liquid4), (.solid, .bottom), (.bottom, .vwall), (.vwall, .liquid2), (.liquid2, .top), (.top, .solid), (.top, .bottom)] :=
  adj_kind (wf.chain l hl) c

omit ph in
theorem first_kind (c : Nat) : kindOf (typeAt g 0) c = .solid := by
  have := wf.first; revert this; cases typeAt g 0 <;> simp [solidish, kindOf]

omit ph in
theorem last_kind (c : Nat) : kindOf (typeAt g (d.nLayers - 1)) c = .solid := by
  have := wf.last; revert this; cases typeAt g (d.nLayers - 1) <;> simp [solidish, kindOf]

omit ph in
/-- Layers of a 2RM or pin fin channel come together. -/
theorem bottom_block {l c : Nat} (hl : l < d.nLayers) (hk : kindOf (typeAt g l) c = .bottom) :
    1 ≤ l ∧ l + 4 < d.nLayers + 0 ∧ kindOf (typeAt g (l + 1)) c = .vwall ∧ kindOf (typeAt g (l + 2)) c = .liquid2 ∧
      kindOf (typeAt g (l + 3)) c = .top := by
  have hne : ∀ k, k < d.nLayers → kindOf (typeAt g k) c ≠ .solid → k + 1 < d.nLayers := by
    intro k hk hx
    by_contra h
    have := last_kind wf c
    rw [show d.nLayers - 1 = k by omega] at this
    exact hx this
  have h0 : l ≠ 0 := by
    rintro rfl; rw [first_kind wf] at hk; cases hk
  have l1 := hne l hl (by rw [hk]; simp)
  have k1 := below_kinds wf l1 c
  rw [hk] at k1; simp at k1
  have l2 := hne _ l1 (by rw [k1]; simp)
  have k2 := below_kinds wf l2 c
  rw [k1] at k2; simp at k2
  have l3 := hne _ l2 (by rw [k2]; simp)
  have k3 := below_kinds wf l3 c
  rw [k2] at k3; simp at k3
  have l4 := hne _ l3 (by rw [k3]; simp)
  exact ⟨by omega, by omega, k1, k2, k3⟩

omit ph in
theorem vwall_block {l c : Nat} (hl : l < d.nLayers) (hk : kindOf (typeAt g l) c = .vwall) :
    ∃ k, l = k + 1 ∧ kindOf (typeAt g k) c = .bottom := by
  cases l with
  | zero => rw [first_kind wf] at hk; cases hk
  | succ k =>
    have := below_kinds wf hl c
    rw [hk] at this; simp at this
    exact ⟨k, rfl, this⟩

omit ph in
theorem liquid2_block {l c : Nat} (hl : l < d.nLayers) (hk : kindOf (typeAt g l) c = .liquid2) :
    ∃ k, l = k + 2 ∧ kindOf (typeAt g k) c = .bottom := by
  cases l with
  | zero => rw [first_kind wf] at hk; cases hk
  | succ k =>
    have := below_kinds wf hl c
    rw [hk] at this; simp at this
    obtain ⟨k', rfl, h⟩ := vwall_block wf (by omega) this
    exact ⟨k', rfl, h⟩

omit ph in
theorem top_block {l c : Nat} (hl : l < d.nLayers) (hk : kindOf (typeAt g l) c = .top) :
    ∃ k, l = k + 3 ∧ kindOf (typeAt g k) c = .bottom := by
  cases l with
  | zero => rw [first_kind wf] at hk; cases hk
  | succ k =>
    have := below_kinds wf hl c
    rw [hk] at this; simp at this
    obtain ⟨k', rfl, h⟩ := liquid2_block wf (by omega) this
    exact ⟨k', rfl, h⟩

omit ph in
/-- Kinds in the same layer: only 4RM layers mix two kinds. -/
theorem kind_same_layer {l c c' : Nat} (h : kindOf (typeAt g l) c = .solid ∨ kindOf (typeAt g l) c = .liquid4) :
    kindOf (typeAt g l) c' = .solid ∨ kindOf (typeAt g l) c' = .liquid4 := by
  revert h
  cases typeAt g l <;> simp [kindOf]

omit ph in
theorem spr_geo {s : Spreader K} {m : Material K} (ht : g.top = some (.pluggable s m)) :
    s.nRows = s.rowsBorder + d.nRows + s.rowsBorder ∧ s.nCols = s.colsBorder + d.nCols + s.colsBorder ∧
    s.nRows < W ∧ s.nCols < W ∧ spreaderOf g = some s := by
  have hs : spreaderOf g = some s := by simp [spreaderOf, ht]
  obtain ⟨h1, h2⟩ := wf.geo s hs
  have hacc := wf.acc
  rw [hs] at hacc
  obtain ⟨-, b2, b3⟩ := accepted_bound hacc
  simp only [spreaderCells] at b3
  have hr := wf.acc.rows
  have hc := wf.acc.cols
  have h3 : s.nRows ≤ s.nRows * s.nCols := Nat.le_mul_of_pos_right _ (by omega)
  have h4 : s.nCols ≤ s.nRows * s.nCols := Nat.le_mul_of_pos_left _ (by omega)
  exact ⟨h1, h2, by unfold W; omega, by unfold W; omega, hs⟩

theorem mirror_lo {q : Cell} (hq : Valid g d q) {e : Ent K} (he : e ∈ loOf g d q) :
    Valid g d e.cell ∧ ∃ e' ∈ hiOf g d e.cell, e'.cell = q ∧ Mir e e' := by
  cases q with
  | spr r c =>
    obtain ⟨s, m, ht, hr, hc⟩ := hq
    obtain ⟨g1, g2, g3, g4, g5⟩ := spr_geo wf ht
    simp only [loOf, ht, sprLo, List.mem_append, mem_opt] at he
    rcases he with (⟨hu, rfl⟩ | ⟨hr0, rfl⟩) | ⟨hc0, rfl⟩
    · unfold hasLayerUnderneath at hu
      rw [decide_eq_true_eq, Nat.mod_eq_of_lt (by omega), Nat.mod_eq_of_lt (by omega)] at hu
      rw [sub32_eq (by omega) hu.1, sub32_eq (by omega) hu.2.2.1, wf.lastLayer]
      have hL := wf.L1
      refine ⟨⟨by omega, by omega, by omega⟩, ?_⟩
      have hk := last_kind wf (c - s.colsBorder)
      have hspr := (wf.spr (d.nLayers - 1) (by omega)).mpr ⟨rfl, s, m, ht⟩
      refine ⟨link (aboveCell g (r - s.rowsBorder) (c - s.colsBorder)) (spreaderLink g d (d.nLayers - 1) (r - s.rowsBorder) (c - s.colsBorder)), ?_, ?_, ?_⟩
      · simp only [link, hiOf, hk, solidHi, List.mem_append, mem_opt]
        exact Or.inr ⟨hspr, trivial⟩
      · simp only [link, aboveCell, g5]
        rw [Nat.mod_eq_of_lt (by omega), Nat.mod_eq_of_lt (by omega), Nat.sub_add_cancel hu.1, Nat.sub_add_cancel hu.2.2.1]
      · exact mir_link _ _ (by simp [spreaderLink, ht])
    · obtain ⟨k, rfl⟩ := Nat.exists_eq_succ_of_ne_zero hr0
      refine ⟨⟨s, m, ht, by omega, hc⟩, link (.spr (k + 1) c) (par (sprNS s m) (sprNS s m)), ?_, rfl, mir_link _ _ rfl⟩
      simp only [link, hiOf, ht, sprHi, List.mem_append, mem_opt, Nat.succ_eq_add_one, Nat.add_sub_cancel]
      exact Or.inr ⟨by rw [sub32_eq (by omega) (by omega)]; omega, trivial⟩
    · obtain ⟨k, rfl⟩ := Nat.exists_eq_succ_of_ne_zero hc0
      refine ⟨⟨s, m, ht, hr, by omega⟩, link (.spr r (k + 1)) (par (sprEW s m) (sprEW s m)), ?_, rfl, mir_link _ _ rfl⟩
      simp only [link, hiOf, ht, sprHi, List.mem_append, mem_opt, Nat.succ_eq_add_one, Nat.add_sub_cancel]
      exact Or.inl ⟨by rw [sub32_eq (by omega) (by omega)]; omega, trivial⟩
  | box l r c =>
    obtain ⟨hl, hr, hc⟩ := hq
    have hlr := wf.lastRow
    have hlc := wf.lastColumn
    have hll := wf.lastLayer
    simp only [loOf] at he
    cases hk : kindOf (typeAt g l) c with
    | none => rw [hk] at he; cases he
    | solid =>
      rw [hk] at he
      simp only [solidLo, List.mem_append, mem_opt] at he
      rcases he with (⟨h0, rfl⟩ | ⟨h0, rfl⟩) | ⟨h0, rfl⟩
      · obtain ⟨k, rfl⟩ := Nat.exists_eq_succ_of_ne_zero h0
        simp only [Nat.succ_eq_add_one, Nat.add_sub_cancel] at *
        refine ⟨⟨by omega, hr, hc⟩, ?_⟩
        have hb := below_kinds wf hl c
        rw [hk] at hb
        simp at hb
        rcases hb with hb | hb | hb
        · have hv := vertical_eq wf ph hl hr hc (Or.inl hb) (Or.inl hk)
          refine ⟨link (.box (k + 1) r c) (solidTop g d k r c), ?_, rfl, mir_link _ _ (by rw [hv.1, hv.2])⟩
          simp only [link, hiOf, hb, solidHi, List.mem_append, mem_opt]
          exact Or.inl (Or.inr ⟨by omega, trivial⟩)
        · have hv := vertical_eq wf ph hl hr hc (Or.inr hb) (Or.inl hk)
          refine ⟨link (.box (k + 1) r c) (par (gTop g d k r c) (gBottom g d (k + 1) r c)), ?_, rfl, mir_link _ _ (by rw [hv.2])⟩
          simp only [link, hiOf, hb, liquid4Hi, List.mem_append, mem_opt]
          exact Or.inr ⟨by omega, trivial⟩
        · refine ⟨link (.box (k + 1) r c) (gBottom g d (k + 1) r c), ?_, rfl, mir_link _ _ ?_⟩
          · simp only [link, hiOf, hb, topWallHi, mem_opt]
            exact ⟨by omega, trivial⟩
          · unfold solidBottom
            rw [Nat.add_sub_cancel, (wall_zero wf ph (Or.inl hb)).1, if_pos rfl]
      · obtain ⟨k, rfl⟩ := Nat.exists_eq_succ_of_ne_zero h0
        simp only [Nat.succ_eq_add_one, Nat.add_sub_cancel] at *
        refine ⟨⟨hl, by omega, hc⟩, link (.box l (k + 1) c) (par (gNorth g d l k c) (gSouth g d l (k + 1) c)), ?_, rfl, mir_link _ _ (par_comm _ _)⟩
        simp only [link, hiOf, hk, solidHi, List.mem_append, mem_opt]
        exact Or.inl (Or.inl (Or.inr ⟨by omega, trivial⟩))
      · obtain ⟨k, rfl⟩ := Nat.exists_eq_succ_of_ne_zero h0
        simp only [Nat.succ_eq_add_one, Nat.add_sub_cancel] at *
        refine ⟨⟨hl, hr, by omega⟩, link (.box l r (k + 1)) (par (gEast g d l r k) (gWest g d l r (k + 1))), ?_, rfl, mir_link _ _ (par_comm _ _)⟩
        rcases kind_same_layer wf (c' := k) (Or.inl hk) with h | h <;>
          simp only [link, hiOf, h, solidHi, liquid4Hi, List.mem_append, mem_opt]
        · exact Or.inl (Or.inl (Or.inl ⟨by omega, trivial⟩))
        · exact Or.inl (Or.inl ⟨by omega, trivial⟩)
    | liquid4 =>
      rw [hk] at he
      have htl := (kind_liquid4 wf hk)
      simp only [liquid4Lo, List.mem_append, mem_opt] at he
      rcases he with (⟨h0, rfl⟩ | ⟨h0, rfl⟩) | ⟨h0, rfl⟩
      · obtain ⟨k, rfl⟩ := Nat.exists_eq_succ_of_ne_zero h0
        simp only [Nat.succ_eq_add_one, Nat.add_sub_cancel] at *
        refine ⟨⟨by omega, hr, hc⟩, ?_⟩
        have hb := below_kinds wf hl c
        rw [hk] at hb
        simp at hb
        rcases hb with hb | hb
        · have hv := vertical_eq wf ph hl hr hc (Or.inl hb) (Or.inr hk)
          refine ⟨link (.box (k + 1) r c) (solidTop g d k r c), ?_, rfl, mir_link _ _ (by rw [hv.1, par_comm])⟩
          simp only [link, hiOf, hb, solidHi, List.mem_append, mem_opt]
          exact Or.inl (Or.inr ⟨by omega, trivial⟩)
        · refine ⟨link (.box (k + 1) r c) (par (gTop g d k r c) (gBottom g d (k + 1) r c)), ?_, rfl, mir_link _ _ (par_comm _ _)⟩
          simp only [link, hiOf, hb, liquid4Hi, List.mem_append, mem_opt]
          exact Or.inr ⟨by omega, trivial⟩
      · obtain ⟨k, rfl⟩ := Nat.exists_eq_succ_of_ne_zero h0
        simp only [Nat.succ_eq_add_one, Nat.add_sub_cancel] at *
        refine ⟨⟨hl, by omega, hc⟩, flow (.box l (k + 1) c) (gSouth g d l k c), ?_, rfl, mir_flow _ _ ?_⟩
        · simp only [flow, hiOf, hk, liquid4Hi, List.mem_append, mem_opt]
          exact Or.inl (Or.inr ⟨by omega, trivial⟩)
        · simp [gSouth, gNorth, htl.1, htl.2]
      · obtain ⟨k, rfl⟩ := Nat.exists_eq_succ_of_ne_zero h0
        simp only [Nat.succ_eq_add_one, Nat.add_sub_cancel] at *
        refine ⟨⟨hl, hr, by omega⟩, link (.box l r (k + 1)) (par (gEast g d l r k) (gWest g d l r (k + 1))), ?_, rfl, mir_link _ _ (par_comm _ _)⟩
        rcases kind_same_layer wf (c' := k) (Or.inr hk) with h | h <;>
          simp only [link, hiOf, h, solidHi, liquid4Hi, List.mem_append, mem_opt]
        · exact Or.inl (Or.inl (Or.inl ⟨by omega, trivial⟩))
        · exact Or.inl (Or.inl ⟨by omega, trivial⟩)
    | liquid2 =>
      rw [hk] at he
      have htl := (kind_liquid2 wf hk)
      obtain ⟨k, rfl, hb⟩ := liquid2_block wf hl hk
      simp only [liquid2Lo, List.mem_append, mem_opt] at he
      rcases he with ⟨h0, rfl⟩ | ⟨h0, rfl⟩
      · simp only [Nat.add_sub_cancel]
        refine ⟨⟨by omega, hr, hc⟩, link (.box (k + 2) r c) (gBottom g d (k + 2) r c), ?_, rfl, mir_link _ _ rfl⟩
        simp only [link, hiOf, hb, bottomWallHi, List.mem_append, mem_opt]
        exact Or.inr ⟨by omega, trivial⟩
      · obtain ⟨j, rfl⟩ := Nat.exists_eq_succ_of_ne_zero h0
        simp only [Nat.succ_eq_add_one, Nat.add_sub_cancel] at *
        refine ⟨⟨hl, by omega, hc⟩, flow (.box (k + 2) (j + 1) c) (gSouth g d (k + 2) j c), ?_, rfl, mir_flow _ _ ?_⟩
        · simp only [flow, hiOf, hk, liquid2Hi, List.mem_append, mem_opt]
          exact Or.inl ⟨by omega, trivial⟩
        · rcases htl with h | h | h <;> simp [gSouth, gNorth, h]
    | vwall =>
      rw [hk] at he
      obtain ⟨k, rfl, hb⟩ := vwall_block wf hl hk
      simp only [vwallLo, List.mem_append, mem_opt] at he
      rcases he with ⟨h0, rfl⟩ | ⟨⟨hm, h0⟩, rfl⟩
      · simp only [Nat.add_sub_cancel]
        refine ⟨⟨by omega, hr, hc⟩, link (.box (k + 1) r c) (gTop g d (k + 1) r c), ?_, rfl, mir_link _ _ ?_⟩
        · simp only [link, hiOf, hb, bottomWallHi, List.mem_append, mem_opt]
          exact Or.inl ⟨by omega, trivial⟩
        · rcases kind_vwall wf hk with h | h <;> simp [gTop, gBottom, h]
      · obtain ⟨j, rfl⟩ := Nat.exists_eq_succ_of_ne_zero h0
        simp only [Nat.succ_eq_add_one, Nat.add_sub_cancel] at *
        have ht : typeAt g (k + 1) = .vwallCh := by
          rcases kind_vwall wf hk with h | h
          · exact h
          · have := wf.mdl _ hl; rw [h, hm] at this; simp [modelOk] at this
        refine ⟨⟨hl, by omega, hc⟩, link (.box (k + 1) (j + 1) c) (par (gNorth g d (k + 1) j c) (gSouth g d (k + 1) j c)), ?_, rfl, mir_link _ _ ?_⟩
        · simp only [link, hiOf, hk, vwallHi, List.mem_append, mem_opt]
          exact Or.inl ⟨⟨hm, by omega⟩, trivial⟩
        · have := vwall_row wf ph hl (show j < d.nRows by omega) hr (c := c) ht
          rw [this.1, this.2, par_comm]
    | top =>
      rw [hk] at he
      obtain ⟨k, rfl, hb⟩ := top_block wf hl hk
      obtain ⟨-, -, h1, h2, h3⟩ := bottom_block wf (by omega) hb
      simp only [topWallLo, List.mem_append, mem_opt] at he
      rcases he with ⟨h0, rfl⟩ | ⟨h0, rfl⟩
      · simp only [show k + 3 - 2 = k + 1 by omega]
        refine ⟨⟨by omega, hr, hc⟩, link (.box (k + 1 + 2) r c) (gTop g d (k + 1) r c), ?_, rfl, mir_link _ _ rfl⟩
        simp only [link, hiOf, h1, vwallHi, List.mem_append, mem_opt]
        exact Or.inr ⟨by omega, trivial⟩
      · simp only [show k + 3 - 1 = k + 2 by omega]
        refine ⟨⟨by omega, hr, hc⟩, link (.box (k + 2 + 1) r c) (gTop g d (k + 2) r c), ?_, rfl, mir_link _ _ rfl⟩
        simp only [link, hiOf, h2, liquid2Hi, List.mem_append, mem_opt]
        exact Or.inr ⟨by omega, trivial⟩
    | bottom =>
      rw [hk] at he
      simp only [bottomWallLo, mem_opt] at he
      obtain ⟨h0, rfl⟩ := he
      obtain ⟨k, rfl⟩ := Nat.exists_eq_succ_of_ne_zero h0
      simp only [Nat.succ_eq_add_one, Nat.add_sub_cancel] at *
      refine ⟨⟨by omega, hr, hc⟩, ?_⟩
      have hb := below_kinds wf hl c
      rw [hk] at hb
      simp at hb
      rcases hb with hb | hb
      · refine ⟨link (.box (k + 1) r c) (solidTop g d k r c), ?_, rfl, mir_link _ _ ?_⟩
        · simp only [link, hiOf, hb, solidHi, List.mem_append, mem_opt]
          exact Or.inl (Or.inr ⟨by omega, trivial⟩)
        · unfold solidTop
          rw [(wall_zero wf ph (Or.inr hk)).2, if_pos rfl]
      · refine ⟨link (.box (k + 1) r c) (gBottom g d (k + 1) r c), ?_, rfl, mir_link _ _ ?_⟩
        · simp only [link, hiOf, hb, topWallHi, mem_opt]
          exact ⟨by omega, trivial⟩
        · rw [(wall_zero wf ph (Or.inr hk)).2, (wall_zero wf ph (Or.inl hb)).1]

theorem mirror_hi {q : Cell} (hq : Valid g d q) {e : Ent K} (he : e ∈ hiOf g d q) :
    Valid g d e.cell ∧ ∃ e' ∈ loOf g d e.cell, e'.cell = q ∧ Mir e e' := by
  cases q with
  | spr r c =>
    obtain ⟨s, m, ht, hr, hc⟩ := hq
    obtain ⟨g1, g2, g3, g4, g5⟩ := spr_geo wf ht
    simp only [hiOf, ht, sprHi, List.mem_append, mem_opt] at he
    rcases he with ⟨hc0, rfl⟩ | ⟨hr0, rfl⟩
    · rw [sub32_eq (by omega) (by omega)] at hc0
      refine ⟨⟨s, m, ht, hr, by omega⟩, link (.spr r c) (par (sprEW s m) (sprEW s m)), ?_, rfl, mir_link _ _ rfl⟩
      simp only [link, loOf, ht, sprLo, List.mem_append, mem_opt, Nat.add_sub_cancel]
      exact Or.inr ⟨by omega, trivial⟩
    · rw [sub32_eq (by omega) (by omega)] at hr0
      refine ⟨⟨s, m, ht, by omega, hc⟩, link (.spr r c) (par (sprNS s m) (sprNS s m)), ?_, rfl, mir_link _ _ rfl⟩
      simp only [link, loOf, ht, sprLo, List.mem_append, mem_opt, Nat.add_sub_cancel]
      exact Or.inl (Or.inr ⟨by omega, trivial⟩)
  | box l r c =>
    obtain ⟨hl, hr, hc⟩ := hq
    have hlr := wf.lastRow
    have hlc := wf.lastColumn
    have hll := wf.lastLayer
    simp only [hiOf] at he
    cases hk : kindOf (typeAt g l) c with
    | none => rw [hk] at he; cases he
    | solid =>
      rw [hk] at he
      simp only [solidHi, List.mem_append, mem_opt] at he
      rcases he with ((⟨h0, rfl⟩ | ⟨h0, rfl⟩) | ⟨h0, rfl⟩) | ⟨h0, rfl⟩
      · refine ⟨⟨hl, hr, by omega⟩, link (.box l r c) (par (gWest g d l r (c + 1)) (gEast g d l r c)), ?_, rfl, mir_link _ _ (par_comm _ _)⟩
        rcases kind_same_layer wf (c' := c + 1) (Or.inl hk) with h | h <;>
          simp only [link, loOf, h, solidLo, liquid4Lo, List.mem_append, mem_opt, Nat.add_sub_cancel]
        · exact Or.inr ⟨by omega, trivial⟩
        · exact Or.inr ⟨by omega, trivial⟩
      · refine ⟨⟨hl, by omega, hc⟩, link (.box l r c) (par (gSouth g d l (r + 1) c) (gNorth g d l r c)), ?_, rfl, mir_link _ _ (par_comm _ _)⟩
        simp only [link, loOf, hk, solidLo, List.mem_append, mem_opt, Nat.add_sub_cancel]
        exact Or.inl (Or.inr ⟨by omega, trivial⟩)
      · have hl1 : l + 1 < d.nLayers := by omega
        refine ⟨⟨hl1, hr, hc⟩, ?_⟩
        have hb := below_kinds wf hl1 c
        rw [hk] at hb
        simp at hb
        rcases hb with hb | hb | hb
        · have hv := vertical_eq wf ph hl1 hr hc (Or.inl hk) (Or.inl hb)
          refine ⟨link (.box l r c) (solidBottom g d (l + 1) r c), ?_, rfl, mir_link _ _ (by rw [hv.1, hv.2])⟩
          simp only [link, loOf, hb, solidLo, List.mem_append, mem_opt, Nat.add_sub_cancel]
          exact Or.inl (Or.inl ⟨by omega, trivial⟩)
        · have hv := vertical_eq wf ph hl1 hr hc (Or.inl hk) (Or.inr hb)
          refine ⟨link (.box l r c) (par (gBottom g d (l + 1) r c) (gTop g d l r c)), ?_, rfl, mir_link _ _ (by rw [hv.1, par_comm])⟩
          simp only [link, loOf, hb, liquid4Lo, List.mem_append, mem_opt, Nat.add_sub_cancel]
          exact Or.inl (Or.inl ⟨by omega, trivial⟩)
        · refine ⟨link (.box l r c) (gTop g d l r c), ?_, rfl, mir_link _ _ ?_⟩
          · simp only [link, loOf, hb, bottomWallLo, mem_opt, Nat.add_sub_cancel]
            exact ⟨by omega, trivial⟩
          · unfold solidTop
            rw [(wall_zero wf ph (Or.inr hb)).2, if_pos rfl]
      · obtain ⟨hlast, s, m, ht⟩ := (wf.spr l hl).mp h0
        obtain ⟨g1, g2, g3, g4, g5⟩ := spr_geo wf ht
        have hcell : aboveCell g r c = .spr (r + s.rowsBorder) (c + s.colsBorder) := by
          simp only [aboveCell, g5]
          rw [Nat.mod_eq_of_lt (by omega), Nat.mod_eq_of_lt (by omega)]
        simp only [link]
        rw [hcell]
        refine ⟨⟨s, m, ht, by omega, by omega⟩, link (.box l r c) (par (sprTB s m) (gTop g d l r c)), ?_, rfl, ?_⟩
        · simp only [loOf, ht, sprLo, List.mem_append, mem_opt]
          refine Or.inl (Or.inl ⟨?_, ?_⟩)
          · unfold hasLayerUnderneath
            rw [decide_eq_true_eq, Nat.mod_eq_of_lt (by omega), Nat.mod_eq_of_lt (by omega)]
            omega
          · rw [sub32_eq (by omega) (by omega), sub32_eq (by omega) (by omega), Nat.add_sub_cancel, Nat.add_sub_cancel, hll, ← hlast]
        · simp [Mir, link, spreaderLink, ht]
    | liquid4 =>
      rw [hk] at he
      have htl := (kind_liquid4 wf hk)
      simp only [liquid4Hi, List.mem_append, mem_opt] at he
      rcases he with (⟨h0, rfl⟩ | ⟨h0, rfl⟩) | ⟨h0, rfl⟩
      · refine ⟨⟨hl, hr, by omega⟩, link (.box l r c) (par (gWest g d l r (c + 1)) (gEast g d l r c)), ?_, rfl, mir_link _ _ (par_comm _ _)⟩
        rcases kind_same_layer wf (c' := c + 1) (Or.inr hk) with h | h <;>
          simp only [link, loOf, h, solidLo, liquid4Lo, List.mem_append, mem_opt, Nat.add_sub_cancel]
        · exact Or.inr ⟨by omega, trivial⟩
        · exact Or.inr ⟨by omega, trivial⟩
      · refine ⟨⟨hl, by omega, hc⟩, flow (.box l r c) (gNorth g d l (r + 1) c), ?_, rfl, mir_flow _ _ ?_⟩
        · simp only [flow, loOf, hk, liquid4Lo, List.mem_append, mem_opt, Nat.add_sub_cancel]
          exact Or.inl (Or.inr ⟨by omega, trivial⟩)
        · simp [gSouth, gNorth, htl.1, htl.2]
      · have hl1 : l + 1 < d.nLayers := by omega
        refine ⟨⟨hl1, hr, hc⟩, ?_⟩
        have hb := below_kinds wf hl1 c
        rw [hk] at hb
        simp at hb
        rcases hb with hb | hb
        · have hv := vertical_eq wf ph hl1 hr hc (Or.inr hk) (Or.inl hb)
          refine ⟨link (.box l r c) (solidBottom g d (l + 1) r c), ?_, rfl, mir_link _ _ (by rw [hv.2])⟩
          simp only [link, loOf, hb, solidLo, List.mem_append, mem_opt, Nat.add_sub_cancel]
          exact Or.inl (Or.inl ⟨by omega, trivial⟩)
        · refine ⟨link (.box l r c) (par (gBottom g d (l + 1) r c) (gTop g d l r c)), ?_, rfl, mir_link _ _ (par_comm _ _)⟩
          simp only [link, loOf, hb, liquid4Lo, List.mem_append, mem_opt, Nat.add_sub_cancel]
          exact Or.inl (Or.inl ⟨by omega, trivial⟩)
    | liquid2 =>
      rw [hk] at he
      have htl := (kind_liquid2 wf hk)
      obtain ⟨k, rfl, hb⟩ := liquid2_block wf hl hk
      obtain ⟨-, h4, h1, h2, h3⟩ := bottom_block wf (by omega) hb
      simp only [liquid2Hi, List.mem_append, mem_opt] at he
      rcases he with ⟨h0, rfl⟩ | ⟨h0, rfl⟩
      · refine ⟨⟨hl, by omega, hc⟩, flow (.box (k + 2) r c) (gNorth g d (k + 2) (r + 1) c), ?_, rfl, mir_flow _ _ ?_⟩
        · simp only [flow, loOf, hk, liquid2Lo, List.mem_append, mem_opt, Nat.add_sub_cancel]
          exact Or.inr ⟨by omega, trivial⟩
        · rcases htl with h | h | h <;> simp [gSouth, gNorth, h]
      · refine ⟨⟨by omega, hr, hc⟩, link (.box (k + 2) r c) (gTop g d (k + 2) r c), ?_, rfl, mir_link _ _ rfl⟩
        simp only [link, loOf, h3, topWallLo, List.mem_append, mem_opt]
        exact Or.inr ⟨by omega, rfl⟩
    | vwall =>
      rw [hk] at he
      obtain ⟨k, rfl, hb⟩ := vwall_block wf hl hk
      obtain ⟨-, h4, h1, h2, h3⟩ := bottom_block wf (by omega) hb
      simp only [vwallHi, List.mem_append, mem_opt] at he
      rcases he with ⟨⟨hm, h0⟩, rfl⟩ | ⟨h0, rfl⟩
      · have ht : typeAt g (k + 1) = .vwallCh := by
          rcases kind_vwall wf hk with h | h
          · exact h
          · have := wf.mdl _ hl; rw [h, hm] at this; simp [modelOk] at this
        refine ⟨⟨hl, by omega, hc⟩, link (.box (k + 1) r c) (par (gSouth g d (k + 1) (r + 1) c) (gNorth g d (k + 1) (r + 1) c)), ?_, rfl, mir_link _ _ ?_⟩
        · simp only [link, loOf, hk, vwallLo, List.mem_append, mem_opt, Nat.add_sub_cancel]
          exact Or.inr ⟨⟨hm, by omega⟩, trivial⟩
        · have := vwall_row wf ph hl (show r + 1 < d.nRows by omega) hr (c := c) ht
          rw [this.1, this.2, par_comm]
      · refine ⟨⟨by omega, hr, hc⟩, link (.box (k + 1) r c) (gTop g d (k + 1) r c), ?_, rfl, mir_link _ _ rfl⟩
        simp only [link, loOf, h3, topWallLo, List.mem_append, mem_opt]
        exact Or.inl ⟨by omega, rfl⟩
    | top =>
      rw [hk] at he
      simp only [topWallHi, mem_opt] at he
      obtain ⟨h0, rfl⟩ := he
      have hl1 : l + 1 < d.nLayers := by omega
      refine ⟨⟨hl1, hr, hc⟩, ?_⟩
      have hb := below_kinds wf hl1 c
      rw [hk] at hb
      simp at hb
      rcases hb with hb | hb
      · refine ⟨link (.box l r c) (solidBottom g d (l + 1) r c), ?_, rfl, mir_link _ _ ?_⟩
        · simp only [link, loOf, hb, solidLo, List.mem_append, mem_opt, Nat.add_sub_cancel]
          exact Or.inl (Or.inl ⟨by omega, trivial⟩)
        · unfold solidBottom
          rw [Nat.add_sub_cancel, (wall_zero wf ph (Or.inl hk)).1, if_pos rfl]
      · refine ⟨link (.box l r c) (gTop g d l r c), ?_, rfl, mir_link _ _ ?_⟩
        · simp only [link, loOf, hb, bottomWallLo, mem_opt, Nat.add_sub_cancel]
          exact ⟨by omega, trivial⟩
        · rw [(wall_zero wf ph (Or.inr hb)).2, (wall_zero wf ph (Or.inl hk)).1]
    | bottom =>
      rw [hk] at he
      obtain ⟨-, h4, h1, h2, h3⟩ := bottom_block wf (by omega) hk
      simp only [bottomWallHi, List.mem_append, mem_opt] at he
      rcases he with ⟨h0, rfl⟩ | ⟨h0, rfl⟩
      · refine ⟨⟨by omega, hr, hc⟩, link (.box l r c) (gBottom g d (l + 1) r c), ?_, rfl, mir_link _ _ ?_⟩
        · simp only [link, loOf, h1, vwallLo, List.mem_append, mem_opt, Nat.add_sub_cancel]
          exact Or.inl ⟨by omega, trivial⟩
        · rcases kind_vwall wf h1 with h | h <;> simp [gTop, gBottom, h]
      · refine ⟨⟨by omega, hr, hc⟩, link (.box l r c) (gBottom g d (l + 2) r c), ?_, rfl, mir_link _ _ rfl⟩
        simp only [link, loOf, h2, liquid2Lo, List.mem_append, mem_opt, Nat.add_sub_cancel]
        exact Or.inl ⟨by omega, trivial⟩

/-- Contributions to the diagonal are not negative. -/
theorem contrib_nonneg {q : Cell} (hq : Valid g d q) {e : Ent K} (he : e ∈ loOf g d q ++ hiOf g d q) : 0 ≤ e.contrib := by
  have lo : ∀ q, Valid g d q → ∀ e ∈ loOf g d q, 0 ≤ e.contrib := by
    intro q hq e he
    cases q with
    | spr r c =>
      obtain ⟨s, m, ht, hr, hc⟩ := hq
      obtain ⟨g1, g2, g3, g4, g5⟩ := spr_geo wf ht
      obtain ⟨q1, q2, q3, q4, q5, q6, q7⟩ := ph.spr s m ht
      have p1 : 0 < sprNS s m := by unfold sprNS; positivity
      have p2 : 0 < sprEW s m := by unfold sprEW; positivity
      have p3 : 0 < sprTB s m := by unfold sprTB; positivity
      simp only [loOf, ht, sprLo, List.mem_append, mem_opt] at he
      rcases he with (⟨hu, rfl⟩ | ⟨hr0, rfl⟩) | ⟨hc0, rfl⟩
      · unfold hasLayerUnderneath at hu
        rw [decide_eq_true_eq, Nat.mod_eq_of_lt (by omega), Nat.mod_eq_of_lt (by omega)] at hu
        have hL := wf.L1
        have hspr := (wf.spr (d.nLayers - 1) (by omega)).mpr ⟨rfl, s, m, ht⟩
        simp only [link]
        rw [sub32_eq (by omega) hu.1, sub32_eq (by omega) hu.2.2.1, wf.lastLayer]
        exact (par_pos ph p3 (solid_top_pos wf ph (by omega) (by omega) (by omega) wf.last (Or.inr (Or.inl hspr)))).le
      · exact (par_pos ph p1 p1).le
      · exact (par_pos ph p2 p2).le
    | box l r c =>
      obtain ⟨hl, hr, hc⟩ := hq
      simp only [loOf] at he
      have hsol : ∀ c, c < d.nCols → (kindOf (typeAt g l) c = .solid ∨ kindOf (typeAt g l) c = .liquid4) →
          0 < gEast g d l r c ∧ 0 < gWest g d l r c := by
        intro c hc hk
        rcases hk with hk | hk
        · rcases kind_solid_cases wf hk with h | h
          · have := solid_pos wf ph hl hr hc h; exact ⟨this.2.2.2.1, this.2.2.2.2⟩
          · have := ch4_pos wf ph hl hr hc h.1; exact ⟨this.2.2.2.1, this.2.2.2.2.1⟩
        · have := ch4_pos wf ph hl hr hc (kind_liquid4 wf hk).1; exact ⟨this.2.2.2.1, this.2.2.2.2.1⟩
      have hns : ∀ r, r < d.nRows → kindOf (typeAt g l) c = .solid → 0 < gNorth g d l r c ∧ 0 < gSouth g d l r c := by
        intro r hr hk
        rcases kind_solid_cases wf hk with h | h
        · have := solid_pos wf ph hl hr hc h; exact ⟨this.2.1, this.2.2.1⟩
        · exact (ch4_pos wf ph hl hr hc h.1).2.2.2.2.2.1 h.2
      cases hk : kindOf (typeAt g l) c with
      | none => rw [hk] at he; cases he
      | solid =>
        rw [hk] at he
        simp only [solidLo, List.mem_append, mem_opt] at he
        rcases he with (⟨h0, rfl⟩ | ⟨h0, rfl⟩) | ⟨h0, rfl⟩
        · obtain ⟨k, rfl⟩ := Nat.exists_eq_succ_of_ne_zero h0
          have pb := down_pos wf ph hl hr hc (Or.inl hk)
          simp only [link, solidBottom, Nat.succ_eq_add_one, Nat.add_sub_cancel]
          split
          · exact pb.le
          · rename_i hne
            have hb := below_kinds wf hl c
            rw [show k.succ = k + 1 from rfl] at hk
            rw [hk] at hb
            simp at hb
            rcases hb with hb | hb | hb
            · exact (par_pos ph pb (up_pos wf ph hl hr hc (Or.inl hb))).le
            · exact (par_pos ph pb (up_pos wf ph hl hr hc (Or.inr hb))).le
            · exact absurd (wall_zero wf ph (Or.inl hb)).1 hne
        · exact (par_pos ph (hns r hr hk).2 (hns (r - 1) (by omega) hk).1).le
        · exact (par_pos ph (hsol c hc (Or.inl hk)).2 (hsol (c - 1) (by omega) (kind_same_layer wf (Or.inl hk))).1).le
      | liquid4 =>
        rw [hk] at he
        simp only [liquid4Lo, List.mem_append, mem_opt] at he
        rcases he with (⟨h0, rfl⟩ | ⟨h0, rfl⟩) | ⟨h0, rfl⟩
        · obtain ⟨k, rfl⟩ := Nat.exists_eq_succ_of_ne_zero h0
          have pb := down_pos wf ph hl hr hc (Or.inr hk)
          have hb := below_kinds wf hl c
          rw [show k.succ = k + 1 from rfl] at hk
          rw [hk] at hb
          simp at hb
          exact (par_pos ph pb (up_pos wf ph hl hr hc hb)).le
        · simp [flow]
        · exact (par_pos ph (hsol c hc (Or.inr hk)).2 (hsol (c - 1) (by omega) (kind_same_layer wf (Or.inr hk))).1).le
      | liquid2 =>
        rw [hk] at he
        simp only [liquid2Lo, List.mem_append, mem_opt] at he
        rcases he with ⟨h0, rfl⟩ | ⟨h0, rfl⟩
        · exact (liquid2_pos wf ph hl hr hc (kind_liquid2 wf hk)).2.2.1.le
        · simp [flow]
      | vwall =>
        rw [hk] at he
        simp only [vwallLo, List.mem_append, mem_opt] at he
        have hv := vwall_pos wf ph hl hr hc (kind_vwall wf hk)
        rcases he with ⟨h0, rfl⟩ | ⟨⟨hm, h0⟩, rfl⟩
        · exact hv.2.2.1.le
        · have ht : typeAt g l = .vwallCh := by
            rcases kind_vwall wf hk with h | h
            · exact h
            · have := wf.mdl _ hl; rw [h, hm] at this; simp [modelOk] at this
          exact (par_pos ph (hv.2.2.2 ht).2 (hv.2.2.2 ht).1).le
      | top =>
        rw [hk] at he
        obtain ⟨k, rfl, hb⟩ := top_block wf hl hk
        obtain ⟨-, -, h1, h2, h3⟩ := bottom_block wf (by omega) hb
        simp only [topWallLo, List.mem_append, mem_opt] at he
        rcases he with ⟨h0, rfl⟩ | ⟨h0, rfl⟩
        · exact (vwall_pos wf ph (show k + 1 < d.nLayers by omega) hr hc (kind_vwall wf h1)).2.1.le
        · exact (liquid2_pos wf ph (show k + 2 < d.nLayers by omega) hr hc (kind_liquid2 wf h2)).2.1.le
      | bottom =>
        rw [hk] at he
        simp only [bottomWallLo, mem_opt] at he
        obtain ⟨h0, rfl⟩ := he
        obtain ⟨k, rfl⟩ := Nat.exists_eq_succ_of_ne_zero h0
        have hb := below_kinds wf hl c
        rw [show k.succ = k + 1 from rfl] at hk
        rw [hk] at hb
        simp at hb
        rcases hb with hb | hb
        · exact (up_pos wf ph hl hr hc (Or.inl hb)).le
        · exact (wall_zero wf ph (Or.inl hb)).1.ge
  rcases List.mem_append.mp he with h | h
  · exact lo q hq e h
  · obtain ⟨hv, e', he', -, hm, -⟩ := mirror_hi wf ph hq h
    rw [← hm]
    exact lo _ hv e' he'

end

/-- Order of the cells in the vectors. -/
def Before : Cell → Cell → Prop
  | .box l r c, .box l' r' c' => l < l' ∨ (l = l' ∧ (r < r' ∨ (r = r' ∧ c < c')))
  | .box _ _ _, .spr _ _ => True
  | .spr _ _, .box _ _ _ => False
  | .spr r c, .spr r' c' => r < r' ∨ (r = r' ∧ c < c')

theorem pairwise_opt {b : Prop} [Decidable b] (R : Ent K → Ent K → Prop) (x : Ent K) : (opt b x).Pairwise R := by
  unfold opt; split <;> simp

section
variable {g : TGrid K} {d : Dims K} (wf : WF g d) (ph : Physical g d)
include wf ph

omit ph in
theorem offset_lt {p q : Cell} (hp : Valid g d p) (hq : Valid g d q) (h : Before p q) :
    offset d (spreaderOf g) p < offset d (spreaderOf g) q := by
  cases p with
  | box l r c =>
    cases q with
    | box l' r' c' => exact (C14_cells_bijection d _ wf.acc).2.2.2 l r c l' r' c' hp.1 hp.2.1 hp.2.2 hq.1 hq.2.1 hq.2.2 h
    | spr r' c' =>
      obtain ⟨s, m, ht, hr, hc⟩ := hq
      have hs : spreaderOf g = some s := by simp [spreaderOf, ht]
      have hacc := wf.acc
      rw [hs] at hacc
      simp only [offset, hs]
      rw [(spreaderOffset_eq hacc hr hc).1]
      have := (offInStack_eq hacc hp.1 hp.2.1 hp.2.2)
      omega
  | spr r c =>
    cases q with
    | box l' r' c' => exact absurd h (by simp [Before])
    | spr r' c' =>
      obtain ⟨s, m, ht, hr, hc⟩ := hp
      obtain ⟨s', m', ht', hr', hc'⟩ := hq
      rw [ht] at ht'; simp at ht'; obtain ⟨rfl, rfl⟩ := ht'
      have hs : spreaderOf g = some s := by simp [spreaderOf, ht]
      have hacc := wf.acc
      rw [hs] at hacc
      simp only [offset, hs]
      rw [(spreaderOffset_eq hacc hr hc).1, (spreaderOffset_eq hacc hr' hc').1]
      rcases h with h | ⟨rfl, h⟩
      · have : (r + 1) * s.nCols ≤ r' * s.nCols := Nat.mul_le_mul_right _ h
        rw [Nat.succ_mul] at this; omega
      · omega

omit ph in
theorem before_lo {q : Cell} (hq : Valid g d q) : (∀ e ∈ loOf g d q, Before e.cell q) ∧
    (loOf g d q).Pairwise (fun a b => Before a.cell b.cell) := by
  cases q with
  | spr r c =>
    obtain ⟨s, m, ht, hr, hc⟩ := hq
    simp only [loOf, ht, sprLo]
    constructor
    · intro e he
      simp only [List.mem_append, mem_opt] at he
      rcases he with (⟨hu, rfl⟩ | ⟨hr0, rfl⟩) | ⟨hc0, rfl⟩ <;> simp [link, Before] <;> omega
    · simp only [List.pairwise_append, pairwise_opt, true_and]
      refine ⟨?_, ?_⟩
      · intro a ha b hb
        rw [mem_opt] at ha hb
        rw [ha.2, hb.2]; simp [link, Before]
      · intro a ha b hb
        simp only [List.mem_append, mem_opt] at ha hb
        rcases ha with ha | ha <;> rw [ha.2, hb.2] <;> simp [link, Before] <;> omega
  | box l r c =>
    obtain ⟨hl, hr, hc⟩ := hq
    simp only [loOf]
    cases hk : kindOf (typeAt g l) c with
    | none => simp
    | solid =>
      simp only [solidLo]
      constructor
      · intro e he
        simp only [List.mem_append, mem_opt] at he
        rcases he with (⟨hu, rfl⟩ | ⟨hr0, rfl⟩) | ⟨hc0, rfl⟩ <;> simp [link, Before] <;> omega
      · simp only [List.pairwise_append, pairwise_opt, true_and]
        refine ⟨?_, ?_⟩ <;>
        · intro a ha b hb
          simp only [List.mem_append, mem_opt] at ha hb
          first
            | (rcases ha with ha | ha <;> rw [ha.2, hb.2] <;> simp [link, Before] <;> omega)
            | (rw [ha.2, hb.2]; simp [link, Before]; omega)
    | liquid4 =>
      simp only [liquid4Lo]
      constructor
      · intro e he
        simp only [List.mem_append, mem_opt] at he
        rcases he with (⟨hu, rfl⟩ | ⟨hr0, rfl⟩) | ⟨hc0, rfl⟩ <;> simp [link, flow, Before] <;> omega
      · simp only [List.pairwise_append, pairwise_opt, true_and]
        refine ⟨?_, ?_⟩ <;>
        · intro a ha b hb
          simp only [List.mem_append, mem_opt] at ha hb
          first
            | (rcases ha with ha | ha <;> rw [ha.2, hb.2] <;> simp [link, flow, Before] <;> omega)
            | (rw [ha.2, hb.2]; simp [link, flow, Before]; omega)
    | liquid2 =>
      obtain ⟨k, rfl, hb⟩ := liquid2_block wf hl hk
      simp only [liquid2Lo]
      constructor
      · intro e he
        simp only [List.mem_append, mem_opt] at he
        rcases he with ⟨hu, rfl⟩ | ⟨hr0, rfl⟩ <;> simp [link, flow, Before] <;> omega
      · simp only [List.pairwise_append, pairwise_opt, true_and]
        intro a ha b hb
        simp only [mem_opt] at ha hb
        rw [ha.2, hb.2]; simp [link, flow, Before]
    | vwall =>
      obtain ⟨k, rfl, hb⟩ := vwall_block wf hl hk
      simp only [vwallLo]
      constructor
      · intro e he
        simp only [List.mem_append, mem_opt] at he
        rcases he with ⟨hu, rfl⟩ | ⟨hr0, rfl⟩ <;> simp [link, flow, Before] <;> omega
      · simp only [List.pairwise_append, pairwise_opt, true_and]
        intro a ha b hb
        simp only [mem_opt] at ha hb
        rw [ha.2, hb.2]; simp [link, flow, Before]
    | top =>
      obtain ⟨k, rfl, hb⟩ := top_block wf hl hk
      simp only [topWallLo]
      constructor
      · intro e he
        simp only [List.mem_append, mem_opt] at he
        rcases he with ⟨hu, rfl⟩ | ⟨hr0, rfl⟩ <;> simp [link, flow, Before] <;> omega
      · simp only [List.pairwise_append, pairwise_opt, true_and]
        intro a ha b hb
        simp only [mem_opt] at ha hb
        rw [ha.2, hb.2]; simp [link, flow, Before]
    | bottom =>
      simp only [bottomWallLo]
      constructor
      · intro e he
        simp only [mem_opt] at he
        obtain ⟨h0, rfl⟩ := he
        simp [link, Before]; omega
      · exact pairwise_opt _ _

omit ph in
theorem before_hi {q : Cell} (hq : Valid g d q) : (∀ e ∈ hiOf g d q, Before q e.cell) ∧
    (hiOf g d q).Pairwise (fun a b => Before a.cell b.cell) := by
  cases q with
  | spr r c =>
    obtain ⟨s, m, ht, hr, hc⟩ := hq
    simp only [hiOf, ht, sprHi]
    constructor
    · intro e he
      simp only [List.mem_append, mem_opt] at he
      rcases he with ⟨hr0, rfl⟩ | ⟨hc0, rfl⟩ <;> simp [link, Before]
    · simp only [List.pairwise_append, pairwise_opt, true_and]
      intro a ha b hb
      simp only [mem_opt] at ha hb
      rw [ha.2, hb.2]; simp [link, Before]
  | box l r c =>
    obtain ⟨hl, hr, hc⟩ := hq
    simp only [hiOf]
    have hab : ∀ l' r' c', Before (.box l' r' c') (aboveCell g r c) := by
      intro l' r' c'
      unfold aboveCell
      cases spreaderOf g <;> simp [Before]
    cases hk : kindOf (typeAt g l) c with
    | none => simp
    | solid =>
      simp only [solidHi]
      constructor
      · intro e he
        simp only [List.mem_append, mem_opt] at he
        rcases he with ((⟨hu, rfl⟩ | ⟨hr0, rfl⟩) | ⟨hc0, rfl⟩) | ⟨h0, rfl⟩ <;> simp only [link]
        · simp [Before]
        · simp [Before]
        · simp [Before]
        · exact hab _ _ _
      · simp only [List.pairwise_append, pairwise_opt, true_and]
        refine ⟨⟨?_, ?_⟩, ?_⟩
        · intro a ha b hb
          simp only [List.mem_append, mem_opt] at ha hb
          rw [ha.2, hb.2]; simp [link, Before]
        · intro a ha b hb
          simp only [List.mem_append, mem_opt] at ha hb
          rcases ha with ha | ha <;> rw [ha.2, hb.2] <;> simp [link, Before]
        · intro a ha b hb
          simp only [List.mem_append, mem_opt] at ha hb
          rcases ha with (ha | ha) | ha <;> rw [ha.2, hb.2] <;> exact hab _ _ _
    | liquid4 =>
      simp only [liquid4Hi]
      constructor
      · intro e he
        simp only [List.mem_append, mem_opt] at he
        rcases he with (⟨hu, rfl⟩ | ⟨hr0, rfl⟩) | ⟨hc0, rfl⟩ <;> simp [link, flow, Before]
      · simp only [List.pairwise_append, pairwise_opt, true_and]
        refine ⟨?_, ?_⟩
        · intro a ha b hb
          simp only [List.mem_append, mem_opt] at ha hb
          rw [ha.2, hb.2]; simp [link, flow, Before]
        · intro a ha b hb
          simp only [List.mem_append, mem_opt] at ha hb
          rcases ha with ha | ha <;> rw [ha.2, hb.2] <;> simp [link, flow, Before]
    | liquid2 =>
      simp only [liquid2Hi]
      constructor
      · intro e he
        simp only [List.mem_append, mem_opt] at he
        rcases he with ⟨hu, rfl⟩ | ⟨hr0, rfl⟩ <;> simp [link, flow, Before]
      · simp only [List.pairwise_append, pairwise_opt, true_and]
        intro a ha b hb
        simp only [mem_opt] at ha hb
        rw [ha.2, hb.2]; simp [link, flow, Before]
    | vwall =>
      simp only [vwallHi]
      constructor
      · intro e he
        simp only [List.mem_append, mem_opt] at he
        rcases he with ⟨hu, rfl⟩ | ⟨hr0, rfl⟩ <;> simp [link, flow, Before]
      · simp only [List.pairwise_append, pairwise_opt, true_and]
        intro a ha b hb
        simp only [mem_opt] at ha hb
        rw [ha.2, hb.2]; simp [link, flow, Before]
    | top =>
      simp only [topWallHi]
      constructor
      · intro e he
        simp only [mem_opt] at he
        obtain ⟨h0, rfl⟩ := he
        simp [link, Before]
      · exact pairwise_opt _ _
    | bottom =>
      simp only [bottomWallHi]
      constructor
      · intro e he
        simp only [List.mem_append, mem_opt] at he
        rcases he with ⟨hu, rfl⟩ | ⟨hr0, rfl⟩ <;> simp [link, flow, Before]
      · simp only [List.pairwise_append, pairwise_opt, true_and]
        intro a ha b hb
        simp only [mem_opt] at ha hb
        rw [ha.2, hb.2]; simp [link, flow, Before]

end
end Verif.SM
