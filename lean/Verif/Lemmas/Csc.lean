import Verif.Lemmas.Mirror
import Verif.Lemmas.Assembly

set_option linter.unusedSectionVars false
set_option linter.unusedSimpArgs false
set_option linter.unusedVariables false

/-! The compressed-column arrays written by `fill_system_matrix`, read back as a matrix. -/

namespace Verif.SM
open Verif.Dim Verif.TG Verif.Stk

/-- Coefficient (i, j) of a compressed-column matrix: the sum of the values stored for row `i` between the j-th and the
(j+1)-th column pointer. This is the reading of the arrays used by the solver and by any user of the format. -/
def Csc.entry {K : Type} [Field K] (m : Csc K) (i j : Nat) : K :=
  ∑ k ∈ Finset.Ico (m.colPtr.getD j 0) (m.colPtr.getD (j + 1) 0), if m.rowIdx.getD k 0 = i then m.vals.getD k 0 else 0

section generic
variable {α K : Type}

theorem getD_append_left (A B : List α) (t : Nat) (z : α) (h : t < A.length) : (A ++ B).getD t z = A.getD t z := by
  rw [List.getD_eq_getElem?_getD, List.getD_eq_getElem?_getD, List.getElem?_append_left h]

theorem getD_append_right' (A B : List α) (t : Nat) (z : α) (h : A.length ≤ t) : (A ++ B).getD t z = B.getD (t - A.length) z := by
  rw [List.getD_eq_getElem?_getD, List.getD_eq_getElem?_getD, List.getElem?_append_right h]

theorem scanl_getD (L : List (List α)) (a j : Nat) (hj : j ≤ L.length) :
    (L.scanl (fun p col => p + col.length) a).getD j 0 = a + ((L.take j).map List.length).sum := by
  induction L generalizing a j with
  | nil => simp at hj; subst hj; simp
  | cons x L ih =>
    cases j with
    | zero => simp
    | succ j =>
      rw [List.scanl_cons, List.getD_cons_succ, ih _ _ (by simpa using hj), List.take_succ_cons, List.map_cons, List.sum_cons]
      omega

theorem flatMap_getD {β : Type} (L : List (List α)) (f : α → β) (z : β) {j t : Nat} {col : List α} (hj : L[j]? = some col)
    (ht : t < col.length) :
    (L.flatMap fun c => c.map f).getD (((L.take j).map List.length).sum + t) z = (col.map f).getD t z := by
  induction L generalizing j with
  | nil => simp at hj
  | cons x L ih =>
    cases j with
    | zero =>
      simp at hj; subst hj
      rw [List.flatMap_cons, List.take_zero, List.map_nil, List.sum_nil, zero_add, getD_append_left _ _ _ _ (by simpa using ht)]
    | succ j =>
      rw [List.getElem?_cons_succ] at hj
      rw [List.flatMap_cons, List.take_succ_cons, List.map_cons, List.sum_cons, getD_append_right' _ _ _ _ (by simp; omega),
        List.length_map, show x.length + ((L.take j).map List.length).sum + t - x.length = ((L.take j).map List.length).sum + t
          by omega]
      exact ih hj

theorem sum_range_list [Field K] (col : List (Nat × K)) (i : Nat) :
    (∑ t ∈ Finset.range col.length, if (col.map (·.1)).getD t 0 = i then (col.map (·.2)).getD t 0 else 0) =
      ((col.filter fun e => e.1 = i).map (·.2)).sum := by
  induction col with
  | nil => simp
  | cons x col ih =>
    rw [List.length_cons, Finset.sum_range_succ']
    simp only [List.map_cons, List.getD_cons_succ, List.getD_cons_zero]
    rw [ih]
    by_cases h : x.1 = i
    · rw [List.filter_cons_of_pos (by simpa using h), if_pos h]; simp [add_comm]
    · rw [List.filter_cons_of_neg (by simpa using h), if_neg h]; simp

theorem entry_of_columns [Field K] (cols : List (List (α × K))) (off : α → Nat) {i j : Nat} {col : List (α × K)}
    (hj : cols[j]? = some col) :
    (Csc.mk (cols.scanl (fun p c => p + c.length) 0) (cols.flatMap fun c => c.map fun e => off e.1)
      (cols.flatMap fun c => c.map (·.2))).entry i j = ((col.filter fun e => off e.1 = i).map (·.2)).sum := by
  have hlt : j < cols.length := (List.getElem?_eq_some_iff.mp hj).1
  unfold Csc.entry
  rw [scanl_getD _ _ _ hlt.le, scanl_getD _ _ _ hlt, List.take_add_one, hj, Option.toList_some, List.map_append, List.sum_append,
    Finset.sum_Ico_eq_sum_range]
  simp only [List.map_cons, List.map_nil, List.sum_cons, List.sum_nil, add_zero, zero_add]
  rw [Nat.add_sub_cancel_left]
  have := sum_range_list (col.map fun e => (off e.1, e.2)) i
  rw [List.length_map] at this
  have hfil : ((col.filter fun e => off e.1 = i).map (·.2)).sum =
      (((col.map fun e => (off e.1, e.2)).filter fun e => e.1 = i).map (·.2)).sum := by
    rw [List.filter_map, List.map_map]; rfl
  rw [hfil, ← this]
  refine Finset.sum_congr rfl fun t ht => ?_
  rw [Finset.mem_range] at ht
  rw [flatMap_getD cols (fun e => off e.1) 0 hj ht, flatMap_getD cols (fun e => e.2) 0 hj ht]
  simp only [List.map_map]; rfl

theorem flatMap_range (a b : Nat) : ((List.range a).flatMap fun r => (List.range b).map fun c => r * b + c) = List.range (a * b) := by
  induction a with
  | zero => simp
  | succ a ih =>
    rw [List.range_succ, List.flatMap_append, ih, Nat.succ_mul, List.range_add]
    simp

end generic

variable {K : Type} [Field K] [LinearOrder K] [IsStrictOrderedRing K]

/-- The cells in the order of their columns. -/
def cells (g : TGrid K) (d : Dims K) : List Cell :=
  ((List.range d.nLayers).flatMap fun l => (List.range d.nRows).flatMap fun r => (List.range d.nCols).map fun c => Cell.box l r c) ++
  (match g.top with
    | some (.pluggable s m) => (List.range s.nRows).flatMap fun r => (List.range s.nCols).map fun c => Cell.spr r c
    | _ => [])

/-- Number of thermal cells, heat spreader included. -/
def size (g : TGrid K) (d : Dims K) : Nat := d.nLayers * d.nRows * d.nCols + spreaderCells (spreaderOf g)

section
variable {g : TGrid K} {d : Dims K} (wf : WF g d) (ph : Physical g d)
include wf

theorem mem_cells {p : Cell} : p ∈ cells g d ↔ Valid g d p := by
  unfold cells
  cases ht : g.top with
  | none => cases p <;> simp [Valid, ht]
  | some t =>
    cases t with
    | ambient s => cases p <;> simp [Valid, ht]
    | pluggable s m => cases p <;> simp [Valid, ht]

theorem cells_offset : (cells g d).map (offset d (spreaderOf g)) = List.range (size g d) := by
  have hbox : (((List.range d.nLayers).flatMap fun l => (List.range d.nRows).flatMap fun r => (List.range d.nCols).map fun c =>
      Cell.box l r c).map (offset d (spreaderOf g))) = List.range (d.nLayers * d.nRows * d.nCols) := by
    rw [Nat.mul_assoc, ← flatMap_range d.nLayers (d.nRows * d.nCols)]
    rw [List.map_flatMap]
    refine List.flatMap_congr fun l hl => ?_
    rw [← flatMap_range d.nRows d.nCols, List.map_flatMap, List.map_flatMap]
    refine List.flatMap_congr fun r hr => ?_
    simp only [List.map_map]
    refine List.map_congr_left fun c hc => ?_
    rw [List.mem_range] at hl hr hc
    simp only [Function.comp_apply, offset]
    rw [(offInStack_eq wf.acc hl hr hc).1]
    first | done | ring
  unfold cells size
  rw [List.map_append, hbox, List.range_add]
  congr 1
  cases ht : g.top with
  | none => simp [spreaderOf, ht, spreaderCells]
  | some t =>
    cases t with
    | ambient s => simp [spreaderOf, ht, spreaderCells]
    | pluggable s m =>
      have hs : spreaderOf g = some s := by simp [spreaderOf, ht]
      have hacc := wf.acc
      rw [hs] at hacc
      simp only [hs, spreaderCells]
      rw [← flatMap_range, List.map_flatMap, List.map_flatMap]
      refine List.flatMap_congr fun r hr => ?_
      simp only [List.map_map]
      refine List.map_congr_left fun c hc => ?_
      rw [List.mem_range] at hr hc
      simp only [Function.comp_apply, offset]
      rw [(spreaderOffset_eq hacc hr hc).1, ← Nat.mul_assoc]
      all_goals omega

theorem cells_length : (cells g d).length = size g d := by
  have := congrArg List.length (cells_offset wf)
  simpa using this

theorem cells_get {k : Nat} {p : Cell} (h : (cells g d)[k]? = some p) : offset d (spreaderOf g) p = k ∧ Valid g d p := by
  refine ⟨?_, (mem_cells wf).mp (List.mem_of_getElem? h)⟩
  have h1 : ((cells g d).map (offset d (spreaderOf g)))[k]? = some (offset d (spreaderOf g) p) := by
    rw [List.getElem?_map, h]; rfl
  rw [cells_offset wf] at h1
  obtain ⟨h2, h3⟩ := List.getElem?_eq_some_iff.mp h1
  simpa using h3.symm

theorem cells_offset_get {p : Cell} (h : Valid g d p) : (cells g d)[offset d (spreaderOf g) p]? = some p := by
  obtain ⟨k, hk⟩ := List.mem_iff_getElem?.mp ((mem_cells wf).mpr h)
  rw [(cells_get wf hk).1]; exact hk

theorem offset_lt_size {p : Cell} (h : Valid g d p) : offset d (spreaderOf g) p < size g d := by
  rw [← cells_length wf]
  exact (List.getElem?_eq_some_iff.mp (cells_offset_get wf h)).1

theorem offset_inj {p q : Cell} (hp : Valid g d p) (hq : Valid g d q) (h : offset d (spreaderOf g) p = offset d (spreaderOf g) q) :
    p = q := by
  have h1 := cells_offset_get wf hp
  rw [h, cells_offset_get wf hq] at h1
  simpa using h1.symm

theorem type_ne_none {l : Nat} (hl : l < d.nLayers) : typeAt g l ≠ .none := by
  intro hx
  by_cases h0 : l + 1 < d.nLayers
  · have := wf.chain l h0; rw [hx] at this; simp [adj, solidish] at this
  · have := wf.last; rw [show d.nLayers - 1 = l by omega, hx] at this; simp [solidish] at this

theorem columns_eq (a : Ana K) : columns g a d = (cells g d).map (columnOf g a d) := by
  unfold columns cells
  rw [List.map_append, wf.nl]
  congr 1
  · rw [List.map_flatMap]
    refine List.flatMap_congr fun l hl => ?_
    rw [List.mem_range] at hl
    unfold layerColumns
    rw [if_neg (type_ne_none wf hl), wf.lastRow, wf.lastColumn]
    have hr := wf.acc.rows
    have hc := wf.acc.cols
    rw [Nat.sub_add_cancel hr, Nat.sub_add_cancel hc, List.map_flatMap]
    refine List.flatMap_congr fun r _ => ?_
    rw [List.map_map]; rfl
  · unfold spreaderColumns
    cases ht : g.top with
    | none => simp
    | some t =>
      cases t with
      | ambient s => simp
      | pluggable s m =>
        simp only [List.map_flatMap, List.map_map]
        refine List.flatMap_congr fun r _ => List.map_congr_left fun c _ => ?_
        simp [columnOf, ht]

/-- The cell of a column. -/
def cellAt (g : TGrid K) (d : Dims K) (j : Nat) : Cell := (cells g d).getD j (.box 0 0 0)

theorem cellAt_valid {j : Nat} (hj : j < size g d) : Valid g d (cellAt g d j) ∧ offset d (spreaderOf g) (cellAt g d j) = j := by
  have h : (cells g d)[j]? = some (cellAt g d j) := by
    rw [← cells_length wf] at hj
    unfold cellAt
    rw [List.getD_eq_getElem?_getD, List.getElem?_eq_getElem hj]; rfl
  exact ⟨(cells_get wf h).2, (cells_get wf h).1⟩

theorem cellAt_offset {p : Cell} (hp : Valid g d p) : cellAt g d (offset d (spreaderOf g) p) = p := by
  unfold cellAt
  rw [List.getD_eq_getElem?_getD, cells_offset_get wf hp]; rfl

theorem columns_get (a : Ana K) {j : Nat} (hj : j < size g d) :
    (columns g a d)[j]? = some (columnOf g a d (cellAt g d j)) := by
  rw [columns_eq wf, List.getElem?_map]
  have h : (cells g d)[j]? = some (cellAt g d j) := by
    rw [← cells_length wf] at hj
    unfold cellAt
    rw [List.getD_eq_getElem?_getD, List.getElem?_eq_getElem hj]; rfl
  rw [h]; rfl

/-- The cell of row `i`, as an element of `Fin`. -/
def rowOf (g : TGrid K) (d : Dims K) (j : Fin (size g d)) (p : Cell) : Fin (size g d) :=
  if h : offset d (spreaderOf g) p < size g d then ⟨offset d (spreaderOf g) p, h⟩ else j

/-- The network of the grid. -/
def netw (g : TGrid K) (a : Ana K) (d : Dims K) : Net2.Netw (Fin (size g d)) K where
  base j := baseOf g a d (cellAt g d j)
  ents j := (loOf g d (cellAt g d j) ++ hiOf g d (cellAt g d j)).map fun e => (rowOf g d j e.cell, e.val, e.contrib)

theorem rowOf_val (j : Fin (size g d)) {p : Cell} (hp : Valid g d p) : (rowOf g d j p).val = offset d (spreaderOf g) p := by
  unfold rowOf
  rw [dif_pos (offset_lt_size wf hp)]

theorem valid_lo {q : Cell} (hq : Valid g d q) {e : Ent K} (he : e ∈ loOf g d q) : Valid g d e.cell := by
  cases q with
  | spr r c =>
    obtain ⟨s, m, ht, hr, hc⟩ := hq
    obtain ⟨g1, g2, g3, g4, g5⟩ := spr_geo wf ht
    simp only [loOf, ht, sprLo, List.mem_append, mem_opt] at he
    rcases he with (⟨hu, rfl⟩ | ⟨hr0, rfl⟩) | ⟨hc0, rfl⟩
    · unfold hasLayerUnderneath at hu
      rw [decide_eq_true_eq, Nat.mod_eq_of_lt (by omega), Nat.mod_eq_of_lt (by omega)] at hu
      rw [sub32_eq (by omega) hu.1, sub32_eq (by omega) hu.2.2.1, wf.lastLayer]
      have hL := wf.L1
      exact ⟨by omega, by omega, by omega⟩
    · exact ⟨s, m, ht, by omega, hc⟩
    · exact ⟨s, m, ht, hr, by omega⟩
  | box l r c =>
    obtain ⟨hl, hr, hc⟩ := hq
    simp only [loOf] at he
    cases hk : kindOf (typeAt g l) c <;> rw [hk] at he <;>
      simp only [solidLo, liquid4Lo, liquid2Lo, vwallLo, topWallLo, bottomWallLo, List.mem_append, mem_opt, List.not_mem_nil] at he
    · rcases he with (⟨h0, rfl⟩ | ⟨h0, rfl⟩) | ⟨h0, rfl⟩ <;> exact ⟨by omega, by omega, by omega⟩
    · rcases he with (⟨h0, rfl⟩ | ⟨h0, rfl⟩) | ⟨h0, rfl⟩ <;> exact ⟨by omega, by omega, by omega⟩
    · rcases he with ⟨h0, rfl⟩ | ⟨h0, rfl⟩ <;> exact ⟨by omega, by omega, by omega⟩
    · rcases he with ⟨h0, rfl⟩ | ⟨h0, rfl⟩ <;> exact ⟨by omega, by omega, by omega⟩
    · rcases he with ⟨h0, rfl⟩ | ⟨h0, rfl⟩ <;> exact ⟨by omega, by omega, by omega⟩
    · obtain ⟨h0, rfl⟩ := he; exact ⟨by omega, by omega, by omega⟩

theorem valid_hi {q : Cell} (hq : Valid g d q) {e : Ent K} (he : e ∈ hiOf g d q) : Valid g d e.cell := by
  cases q with
  | spr r c =>
    obtain ⟨s, m, ht, hr, hc⟩ := hq
    obtain ⟨g1, g2, g3, g4, g5⟩ := spr_geo wf ht
    simp only [hiOf, ht, sprHi, List.mem_append, mem_opt] at he
    rcases he with ⟨h0, rfl⟩ | ⟨h0, rfl⟩
    · rw [sub32_eq (by omega) (by omega)] at h0
      exact ⟨s, m, ht, hr, by omega⟩
    · rw [sub32_eq (by omega) (by omega)] at h0
      exact ⟨s, m, ht, by omega, hc⟩
  | box l r c =>
    obtain ⟨hl, hr, hc⟩ := hq
    have hlr := wf.lastRow
    have hlc := wf.lastColumn
    have hll := wf.lastLayer
    simp only [hiOf] at he
    cases hk : kindOf (typeAt g l) c with
    | none => rw [hk] at he; cases he
    | solid =>
      rw [hk] at he
      simp only [solidHi, List.mem_append, mem_opt] at he
      rcases he with ((⟨h0, rfl⟩ | ⟨h0, rfl⟩) | ⟨h0, rfl⟩) | ⟨h0, rfl⟩
      · exact ⟨hl, hr, by omega⟩
      · exact ⟨hl, by omega, hc⟩
      · exact ⟨by omega, hr, hc⟩
      · obtain ⟨-, s, m, ht⟩ := (wf.spr l hl).mp h0
        obtain ⟨g1, g2, g3, g4, g5⟩ := spr_geo wf ht
        simp only [link, aboveCell, g5]
        rw [Nat.mod_eq_of_lt (by omega), Nat.mod_eq_of_lt (by omega)]
        exact ⟨s, m, ht, by omega, by omega⟩
    | liquid4 =>
      rw [hk] at he
      simp only [liquid4Hi, List.mem_append, mem_opt] at he
      rcases he with (⟨h0, rfl⟩ | ⟨h0, rfl⟩) | ⟨h0, rfl⟩ <;> exact ⟨by omega, by omega, by omega⟩
    | liquid2 =>
      rw [hk] at he
      simp only [liquid2Hi, List.mem_append, mem_opt] at he
      rcases he with ⟨h0, rfl⟩ | ⟨h0, rfl⟩ <;> exact ⟨by omega, by omega, by omega⟩
    | vwall =>
      rw [hk] at he
      obtain ⟨k, rfl, hb⟩ := vwall_block wf hl hk
      obtain ⟨-, h4, -⟩ := bottom_block wf (by omega) hb
      simp only [vwallHi, List.mem_append, mem_opt] at he
      rcases he with ⟨h0, rfl⟩ | ⟨h0, rfl⟩ <;> exact ⟨by omega, by omega, by omega⟩
    | top =>
      rw [hk] at he
      simp only [topWallHi, mem_opt] at he
      obtain ⟨h0, rfl⟩ := he; exact ⟨by omega, by omega, by omega⟩
    | bottom =>
      rw [hk] at he
      obtain ⟨-, h4, -⟩ := bottom_block wf hl hk
      simp only [bottomWallHi, List.mem_append, mem_opt] at he
      rcases he with ⟨h0, rfl⟩ | ⟨h0, rfl⟩ <;> exact ⟨by omega, by omega, by omega⟩

theorem ent_valid {q : Cell} (hq : Valid g d q) {e : Ent K} (he : e ∈ loOf g d q ++ hiOf g d q) : Valid g d e.cell := by
  rcases List.mem_append.mp he with h | h
  · exact valid_lo wf hq h
  · exact valid_hi wf hq h

theorem ent_off {q : Cell} (hq : Valid g d q) {e : Ent K} (he : e ∈ loOf g d q ++ hiOf g d q) :
    offset d (spreaderOf g) e.cell ≠ offset d (spreaderOf g) q := by
  have hv := ent_valid wf hq he
  rcases List.mem_append.mp he with h | h
  · exact (offset_lt wf hv hq ((before_lo wf hq).1 e h)).ne
  · exact (offset_lt wf hq hv ((before_hi wf hq).1 e h)).ne'

/-- Row numbers in a column are strictly increasing. -/
theorem column_sorted (a : Ana K) {q : Cell} (hq : Valid g d q) :
    ((columnOf g a d q).map fun e => offset d (spreaderOf g) e.1).Pairwise (· < ·) := by
  rw [column_eq wf a hq, assemble, List.map_append, List.map_append, List.map_map, List.map_map, List.append_assoc]
  simp only [List.map_cons, List.map_nil, List.singleton_append]
  have lo := before_lo wf hq
  have hi := before_hi wf hq
  have vlo : ∀ e ∈ loOf g d q, Valid g d e.cell := fun e he => valid_lo wf hq he
  have vhi : ∀ e ∈ hiOf g d q, Valid g d e.cell := fun e he => valid_hi wf hq he
  rw [List.pairwise_append, List.pairwise_cons, List.pairwise_map, List.pairwise_map]
  refine ⟨?_, ⟨?_, ?_⟩, ?_⟩
  · exact lo.2.imp_of_mem fun ha hb h => offset_lt wf (vlo _ ha) (vlo _ hb) h
  · intro x hx
    obtain ⟨e, he, rfl⟩ := List.mem_map.mp hx
    exact offset_lt wf hq (vhi e he) (hi.1 e he)
  · exact hi.2.imp_of_mem fun ha hb h => offset_lt wf (vhi _ ha) (vhi _ hb) h
  · intro x hx y hy
    obtain ⟨e, he, rfl⟩ := List.mem_map.mp hx
    have h1 := offset_lt wf (vlo e he) hq (lo.1 e he)
    rcases List.mem_cons.mp hy with rfl | hy
    · exact h1
    · obtain ⟨e', he', rfl⟩ := List.mem_map.mp hy
      exact h1.trans (offset_lt wf hq (vhi e' he') (hi.1 e' he'))

include ph

theorem netw_ok (a : Ana K) : (netw g a d).Ok := by
  constructor
  · intro j
    obtain ⟨hv, ho⟩ := cellAt_valid wf j.2
    have hs := column_sorted wf a hv
    rw [column_eq wf a hv, assemble, List.map_append, List.map_append, List.map_map, List.map_map, List.append_assoc] at hs
    simp only [List.map_cons, List.map_nil, List.singleton_append] at hs
    have hs2 : ((loOf g d (cellAt g d j) ++ hiOf g d (cellAt g d j)).map fun e => offset d (spreaderOf g) e.cell).Pairwise (· < ·) := by
      rw [List.map_append]
      refine hs.sublist ?_
      exact List.Sublist.append (List.Sublist.refl _) (List.sublist_cons_self _ _)
    show (((loOf g d (cellAt g d j) ++ hiOf g d (cellAt g d j)).map fun e => (rowOf g d j e.cell, e.val, e.contrib)).map (·.1)).Nodup
    rw [List.map_map]
    refine List.Nodup.of_map (fun i : Fin (size g d) => i.val) ?_
    rw [List.map_map]
    have : List.map ((fun i : Fin (size g d) => i.val) ∘ (fun x : Fin (size g d) × K × K => x.1) ∘ fun e : Ent K => (rowOf g d j e.cell, e.val, e.contrib))
        (loOf g d (cellAt g d j) ++ hiOf g d (cellAt g d j)) =
        (loOf g d (cellAt g d j) ++ hiOf g d (cellAt g d j)).map fun e => offset d (spreaderOf g) e.cell :=
      List.map_congr_left fun e he => rowOf_val wf j (ent_valid wf hv he)
    rw [this]
    exact hs2.imp (fun h => Nat.ne_of_lt h)
  · intro j e he
    obtain ⟨hv, ho⟩ := cellAt_valid wf j.2
    obtain ⟨x, hx, rfl⟩ := List.mem_map.mp he
    intro h
    have h2 := congrArg Fin.val h
    simp only at h2
    rw [rowOf_val wf j (ent_valid wf hv hx)] at h2
    exact ent_off wf hv hx (h2.trans ho.symm)
  · intro j e he
    obtain ⟨hv, ho⟩ := cellAt_valid wf j.2
    obtain ⟨x, hx, rfl⟩ := List.mem_map.mp he
    have hvx := ent_valid wf hv hx
    have hm : ∃ e' ∈ loOf g d x.cell ++ hiOf g d x.cell, e'.cell = cellAt g d j ∧ Mir x e' := by
      rcases List.mem_append.mp hx with h | h
      · obtain ⟨-, e', h1, h2⟩ := mirror_lo wf ph hv h
        exact ⟨e', List.mem_append_right _ h1, h2⟩
      · obtain ⟨-, e', h1, h2⟩ := mirror_hi wf ph hv h
        exact ⟨e', List.mem_append_left _ h1, h2⟩
    obtain ⟨e', he', hc, hmir⟩ := hm
    have hcell : cellAt g d (rowOf g d j x.cell) = x.cell := by
      rw [rowOf_val wf j hvx]; exact cellAt_offset wf hvx
    refine ⟨(rowOf g d (rowOf g d j x.cell) e'.cell, e'.val, e'.contrib), ?_, ?_, hmir.1, hmir.2⟩
    · refine List.mem_map.mpr ⟨e', ?_, rfl⟩
      simp only [hcell]; exact he'
    · apply Fin.ext
      simp only
      rw [hc, rowOf_val wf _ hv, ho]

omit wf ph in
/-- The matrix stored in the arrays. -/
def matrix (g : TGrid K) (a : Ana K) (d : Dims K) : Matrix (Fin (size g d)) (Fin (size g d)) K :=
  fun i j => (fillMatrix g a d).entry i j

omit ph in
theorem matrix_eq (a : Ana K) : matrix g a d = (netw g a d).mat := by
  funext i j
  obtain ⟨hv, ho⟩ := cellAt_valid wf j.2
  unfold matrix fillMatrix
  rw [entry_of_columns (columns g a d) (offset d (spreaderOf g)) (columns_get wf a j.2), column_eq wf a hv, assemble]
  rw [List.filter_append, List.filter_append, List.map_append, List.map_append, List.sum_append, List.sum_append]
  unfold Net2.Netw.mat Net2.pick
  have hmid : ((List.filter (fun e : Cell × K => decide (offset d (spreaderOf g) e.1 = i))
      [(cellAt g d j, baseOf g a d (cellAt g d j) + ((loOf g d (cellAt g d j) ++ hiOf g d (cellAt g d j)).map (·.contrib)).sum)]).map (·.2)).sum =
      if i = j then (netw g a d).base j + (((netw g a d).ents j).map fun e => e.2.2).sum else 0 := by
    have hsum : (((netw g a d).ents j).map fun e => e.2.2).sum =
        ((loOf g d (cellAt g d j) ++ hiOf g d (cellAt g d j)).map (·.contrib)).sum := by
      simp only [netw, List.map_map]; rfl
    rw [hsum]
    by_cases h : i = j
    · subst h; rw [List.filter_cons_of_pos (by simpa using ho)]; simp [netw]
    · rw [List.filter_cons_of_neg (by rw [ho]; simpa using fun hx => h (Fin.ext hx.symm))]; simp [h]
  have hoff : ∀ L : List (Ent K), (∀ e ∈ L, Valid g d e.cell) →
      ((List.filter (fun e : Cell × K => decide (offset d (spreaderOf g) e.1 = i)) (L.map fun e => (e.cell, e.val))).map (·.2)).sum =
      (((L.map fun e => (rowOf g d j e.cell, e.val, e.contrib)).filter fun e => decide (e.1 = i)).map fun e => e.2.1).sum := by
    intro L hL
    induction L with
    | nil => simp
    | cons x L ih =>
      have hx := rowOf_val wf j (hL x (by simp))
      have ih' := ih fun e he => hL e (by simp [he])
      rw [List.map_cons, List.map_cons]
      by_cases h : offset d (spreaderOf g) x.cell = i
      · rw [List.filter_cons_of_pos (by simpa using h), List.filter_cons_of_pos (by
          rw [decide_eq_true_eq]; exact Fin.ext (hx.trans h))]
        rw [List.map_cons, List.map_cons, List.sum_cons, List.sum_cons, ih']
      · rw [List.filter_cons_of_neg (by simpa using h), List.filter_cons_of_neg (by
          rw [decide_eq_true_eq]; exact fun hh => h (hx.symm.trans (congrArg Fin.val hh)))]
        exact ih'
  rw [hmid, hoff _ (fun e he => ent_valid wf hv (List.mem_append_left _ he)),
    hoff _ (fun e he => ent_valid wf hv (List.mem_append_right _ he))]
  simp only [netw, List.map_append, List.filter_append, List.sum_append]
  ring

end

end Verif.SM
