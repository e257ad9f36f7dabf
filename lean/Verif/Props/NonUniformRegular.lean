import Verif.Props.NonUniformSameSrc
import Verif.Lemmas.Demo

set_option linter.unusedSectionVars false
set_option linter.unusedSimpArgs false
set_option linter.unusedVariables false

/-! # C56, third part: when the cells are those of the uniform grid, and what follows for the solutions -/

namespace Verif.NU
open Verif.Dim Verif.TG Verif.Stk Verif.SM

variable {K : Type} [Field K] [LinearOrder K] [IsStrictOrderedRing K]
variable {d0 : Dims K} {rs : List (Raw K (List (FEl K)))} {ns : List (NElem K)} {G : Grid K} {a : Ana K} {m : Csc K}

/-! ## Specification -/

/-- A rectangle made of `nx` columns and `ny` rows of cells of the uniform grid. -/
def OnGrid (d : Dims K) (r : Rect K) (nx ny : Nat) : Prop :=
  ∃ c0 r0, r.x = (c0 : Nat) * d.wall ∧ r.y = (r0 : Nat) * d.width ∧ r.length = nx * d.wall ∧ r.width = ny * d.width ∧
    c0 + nx ≤ d.nCols ∧ r0 + ny ≤ d.nRows ∧ 0 < nx ∧ 0 < ny

/-- The stack description asks for the cells of the uniform grid: the layers are discretized like the chip, the rectangles of the
floorplan elements lie on the grid and are discretized in as many columns and rows as they span. -/
def Regular (d : Dims K) (ns : List (NElem K)) : Prop :=
  ∀ n ∈ ns, match n.elem.body with
    | .die b => ∀ e ∈ b.flp, OnGrid d e.rect (fixEl n e).dx (fixEl n e).dy
    | .layer _ => OnGrid d (chipRect d) n.dx n.dy
    | .channel _ => True

/-- All the cells of the uniform grid have the same positive sides (a stack without channels). -/
def EqualCells (d : Dims K) : Prop := d.firstWall = d.wall ∧ d.channel = d.wall ∧ d.lastWall = d.wall ∧ 0 < d.wall ∧ 0 < d.width

/-- Every layer has one material, the same in the two modes. -/
def OneMaterial (G : Grid K) : Prop := ∀ q ∈ G.cells, ∀ r c, ownMat G q = cellMaterial (layerAt G.g q.layer) G.d r c

/-! ## Proofs -/

theorem equal_col {d : Dims K} (h : EqualCells d) (hs : Sized d) {c : Nat} (hc : c < d.nCols) : locX d c = (c : K) * d.wall ∧ cellLength d c = d.wall := by
  obtain ⟨h1, h2, h3, -, -⟩ := h
  constructor
  · exact Flp.locX_uniform d.wall h1 rfl h2 (by have := hs.cols.2; omega)
  · unfold cellLength
    rw [if_neg (by rw [lastColumn_eq hs.cols.1 hs.cols.2]; omega), h1, h2, h3]; split_ifs <;> rfl

theorem equal_row {d : Dims K} (hs : Sized d) {r : Nat} (hr : r < d.nRows) : locY d r = (r : K) * d.width ∧ cellWidth d r = d.width := by
  constructor
  · unfold locY; ring
  · unfold cellWidth; rw [if_neg (by rw [lastRow_eq hs.rows.1 hs.rows.2]; omega)]

/-- The parts of a rectangle of the grid are cells of the grid. -/
theorem onGrid_part {d : Dims K} (he : EqualCells d) (hs : Sized d) {r : Rect K} {nx ny : Nat} (h : OnGrid d r nx ny) {s : Nat} (hlt : s < nx * ny)
    {q : Cell K} (hin : InPart r nx ny s q) : ∃ i j, i < d.nRows ∧ j < d.nCols ∧ q.x0 = locX d j ∧ q.x1 = locX d j + cellLength d j ∧
      q.y0 = locY d i ∧ q.y1 = locY d i + cellWidth d i := by
  obtain ⟨c0, r0, h1, h2, h3, h4, h5, h6, h7, h8⟩ := h
  obtain ⟨p1, p2, p3, p4⟩ := hin
  have hm : s % nx < nx := Nat.mod_lt _ h7
  have hd : s / nx < ny := Nat.div_lt_of_lt_mul hlt
  have hx : (nx : K) ≠ 0 := by exact_mod_cast (by omega : nx ≠ 0)
  have hy : (ny : K) ≠ 0 := by exact_mod_cast (by omega : ny ≠ 0)
  have ec := equal_col he hs (c := c0 + s % nx) (by omega)
  have er := equal_row hs (r := r0 + s / nx) (by omega)
  refine ⟨r0 + s / nx, c0 + s % nx, by omega, by omega, ?_, ?_, ?_, ?_⟩
  · rw [p1, ec.1, h1, h3]; push_cast; field_simp
  · rw [p2, ec.1, ec.2, h1, h3]; push_cast; field_simp; ring
  · rw [p3, er.1, h2, h4]; push_cast; field_simp
  · rw [p4, er.1, er.2, h2, h4]; push_cast; field_simp; ring

theorem sub_part {r : Rect K} {nx ny l : Nat} {mt : Material K} {q : Cell K} (h : q ∈ subCells r nx ny l mt) :
    ∃ s, s < nx * ny ∧ InPart r nx ny s q := by
  unfold subCells at h
  obtain ⟨s, hs, rfl⟩ := List.mem_map.mp h
  exact ⟨s, List.mem_range.mp hs, rfl, rfl, rfl, rfl⟩

theorem fixEl_idem (n : NElem K) (e : FEl K) :
    (if (fixEl n e).dx = 0 ∨ (fixEl n e).dy = 0 then (n.dx, n.dy) else ((fixEl n e).dx, (fixEl n e).dy)) = ((fixEl n e).dx, (fixEl n e).dy) := by
  unfold fixEl
  by_cases h : e.dx ≠ 0 ∧ e.dy ≠ 0
  · rw [if_pos h, if_neg (by tauto)]
  · rw [if_neg h]; simp

theorem elem_part {d : Dims K} {cur : Nat} {n : NElem K} {lc : List (Cell K)} (hl : lc ∈ elemLayers d cur (fixDiscr n)) {q : Cell K} (hq : q ∈ lc)
    (hno : isChannel n.elem = false) (hr : match n.elem.body with
      | .die b => ∀ e ∈ b.flp, OnGrid d e.rect (fixEl n e).dx (fixEl n e).dy
      | .layer _ => OnGrid d (chipRect d) n.dx n.dy
      | .channel _ => True) :
    ∃ r nx ny s, OnGrid d r nx ny ∧ s < nx * ny ∧ InPart r nx ny s q := by
  unfold elemLayers fixDiscr at hl
  cases hb : n.elem.body with
  | die b =>
    rw [hb] at hr
    simp only [hb] at hl
    simp only [List.mem_map] at hl
    obtain ⟨li, -, rfl⟩ := hl
    unfold dieLayer at hq
    obtain ⟨e', he', hq⟩ := List.mem_flatMap.mp hq
    obtain ⟨e, he, rfl⟩ := List.mem_map.mp he'
    simp only at hq
    rw [fixEl_idem] at hq
    obtain ⟨s, hs, hin⟩ := sub_part hq
    rw [fixEl_rect] at hin
    exact ⟨_, _, _, s, hr e he, hs, hin⟩
  | layer ly =>
    rw [hb] at hr
    simp only [hb] at hl
    rw [List.mem_singleton] at hl
    subst hl
    obtain ⟨s, hs, hin⟩ := sub_part hq
    exact ⟨_, _, _, s, hr, hs, hin⟩
  | channel ch => unfold isChannel at hno; rw [hb] at hno; cases hno

theorem stack_part {d : Dims K} : ∀ (ns : List (NElem K)) (cur : Nat), (∀ n ∈ ns, isChannel n.elem = false) → Regular d ns → ∀ lc ∈ stackLayers d cur (ns.map fixDiscr), ∀ q ∈ lc,
    ∃ r nx ny s, OnGrid d r nx ny ∧ s < nx * ny ∧ InPart r nx ny s q
  | [], _, _, _, lc, h, _, _ => by cases h
  | n :: ns, cur, hno, hr, lc, h, q, hq => by
    rw [List.map_cons, stackLayers, List.mem_append] at h
    rcases h with h | h
    · exact elem_part h hq (hno n List.mem_cons_self) (hr n List.mem_cons_self)
    · exact stack_part ns _ (fun x hx => hno x (List.mem_cons_of_mem _ hx)) (fun x hx => hr x (List.mem_cons_of_mem _ hx)) lc h q hq

theorem regular_divided {d : Dims K} (he : EqualCells d) (hr : Regular d ns) : ∀ n ∈ ns, Divided n := by
  intro n hn
  have h := hr n hn
  unfold Divided
  cases hb : n.elem.body with
  | die b =>
    rw [hb] at h
    intro e hee
    obtain ⟨c0, r0, -, -, h3, h4, -, -, h7, h8⟩ := h e hee
    have w1 := he.2.2.2.1
    have w2 := he.2.2.2.2
    have x7 : (0 : K) < (fixEl n e).dx := by exact_mod_cast h7
    have x8 : (0 : K) < (fixEl n e).dy := by exact_mod_cast h8
    refine ⟨by rw [h3]; positivity, by rw [h4]; positivity, ?_⟩
    unfold fixEl at h7 h8
    split_ifs at h7 h8 with c
    · exact Or.inl ⟨h7, h8⟩
    · exact Or.inr ⟨h7, h8⟩
  | layer ly =>
    rw [hb] at h
    obtain ⟨c0, r0, -, -, -, -, -, -, h7, h8⟩ := h
    exact ⟨h7, h8⟩
  | channel ch => trivial

/-- The grid is as large as the chip. -/
def CoversChip (d : Dims K) : Prop := d.chipLength = d.nCols * d.wall ∧ d.chipWidth = d.nRows * d.width

section
variable (hf : FromFile d0 rs ns G) {sk : Sink K} (ht : G.g.top = some (.ambient sk))
include hf ht

theorem regular_cell (he : EqualCells G.d) (hr : Regular G.d ns) (hmat : OneMaterial G) {q : Cell K} (hq : q ∈ G.cells) :
    ∃ i j, i < G.d.nRows ∧ j < G.d.nCols ∧ IsCell G q.layer i j q := by
  obtain ⟨p, -, -, -, -, hls, -⟩ := hf.spec
  obtain ⟨lc, hlc, hq'⟩ := List.mem_flatten.mp hq
  rw [hls] at hlc
  unfold layersOf spreaderLayer at hlc
  rw [ht] at hlc
  simp only [List.append_nil] at hlc
  obtain ⟨r, nx, ny, s, h1, h2, h3⟩ := stack_part ns 0 hf.noChannel hr lc hlc q hq'
  obtain ⟨i, j, hi, hj, x0, x1, y0, y1⟩ := onGrid_part he hf.wf.sized h1 h2 h3
  exact ⟨i, j, hi, hj, rfl, x0, x1, y0, y1, hmat q hq i j⟩

/-- A stack description that asks for the cells of the uniform grid, with floorplans that cover the chip once, has the cells of the
uniform grid. -/
theorem C56_regular_subdivision (he : EqualCells G.d) (hch : CoversChip G.d) (hr : Regular G.d ns) (hmat : OneMaterial G)
    (hone : ∀ n ∈ ns, ∀ b, n.elem.body = .die b → ∀ x y, 0 ≤ x → x < G.d.chipLength → 0 ≤ y → y < G.d.chipWidth →
      (b.flp.map (·.rect)).countP (inRect x y) = 1) :
    ∃ L R C, SameCells G L R C := by
  have hcell : ∀ i : Nat, ∃ l r c, ∀ q, G.cells[i]? = some q → l < G.d.nLayers ∧ r < G.d.nRows ∧ c < G.d.nCols ∧ IsCell G l r c q := by
    intro i
    cases h : G.cells[i]? with
    | none => exact ⟨0, 0, 0, fun q hq => by cases hq⟩
    | some q =>
      have hq := List.mem_of_getElem? h
      obtain ⟨r, c, h1, h2, h3⟩ := regular_cell hf ht he hr hmat hq
      refine ⟨q.layer, r, c, fun q' hq' => ?_⟩
      obtain rfl := Option.some.inj hq'
      exact ⟨below_top hf.stack ht hq, h1, h2, h3⟩
  choose L R C hLRC using hcell
  refine ⟨L, R, C, hLRC, ?_⟩
  intro l r c hl hr' hc
  have w1 := he.2.2.2.1
  have w2 := he.2.2.2.2
  have hrows : (0 : K) < G.d.nRows := by exact_mod_cast (by omega : 0 < G.d.nRows)
  have hcols : (0 : K) < G.d.nCols := by exact_mod_cast (by omega : 0 < G.d.nCols)
  have cp : ∀ {i j n : Nat} {w : K}, 0 < w → i < n → ((i : K) * w < (n : K) * w) := by
    intro i j n w hw h
    have : (i : K) < n := by exact_mod_cast h
    exact mul_lt_mul_of_pos_right this hw
  have hs := hf.wf.sized
  have hx0 : (0 : K) ≤ locX G.d c := by rw [(equal_col he hs hc).1]; positivity
  have hx1 : locX G.d c < G.d.chipLength := by rw [(equal_col he hs hc).1, hch.1]; exact cp (j := 0) w1 hc
  have hy0 : (0 : K) ≤ locY G.d r := by rw [(equal_row hs hr').1]; positivity
  have hy1 : locY G.d r < G.d.chipWidth := by rw [(equal_row hs hr').1, hch.2]; exact cp (j := 0) w2 hr'
  obtain ⟨i, q, h1, h2, h3, h4, -⟩ := C55_probe_in_stack_partial hf ⟨lt_of_le_of_lt hx0 hx1, lt_of_le_of_lt hy0 hy1⟩ (regular_divided he hr)
    (locX G.d c) (locY G.d r) ⟨hx0, hx1⟩ ⟨hy0, hy1⟩ (fun n hn b hb => hone n hn b hb _ _ hx0 hx1 hy0 hy1) hl [] [] 0 .none
  have key : ∀ {i j : Nat} {w : K}, 0 < w → (i : K) * w ≤ (j : K) * w → (j : K) * w < (i : K) * w + w → i = j := by
    intro i j w hw q1 q2
    have e1 : (i : K) ≤ j := le_of_mul_le_mul_right q1 hw
    have e2 : (j : K) < i + 1 := by
      apply lt_of_mul_lt_mul_right _ hw.le
      linarith
    have e1' : i ≤ j := by exact_mod_cast e1
    have e2' : j < i + 1 := by exact_mod_cast e2
    omega
  have hpos : ∀ (i' : Nat) q', G.cells[i']? = some q' → (L i' = l ∧ R i' = r ∧ C i' = c ↔ q'.layer = l ∧ inCell (locX G.d c) (locY G.d r) q' = true) := by
    intro i' q' hi'
    obtain ⟨k1, k2, k3, k4⟩ := hLRC i' q' hi'
    unfold inCell
    rw [decide_eq_true_eq, k4.layer, k4.x0, k4.x1, k4.y0, k4.y1, (equal_col he hs k3).1, (equal_col he hs k3).2, (equal_col he hs hc).1, (equal_row hs k2).1,
      (equal_row hs k2).2, (equal_row hs hr').1]
    constructor
    · rintro ⟨rfl, rfl, rfl⟩
      exact ⟨rfl, le_refl _, by linarith, le_refl _, by linarith⟩
    · rintro ⟨e, a1, a2, a3, a4⟩
      exact ⟨e, key w2 a3 a4, key w1 a1 a2⟩
  refine ⟨i, ⟨(List.getElem?_eq_some_iff.mp h1).1, (hpos i q h1).mpr ⟨h2, h3⟩⟩, ?_⟩
  rintro i' ⟨hi', hrest⟩
  obtain ⟨e1, e2⟩ := (hpos i' _ (List.getElem?_eq_getElem hi')).mp hrest
  exact h4 i' _ (List.getElem?_eq_getElem hi') e1 e2

end

section
variable {L R C : Nat → Nat} (hf : FromFile d0 rs ns G) (ph : PhysicalNU G) (hc : SameCells G L R C)
  {sk : Sink K} (ht : G.g.top = some (.ambient sk)) (hb : G.g.bottom = none)
include hf ph hc ht hb

/-- Then the equations have the same solutions in the two modes, and a cell has the same heat capacity. -/
theorem C56_same_solutions_partial (hs : Sharp G) (hm : Assembled id G a m) :
    (∀ T b : Nat → K, Solves G.d.nCells (fillMatrix G.g a G.d).entry T b ↔
      Solves G.cells.length m.entry (fun i => T (offInStack G.d (L i) (R i) (C i))) (fun i => b (offInStack G.d (L i) (R i) (C i)))) ∧
    ∀ (i : Nat) q, G.cells[i]? = some q → heatCapacity G q = Emu.capOf G.g G.d (.box (L i) (R i) (C i)) := by
  obtain ⟨hlen, hinj, hent⟩ := C56_same_matrix_partial hf ph hc ht hb hs hm
  obtain ⟨h1, h2, h3⟩ := renumber hf hc ht
  refine ⟨fun T b => ?_, ?_⟩
  · have hrow : ∀ i, i < G.cells.length → ∑ j ∈ Finset.range G.cells.length, m.entry i j * T (offInStack G.d (L j) (R j) (C j)) =
        ∑ k ∈ Finset.range G.d.nCells, (fillMatrix G.g a G.d).entry (offInStack G.d (L i) (R i) (C i)) k * T k := by
      intro i hi
      rw [← sum_renumber hf hc ht]
      exact Finset.sum_congr rfl fun j hj => by rw [hent i j hi (Finset.mem_range.mp hj)]
    unfold Solves
    constructor
    · intro h i hi
      rw [hrow i hi]
      exact h _ (h1 i hi)
    · intro h k hk
      obtain ⟨i, hi, rfl⟩ := h3 k hk
      rw [← hrow i hi]
      exact h i hi
  · intro i q hq
    obtain ⟨e1, e2, e3, e4⟩ := hc.is i q hq
    exact (same_ambient hf ph hc ht (fun b h => by rw [hb] at h; cases h) e1 e2 e3 (List.mem_of_getElem? hq) e4).2

end

/-! ## Example -/

/-- A chip of 20 × 20 with 2 × 2 cells: a die with two elements side by side, each of them of one column and two rows, under a layer. -/
def regD0 : Dims ℚ := { exDims with channel := 10, lastWall := 10, chipLength := 20, chipWidth := 20, nRows := 2, nCols := 2 }
def regFlp (p q : ℚ) : List (FEl ℚ) := [⟨⟨0, 0, 10, 20⟩, [], 1, 2, none, [p]⟩, ⟨⟨10, 0, 10, 20⟩, [], 0, 0, none, [q]⟩]
def regRaw (p q : ℚ) : List (Raw ℚ (List (FEl ℚ))) := [⟨"top", .layer (exLayer 7)⟩, ⟨"die", .die ⟨[], exLayer 5, [], regFlp p q⟩⟩]
def regElems (p q : ℚ) : List (NElem ℚ) :=
  [⟨⟨"die", .die ⟨[exLayer 5], 0, regFlp p q⟩, 0⟩, 1, 2⟩, ⟨⟨"top", .layer (exLayer 7), 1⟩, 2, 2⟩]
def regD : Dims ℚ := { regD0 with nLayers := 2, heights := [5, 7], nCells := 8 }
def regG : TGrid ℚ := { nLayers := 2, types := [.source, .solidAmb], layers := [exLayer 5, exLayer 7], channel := none, top := some (.ambient ⟨1, 300⟩), bottom := none }
def regGrid (p q : ℚ) : Grid ℚ :=
  { d := regD, nCells := 8, g := regG, ls := layersOf regD (some (.ambient ⟨1, 300⟩)) ((regElems p q).map fixDiscr)
    flps := [some [⟨⟨0, 0, 10, 20⟩, [], 1, 2, none, [p]⟩, ⟨⟨10, 0, 10, 20⟩, [], 1, 2, none, [q]⟩], none]
    ns := (regElems p q).map fixDiscr }

theorem regFrom (p q : ℚ) : FromFile regD0 (regRaw p q) (regElems p q) (regGrid p q) := by
  refine ⟨_, regG, ⟨?_, ?_, ?_, ?_, rfl, rfl⟩, rfl, rfl⟩
  · show 1 ≤ 2; decide
  · show 1 ≤ 2; decide
  · intro s h; simp [spreaderOf, regG] at h
  · rintro ch h; simp at h

theorem regCells (p q : ℚ) : (regGrid p q).cells =
    [⟨0, 0, 0, 10, 10, exMat, false⟩, ⟨0, 0, 10, 10, 20, exMat, false⟩, ⟨0, 10, 0, 20, 10, exMat, false⟩, ⟨0, 10, 10, 20, 20, exMat, false⟩,
     ⟨1, 0, 0, 10, 10, noMat, false⟩, ⟨1, 10, 0, 20, 10, noMat, false⟩, ⟨1, 0, 10, 10, 20, noMat, false⟩, ⟨1, 10, 10, 20, 20, noMat, false⟩] := by
  simp only [Grid.cells, regGrid, layersOf, stackLayers, elemLayers, spreaderLayer, regElems, fixDiscr, List.map_cons, List.map_nil, regFlp, fixEl,
    dieLayer, subCells, chipRect, regD, regD0, exDims, exLayer, List.range_succ, List.range_zero]
  norm_num [exLayer, List.range_succ, dieLayer, subCells]

theorem regOwn (p q : ℚ) : ∀ c ∈ (regGrid p q).cells, ownMat (regGrid p q) c = exMat ∧ ∀ r k, cellMaterial (layerAt (regGrid p q).g c.layer) (regGrid p q).d r k = exMat := by
  intro c hc
  rw [regCells] at hc
  simp only [List.mem_cons, List.not_mem_nil, or_false] at hc
  rcases hc with rfl | rfl | rfl | rfl | rfl | rfl | rfl | rfl <;> exact ⟨rfl, fun _ _ => rfl⟩

theorem regPhysical (p q : ℚ) : PhysicalNU (regGrid p q) := by
  refine ⟨?_, ?_, ?_, ?_, ?_⟩
  · intro h hh
    simp only [regGrid, regD, List.mem_cons, List.not_mem_nil, or_false] at hh
    rcases hh with rfl | rfl <;> norm_num
  · intro c hc
    rw [regCells] at hc
    simp only [List.mem_cons, List.not_mem_nil, or_false] at hc
    rcases hc with rfl | rfl | rfl | rfl | rfl | rfl | rfl | rfl <;> norm_num [Cell.length, Cell.width]
  · intro c hc _
    rw [(regOwn p q c hc).1]; exact exMat_pos
  · intro s h
    simp only [regGrid, regG, Option.some.injEq, TopSink.ambient.injEq] at h
    subst h; norm_num
  · intro s m h; simp [regGrid, regG] at h

theorem regSharp (p q : ℚ) : Sharp (regGrid p q) := by
  unfold Sharp
  rw [regCells]
  decide +kernel

theorem regFull (p q : ℚ) : Full (regGrid p q) := by
  intro lc hlc hnil
  have hlen : ∀ lc ∈ (regGrid p q).ls, 0 < lc.length := by
    have : ((regGrid p q).ls.map List.length) = [4, 4] := by
      simp only [regGrid, layersOf, stackLayers, elemLayers, spreaderLayer, regElems, fixDiscr, List.map_cons, List.map_nil, regFlp, fixEl]
      norm_num [List.range_succ, dieLayer, subCells, exLayer]
    intro lc h
    have h2 := List.mem_map_of_mem (f := List.length) h
    rw [this] at h2
    simp only [List.mem_cons, List.not_mem_nil, or_false] at h2
    omega
  have := hlen lc hlc
  rw [hnil] at this
  simp at this

theorem regOne (p q x y : ℚ) (h1 : 0 ≤ x) (h2 : x < 20) (h3 : 0 ≤ y) (h4 : y < 20) : ((regFlp p q).map (·.rect)).countP (inRect x y) = 1 := by
  simp only [regFlp, List.map_cons, List.map_nil, List.countP_cons, List.countP_nil, inRect, decide_eq_true_eq, Nat.zero_add]
  by_cases h : x < 10
  · rw [if_neg (by rintro ⟨a, -⟩; linarith), if_pos ⟨h1, by linarith, h3, by linarith⟩]
  · rw [if_pos ⟨by linarith, by linarith, h3, by linarith⟩, if_neg (by rintro ⟨-, a, -⟩; linarith)]

theorem regEqual (p q : ℚ) : EqualCells (regGrid p q).d := by
  unfold EqualCells regGrid regD regD0 exDims; norm_num

/-- The cells of the example are those of the uniform grid; in the die the second one is that of row 1 and column 0, not of row 0 and
column 1. -/
theorem regSame (p q : ℚ) : ∃ L R C, SameCells (regGrid p q) L R C ∧ (L 1, R 1, C 1) = (0, 1, 0) := by
  obtain ⟨L, R, C, h⟩ := C56_regular_subdivision (regFrom p q) (sk := ⟨1, 300⟩) rfl (regEqual p q)
    (by unfold CoversChip regGrid regD regD0 exDims; norm_num) (by
      intro n hn
      simp only [regElems, List.mem_cons, List.not_mem_nil, or_false] at hn
      rcases hn with rfl | rfl
      · intro e he
        simp only [regFlp, List.mem_cons, List.not_mem_nil, or_false] at he
        rcases he with rfl | rfl
        · exact ⟨0, 0, by norm_num [regGrid, regD, regD0, exDims, fixEl]⟩
        · exact ⟨1, 0, by norm_num [regGrid, regD, regD0, exDims, fixEl]⟩
      · exact ⟨0, 0, by norm_num [regGrid, regD, regD0, exDims, chipRect]⟩)
    (by intro c hc r k; rw [(regOwn p q c hc).1, (regOwn p q c hc).2])
    (by
      intro n hn b hb x y h1 h2 h3 h4
      simp only [regElems, List.mem_cons, List.not_mem_nil, or_false] at hn
      rcases hn with rfl | rfl
      · simp only [Body.die.injEq] at hb
        subst hb
        exact regOne p q x y h1 h2 h3 h4
      · cases hb)
  refine ⟨L, R, C, h, ?_⟩
  obtain ⟨h1, h2, h3, h4⟩ := h.is 1 ⟨0, 0, 10, 10, 20, exMat, false⟩ (by rw [regCells]; rfl)
  have e1 := h4.layer
  have e2 := h4.x0
  have e3 := h4.y0
  have hs := (regFrom p q).wf.sized
  rw [(equal_col (regEqual p q) hs h3).1] at e2
  rw [(equal_row hs h2).1] at e3
  have h2' : R 1 < 2 := h2
  have h3' : C 1 < 2 := h3
  have e1' : L 1 = 0 := e1.symm
  rw [e1']
  generalize R 1 = r at *
  generalize C 1 = c at *
  interval_cases r
  · exfalso; norm_num at e3
  interval_cases c
  · rfl
  · exfalso; norm_num [regGrid, regD, regD0, exDims] at e2

/-- The matrix of the example: the coefficient of the second and the fourth cell is that of the cells of row 1. -/
example (p q : ℚ) (a : Ana ℚ) : ∃ m, Assembled id (regGrid p q) a m ∧ ∃ L R C, SameCells (regGrid p q) L R C ∧
    m.entry 1 1 = (fillMatrix regG a regD).entry 2 2 ∧
    ∀ i j, i < (regGrid p q).cells.length → j < (regGrid p q).cells.length →
      m.entry i j = (fillMatrix regG a regD).entry (offInStack regD (L i) (R i) (C i)) (offInStack regD (L j) (R j) (C j)) := by
  obtain ⟨m, hm⟩ := assembled_exists id (regGrid p q) a
  obtain ⟨L, R, C, h, h1⟩ := regSame p q
  have hk := (C56_same_matrix_partial (regFrom p q) (regPhysical p q) h (s := ⟨1, 300⟩) rfl rfl (regSharp p q) hm).2.2
  refine ⟨m, hm, L, R, C, h, ?_, hk⟩
  simp only [Prod.mk.injEq] at h1
  rw [hk 1 1 (by rw [regCells]; decide) (by rw [regCells]; decide), h1.1, h1.2.1, h1.2.2]
  have e : offInStack (regGrid p q).d 0 1 0 = 2 := by
    simp [offInStack, offInLayer, regGrid, regD, regD0, exDims, W]
  rw [e]
  rfl

/-! The same stack in uniform mode. -/

def regRaw1 (p : ℚ) : Flp.RawEl ℚ := ⟨"left", [⟨0, 0, 10, 20⟩], [p]⟩
def regRaw2 (q : ℚ) : Flp.RawEl ℚ := ⟨"right", [⟨10, 0, 10, 20⟩], [q]⟩
def regRaws (p q : ℚ) : Nat → List (Flp.RawEl ℚ)
  | 0 => [regRaw1 p, regRaw2 q]
  | _ => []
def regCfg : Emu.Cfg ℚ Unit :=
  { d := regD, an := ⟨.transient, 1 / 100, 1, 300⟩, solve := fun _ b => some b, factor := fun _ => true, plugin := fun u _ _ => (u, some []) }
def regSim (els : List (Flp.FlpEl ℚ)) : Emu.Sim ℚ Unit :=
  { g := regG, mat := fillMatrix regG regCfg.an.ana regD, temps := List.replicate regD.nCells 300,
    sources := List.replicate regD.nCells 0, caps := Emu.capList regG regD, topTcs := Emu.topList regG regD,
    botTcs := Emu.botList regG regD, flps := [some els, none], time := 0, plug := () }

theorem regReachable (els : List (Flp.FlpEl ℚ)) : Emu.Reachable regCfg (regSim els) := by
  refine ⟨[⟨"top", .layer (exLayer 7)⟩, ⟨"die", .die ⟨[], exLayer 5, [], els⟩⟩], regSim els, [], ?_, rfl⟩
  refine ⟨regD0, none, ⟨[⟨"die", .die ⟨[exLayer 5], 0, els⟩, 0⟩, ⟨"top", .layer (exLayer 7), 1⟩], regD, _⟩, (), ⟨?_, ?_, ?_, ?_, rfl, rfl⟩, rfl, ?_⟩
  · show 1 ≤ 2; decide
  · show 1 ≤ 2; decide
  · intro s h; simp [spreaderOf, regG, regSim] at h
  · rintro ch h; simp at h
  · unfold Emu.build; rw [if_pos (by rfl)]; rfl

theorem regGood : Flp.GoodGrid regD := by
  have hs : Sized regD := ⟨by simp [regD, regD0, exDims, W], by simp [regD, regD0, exDims, W]⟩
  refine ⟨hs, by norm_num [regD, regD0, exDims], by norm_num [regD, regD0, exDims], ?_⟩
  exact Flp.covers_uniform hs 10 rfl rfl rfl rfl

theorem regIn (p q : ℚ) : ∀ raw ∈ [regRaw1 p, regRaw2 q], ∀ e ∈ raw.rects, Flp.InGrid regD e := by
  have hl : gridLength regD = 20 := by
    rw [gridLength_uniform regGood.sized 10 rfl rfl rfl rfl]; norm_num [regD, regD0, exDims]
  have hw : gridWidth regD = 20 := by rw [gridWidth_eq regGood.sized]; norm_num [regD, regD0, exDims]
  intro raw hr e he
  simp only [List.mem_cons, List.not_mem_nil, or_false] at hr
  rcases hr with rfl | rfl
  · simp only [regRaw1, List.mem_singleton] at he
    subst he
    exact ⟨by norm_num, by norm_num, by norm_num, by rw [hl]; norm_num, by norm_num, by rw [hw]; norm_num⟩
  · simp only [regRaw2, List.mem_singleton] at he
    subst he
    exact ⟨by norm_num, by norm_num, by norm_num, by rw [hl]; norm_num, by norm_num, by rw [hw]; norm_num⟩

/-- After the first step of the simulation in uniform mode, the sources are those of the non-uniform mode. -/
example (p q : ℚ) : ∃ els L R C S fl', SameCells (regGrid p q) L R C ∧
    sourcesNU (regGrid p q).g (regGrid p q).d (regGrid p q).cells (regGrid p q).flps = some (S, fl') ∧
    ∀ i, i < (regGrid p q).cells.length → S[i]? = some (Emu.sourceAt regD (Emu.steps regCfg 1 (regSim els)).2 (L i) (R i) (C i)) := by
  obtain ⟨e1, h1⟩ := Flp.parse_total regGood (raw := regRaw1 p) (by simp [regRaw1]) (regIn p q _ (by simp)) (by
    intro e he; simp only [regRaw1, List.mem_singleton] at he; subst he; norm_num [Flp.checkLocation, Flp.epsilon, regD, regD0, exDims])
  obtain ⟨e2, h2⟩ := Flp.parse_total regGood (raw := regRaw2 q) (by simp [regRaw2]) (regIn p q _ (by simp)) (by
    intro e he; simp only [regRaw2, List.mem_singleton] at he; subst he; norm_num [Flp.checkLocation, Flp.epsilon, regD, regD0, exDims])
  have p1 := (Flp.parse_el h1).2.2.2.1
  have p2 := (Flp.parse_el h2).2.2.2.1
  obtain ⟨L, R, C, h, -⟩ := regSame p q
  obtain ⟨S, hS⟩ := (C53_one_value_each (regFrom p q) (regFull p q)).2 (by
    intro l es h e he
    match l, h with
    | 0, h =>
      simp only [regGrid, List.getElem?_cons_zero, Option.some.injEq] at h
      subst h
      simp only [List.mem_cons, List.not_mem_nil, or_false] at he
      rcases he with rfl | rfl <;> simp
    | 1, h => simp [regGrid] at h
    | l + 2, h => simp [regGrid] at h)
  have hre := regReachable [e1, e2]
  refine ⟨[e1, e2], L, R, C, S.1, S.2, h, hS, fun i hi => ?_⟩
  refine C56_same_sources_partial (regFrom p q) (regPhysical p q) h (sk := ⟨1, 300⟩) rfl rfl (regFull p q) ?_ (cfg := regCfg) (s := regSim [e1, e2]) rfl rfl
    hre (Nat.dvd_zero 1) (raws := regRaws p q) ?_ ?_ hS 1 (le_refl _) (le_refl _) (by simp [regSim]) ?_ hi
  · intro l es hes
    match l, hes with
    | 0, hes =>
      simp only [regGrid, List.getElem?_cons_zero, Option.some.injEq] at hes
      subst hes
      refine ⟨?_, ?_⟩
      · intro x y
        simp only [List.map_cons, List.map_nil, List.countP_cons, List.countP_nil, inRect, decide_eq_true_eq, Nat.zero_add]
        split_ifs with h1 h2 h2 <;> first | omega | skip
        all_goals (exfalso; linarith [h1.1, h2.2.1])
      · intro e he
        simp only [List.mem_cons, List.not_mem_nil, or_false] at he
        rcases he with rfl | rfl <;> norm_num
    | 1, hes => simp [regGrid] at hes
    | l + 2, hes => simp [regGrid] at hes
  · refine ⟨regGood, ?_, ?_⟩
    · intro l hl
      have hl : l < 2 := hl
      interval_cases l
      · exact .cons ⟨e1, h1, rfl, rfl⟩ (.cons ⟨e2, h2, rfl, rfl⟩ .nil)
      · exact .nil
    · intro l hl raw hr e he
      cases l with
      | zero => exact regIn p q raw hr e he
      | succ l => simp [regRaws] at hr
  · refine ⟨?_, ?_⟩
    · intro l es hes
      match l, hes with
      | 0, hes =>
        simp only [regGrid, List.getElem?_cons_zero, Option.some.injEq] at hes
        subst hes
        refine .cons ⟨rfl, ?_⟩ (.cons ⟨rfl, ?_⟩ .nil)
        · unfold Flp.next; rw [p1]; rfl
        · unfold Flp.next; rw [p2]; rfl
      | 1, hes => simp [regGrid] at hes
      | l + 2, hes => simp [regGrid] at hes
    · intro l hl
      cases l with
      | zero => exact absurd rfl (hl _)
      | succ l => rfl
  · have hg := Emu.reachable_good hre
    intro r hr
    have e0 : Emu.steps regCfg 1 (regSim [e1, e2]) = ([(Emu.emulateStep regCfg (regSim [e1, e2])).1], (Emu.emulateStep regCfg (regSim [e1, e2])).2) := rfl
    rw [e0, List.mem_singleton] at hr
    subst hr
    rw [Emu.step_start hg.ready rfl rfl (by
      intro e he
      simp only [Emu.elements, regSim] at he
      simp at he
      rcases he with rfl | rfl
      · rw [p1]; simp [regRaw1]
      · rw [p2]; simp [regRaw2])]
    rw [Emu.finish_ok (by unfold Emu.pluggable; rfl) (x := _) rfl]
    simp only
    generalize Emu.slotCompleted _ _ = b
    cases b
    · exact Or.inl rfl
    · exact Or.inr rfl

end Verif.NU
