import Verif.Props.NonUniformSink
import Verif.Props.Floorplan

set_option linter.unusedSectionVars false
set_option linter.unusedSimpArgs false
set_option linter.unusedVariables false

/-! # C54: the cells of a non-uniform grid -/

namespace Verif.NU
open Verif.Dim Verif.TG Verif.Stk Verif.SM

variable {K : Type} [Field K] [LinearOrder K] [IsStrictOrderedRing K]
variable {d0 : Dims K} {rs : List (Raw K (List (FEl K)))} {ns : List (NElem K)} {G : Grid K}

/-! ## Specification -/

/-- The point lies in the cell (lower and left borders included, upper and right ones not). -/
def inCell (x y : K) (c : Cell K) : Bool := decide (c.x0 ≤ x ∧ x < c.x1 ∧ c.y0 ≤ y ∧ y < c.y1)

/-- The point lies in the rectangle. -/
def inRect (x y : K) (r : Rect K) : Bool := decide (r.x ≤ x ∧ x < r.x + r.length ∧ r.y ≤ y ∧ y < r.y + r.width)

/-- The rectangles to be divided into cells in each layer of a stack element, from its lower layer: in a die the first rectangle
of each floorplan element, in a layer the chip. -/
def footprints (chip : Rect K) (n : NElem K) : List (List (Rect K)) :=
  match n.elem.body with
  | .die b => b.layers.map fun _ => b.flp.map (·.rect)
  | .layer _ => [[chip]]
  | .channel _ => []

/-- Every rectangle is not empty and is divided at least into one cell. -/
def Divided (n : NElem K) : Prop :=
  match n.elem.body with
  | .die b => ∀ e ∈ b.flp, 0 < e.rect.length ∧ 0 < e.rect.width ∧ ((0 < e.dx ∧ 0 < e.dy) ∨ (0 < n.dx ∧ 0 < n.dy))
  | .layer _ => 0 < n.dx ∧ 0 < n.dy
  | .channel _ => True

/-! ## Proofs -/

/-- One direction: a point of an interval lies in exactly one of its `n` parts. -/
theorem part_unique {x0 L x : K} {n : Nat} (hL : 0 < L) (hn : 0 < n) (h0 : x0 ≤ x) (h1 : x < x0 + L) :
    ∃ k, k < n ∧ ∀ j, (x0 + L / n * (j : Nat) ≤ x ∧ x < x0 + L / n * (j + 1 : Nat)) ↔ j = k := by
  have hn' : (0 : K) < n := by exact_mod_cast hn
  have hq : 0 < L / (n : K) := by positivity
  have key : ∀ m : Nat, x < x0 + L / n * m → ∃ k, k < m ∧ x0 + L / n * k ≤ x ∧ x < x0 + L / n * (k + 1 : Nat) := by
    intro m
    induction m with
    | zero => intro h; exfalso; simp at h; linarith
    | succ m ih =>
      intro h
      by_cases hm : x < x0 + L / n * m
      · obtain ⟨k, hk, h2⟩ := ih hm; exact ⟨k, by omega, h2⟩
      · exact ⟨m, by omega, not_lt.mp hm, h⟩
  obtain ⟨k, hk, hk0, hk1⟩ := key n (by rw [div_mul_cancel₀ _ (ne_of_gt hn')]; exact h1)
  refine ⟨k, hk, fun j => ⟨?_, ?_⟩⟩
  · rintro ⟨a, b⟩
    by_contra hne
    rcases Nat.lt_or_gt_of_ne hne with hlt | hgt
    · have : ((j + 1 : Nat) : K) ≤ (k : K) := by exact_mod_cast hlt
      have := mul_le_mul_of_nonneg_left this hq.le
      linarith
    · have : ((k + 1 : Nat) : K) ≤ (j : K) := by exact_mod_cast hgt
      have := mul_le_mul_of_nonneg_left this hq.le
      linarith
  · rintro rfl; exact ⟨hk0, hk1⟩

/-- The parts lie in the interval. -/
theorem part_inside {x0 L x : K} {n k : Nat} (hL : 0 < L) (hk : k < n) (h0 : x0 + L / n * (k : Nat) ≤ x) (h1 : x < x0 + L / n * (k + 1 : Nat)) :
    x0 ≤ x ∧ x < x0 + L := by
  have hn' : (0 : K) < n := by exact_mod_cast (by omega : 0 < n)
  have hq : 0 < L / (n : K) := by positivity
  constructor
  · have : 0 ≤ L / n * (k : K) := by positivity
    linarith
  · have h2 : ((k + 1 : Nat) : K) ≤ (n : K) := by exact_mod_cast hk
    have h3 := mul_le_mul_of_nonneg_left h2 hq.le
    rw [div_mul_cancel₀ _ (ne_of_gt hn')] at h3
    linarith

theorem subCells_count {r : Rect K} {nx ny : Nat} (hx : 0 < r.length) (hy : 0 < r.width) (hnx : 0 < nx) (hny : 0 < ny) (l : Nat)
    (m : Material K) (x y : K) : (subCells r nx ny l m).countP (inCell x y) = if inRect x y r then 1 else 0 := by
  unfold subCells
  rw [List.countP_map]
  have hmod : ∀ s, s < nx * ny → s % nx < nx ∧ s / nx < ny := fun s hs =>
    ⟨Nat.mod_lt _ hnx, Nat.div_lt_of_lt_mul hs⟩
  split_ifs with h
  · simp only [inRect, decide_eq_true_eq] at h
    obtain ⟨k, hk, hku⟩ := part_unique hx hnx h.1 h.2.1
    obtain ⟨j, hj, hju⟩ := part_unique hy hny h.2.2.1 h.2.2.2
    have hs0 : k + nx * j < nx * ny := by
      have : nx * (j + 1) ≤ nx * ny := Nat.mul_le_mul_left _ hj
      rw [Nat.mul_add, Nat.mul_one] at this
      omega
    have hcong : ∀ s ∈ List.range (nx * ny), ((inCell x y ∘ fun s => ({ layer := l, x0 := r.x + (r.length / (nx : K)) * ((s % nx : Nat) : K), y0 := r.y + (r.width / (ny : K)) * ((s / nx : Nat) : K), x1 := r.x + (r.length / (nx : K)) * ((s % nx + 1 : Nat) : K), y1 := r.y + (r.width / (ny : K)) * ((s / nx + 1 : Nat) : K), mat := m, chan := false } : Cell K)) s = true ↔ (s == (k + nx * j)) = true) := by
      intro s hs
      simp only [Function.comp, inCell, decide_eq_true_eq, beq_iff_eq]
      constructor
      · rintro ⟨a, b, c, e⟩
        have e1 := (hku _).mp ⟨a, b⟩
        have e2 := (hju _).mp ⟨c, e⟩
        rw [← e1, ← e2]; exact (Nat.mod_add_div s nx).symm
      · rintro rfl
        have e1 : (k + nx * j) % nx = k := by rw [Nat.add_mul_mod_self_left, Nat.mod_eq_of_lt hk]
        have e2 : (k + nx * j) / nx = j := by
          rw [Nat.add_mul_div_left _ _ hnx, Nat.div_eq_of_lt hk, Nat.zero_add]
        rw [e1, e2]
        obtain ⟨a, b⟩ := (hku k).mpr rfl
        obtain ⟨c, e⟩ := (hju j).mpr rfl
        exact ⟨a, b, c, e⟩
    rw [List.countP_congr hcong]
    exact List.count_eq_one_of_mem List.nodup_range (List.mem_range.mpr hs0)
  · rw [List.countP_eq_zero]
    intro s hs hc
    apply h
    simp only [Function.comp, inCell, decide_eq_true_eq] at hc
    obtain ⟨a, b, c, e⟩ := hc
    obtain ⟨h1, h2⟩ := hmod s (List.mem_range.mp hs)
    obtain ⟨q1, q2⟩ := part_inside hx h1 a b
    obtain ⟨q3, q4⟩ := part_inside hy h2 c e
    simp only [inRect, decide_eq_true_eq]
    exact ⟨q1, q2, q3, q4⟩

/-- Points of a layer and points of its rectangles. -/
def SamePoints (lc : List (Cell K)) (rects : List (Rect K)) : Prop := ∀ x y, lc.countP (inCell x y) = rects.countP (inRect x y)

theorem samePoints_one {r : Rect K} {nx ny : Nat} (hx : 0 < r.length) (hy : 0 < r.width) (hnx : 0 < nx) (hny : 0 < ny) (l : Nat)
    (m : Material K) : SamePoints (subCells r nx ny l m) [r] := by
  intro x y
  rw [subCells_count hx hy hnx hny, List.countP_cons, List.countP_nil, Nat.zero_add]

theorem fixed_die {n : NElem K} {b : Die K (List (FEl K))} (hb : n.elem.body = .die b) :
    fixDiscr n = { n with elem := { n.elem with body := .die { b with flp := b.flp.map (fixEl n) } } } := by
  unfold fixDiscr; rw [hb]

theorem dieLayer_points {n : NElem K} {b : Die K (List (FEl K))} (hb : n.elem.body = .die b) (hd : Divided n) (cur li : Nat) :
    SamePoints (dieLayer (fixDiscr n) { b with flp := b.flp.map (fixEl n) } cur li) (b.flp.map (·.rect)) := by
  intro x y
  unfold Divided at hd
  rw [hb] at hd
  simp only at hd
  unfold dieLayer
  rw [fixed_die hb]
  simp only
  generalize b.flp = es at hd
  induction es with
  | nil => rfl
  | cons e es ih =>
    rw [List.map_cons, List.flatMap_cons, List.countP_append, ih fun q hq => hd q (List.mem_cons_of_mem _ hq), List.map_cons, List.countP_cons,
      Nat.add_comm]
    congr 1
    obtain ⟨h1, h2, h3⟩ := hd e List.mem_cons_self
    have hr : (fixEl n e).rect = e.rect := by unfold fixEl; split_ifs <;> rfl
    rw [hr]
    refine subCells_count h1 h2 ?_ ?_ _ _ _ _
    · unfold fixEl
      split_ifs with c1 c2 c2
      · simp only; rcases h3 with h3 | h3 <;> omega
      · simp only; rcases h3 with h3 | h3 <;> omega
      · simp only; rcases h3 with h3 | h3 <;> omega
      · simp only; rcases h3 with h3 | h3 <;> omega
    · unfold fixEl
      split_ifs with c1 c2 c2
      · simp only; rcases h3 with h3 | h3 <;> omega
      · simp only; rcases h3 with h3 | h3 <;> omega
      · simp only; rcases h3 with h3 | h3 <;> omega
      · simp only; rcases h3 with h3 | h3 <;> omega

theorem forall₂_const {α β γ : Type} {R : α → β → Prop} {f : Nat → α} {y : β} : ∀ (xs : List γ), (∀ k, R (f k) y) →
    List.Forall₂ R ((List.range xs.length).map f) (xs.map fun _ => y) := by
  intro xs h
  rw [List.forall₂_iff_get]
  refine ⟨by simp, ?_⟩
  intro i h1 h2
  simp only [List.get_eq_getElem, List.getElem_map]
  exact h _

theorem stack_points {d : Dims K} (hc : 0 < d.chipLength ∧ 0 < d.chipWidth) : ∀ (ns : List (NElem K)) (cur : Nat),
    (∀ n ∈ ns, isChannel n.elem = false) → (∀ n ∈ ns, Divided n) →
    List.Forall₂ SamePoints (stackLayers d cur (ns.map fixDiscr)) (ns.flatMap (footprints (chipRect d)))
  | [], _, _, _ => List.Forall₂.nil
  | n :: ns, cur, hno, h => by
    rw [List.map_cons, List.flatMap_cons]
    unfold stackLayers
    refine List.rel_append ?_ (stack_points hc ns _ (fun q hq => hno q (List.mem_cons_of_mem _ hq)) fun q hq => h q (List.mem_cons_of_mem _ hq))
    have hd := h n List.mem_cons_self
    unfold footprints elemLayers
    cases hb : n.elem.body with
    | die b =>
      have e : (fixDiscr n).elem.body = .die { b with flp := b.flp.map (fixEl n) } := by rw [fixed_die hb]
      rw [e]
      simp only
      exact forall₂_const b.layers fun k => dieLayer_points hb hd cur k
    | layer ly =>
      have e : fixDiscr n = n := by unfold fixDiscr; rw [hb]
      rw [e, hb]
      simp only
      unfold Divided at hd
      rw [hb] at hd
      exact List.Forall₂.cons (samePoints_one hc.1 hc.2 hd.1 hd.2 _ _) List.Forall₂.nil
    | channel ch =>
      have := hno n List.mem_cons_self
      unfold isChannel at this; rw [hb] at this; cases this

theorem elem_count {d : Dims K} {n : NElem K} (cur : Nat) :
    (elemLayers d cur (fixDiscr n)).flatten.length = countElem d n := by
  unfold countElem elemLayers
  cases hb : n.elem.body with
  | die b =>
    have e : (fixDiscr n).elem.body = .die { b with flp := b.flp.map (fixEl n) } := by rw [fixed_die hb]
    rw [e]
    simp only
    rw [List.length_flatten, List.map_map]
    have hl : ∀ k ∈ List.range b.layers.length, (List.length ∘ dieLayer (fixDiscr n) { b with flp := b.flp.map (fixEl n) } cur) k =
        (b.flp.map fun e => if e.dx ≠ 0 ∧ e.dy ≠ 0 then e.dx * e.dy else n.dx * n.dy).sum := by
      intro k _
      simp only [Function.comp]
      rw [dieLayer_length e]
      unfold shares
      rw [List.length_flatMap, List.map_map]
      congr 1
      refine List.map_congr_left fun q hq => ?_
      simp only [Function.comp, List.length_replicate]
      unfold fixEl
      split_ifs with c <;> rfl
    rw [List.map_congr_left hl, List.map_const', List.sum_replicate, smul_eq_mul, List.length_range, Nat.mul_comm]
  | layer ly =>
    have e : fixDiscr n = n := by unfold fixDiscr; rw [hb]
    rw [e, hb]
    simp [subCells]
  | channel ch =>
    have e : fixDiscr n = n := by unfold fixDiscr; rw [hb]
    rw [e, hb]
    simp only
    rw [List.length_flatten, List.map_map]
    have hl : ∀ k ∈ List.range (chLayers ch), (List.length ∘ channelLayer d ch.model cur) k = d.nCols * d.nRows := by
      intro k _; simp [channelLayer]
    rw [List.map_congr_left hl, List.map_const', List.sum_replicate, smul_eq_mul, List.length_range, Nat.mul_comm d.nCols, ← Nat.mul_assoc]

theorem stack_count {d : Dims K} : ∀ (ns : List (NElem K)) (cur : Nat),
    (stackLayers d cur (ns.map fixDiscr)).flatten.length = (ns.map (countElem d)).sum
  | [], _ => rfl
  | n :: ns, cur => by
    rw [List.map_cons]
    unfold stackLayers
    rw [List.flatten_append, List.length_append, elem_count,
      stack_count ns _, List.map_cons, List.sum_cons]

/-! ## C54 -/

/-- The number of cells generated is the number computed before the arrays are allocated, and the layers are at most as many as the
entries of the two records of the layers: nothing is written outside the arrays, and no entry is left unset. -/
theorem C54_cells_fit_arrays {decl : Option (Channel K)} (hf : FromStack d0 decl rs ns G) : G.cells.length = G.nCells ∧ G.ls.length ≤ G.d.nLayers + 1 := by
  obtain ⟨p, -, -, -, hn, hl, -⟩ := hf.spec
  constructor
  · unfold Grid.cells
    rw [hl]
    unfold layersOf
    simp only
    rw [List.flatten_append, List.length_append, stack_count ns 0]
    unfold numberOfCells at hn
    unfold spreaderLayer
    rcases hf.top with ⟨s, ht⟩ | ⟨s, m, ht⟩
    · rw [ht] at hn ⊢; simp only [Option.some.injEq] at hn; simp only; rw [← hn]; simp
    · rw [ht] at hn ⊢; simp only [Option.some.injEq] at hn; simp only; rw [← hn]; simp [subCells, Nat.mul_comm]
  · rw [hf.layers]
    cases G.g.top with
    | none => simp
    | some t => cases t <;> simp

/-- In each layer a point lies in as many cells as there are rectangles that contain it: the rectangles are divided without gaps
and without overlaps. -/
theorem C54_rectangles_divided (hf : FromFile d0 rs ns G) (hc : 0 < G.d.chipLength ∧ 0 < G.d.chipWidth) (hd : ∀ n ∈ ns, Divided n)
    {l : Nat} (hl : l < G.d.nLayers) : ∃ lc rects, G.ls[l]? = some lc ∧ (ns.flatMap (footprints (chipRect G.d)))[l]? = some rects ∧
      ∀ x y, lc.countP (inCell x y) = rects.countP (inRect x y) := by
  obtain ⟨p, -, -, -, -, hls, -⟩ := hf.spec
  have h := stack_points hc ns 0 hf.noChannel hd
  rw [List.forall₂_iff_get] at h
  obtain ⟨hlen, hget⟩ := h
  have h1 : l < (stackLayers G.d 0 (ns.map fixDiscr)).length := by rw [hf.nLayers]; exact hl
  refine ⟨_, _, ?_, List.getElem?_eq_getElem (by omega), hget l h1 (by omega)⟩
  rw [hls]
  unfold layersOf
  simp only
  rw [List.getElem?_append_left h1, List.getElem?_eq_getElem h1]
  rfl

/-- So every point of the chip lies in exactly one cell of a layer that is not part of a die, and, in the layers of a die, in exactly
one cell if it lies in the first rectangle of exactly one floorplan element. -/
theorem C54_one_cell_per_point_partial (hf : FromFile d0 rs ns G) (hc : 0 < G.d.chipLength ∧ 0 < G.d.chipWidth) (hd : ∀ n ∈ ns, Divided n)
    (x y : K) (hx : 0 ≤ x ∧ x < G.d.chipLength) (hy : 0 ≤ y ∧ y < G.d.chipWidth)
    (hone : ∀ n ∈ ns, ∀ b, n.elem.body = .die b → (b.flp.map (·.rect)).countP (inRect x y) = 1) {l : Nat} (hl : l < G.d.nLayers) :
    ∃ lc, G.ls[l]? = some lc ∧ lc.countP (inCell x y) = 1 := by
  obtain ⟨lc, rects, h1, h2, h3⟩ := C54_rectangles_divided hf hc hd hl
  refine ⟨lc, h1, ?_⟩
  rw [h3]
  obtain ⟨n, hn, hr⟩ := List.mem_flatMap.mp (List.mem_of_getElem? h2)
  unfold footprints at hr
  cases hb : n.elem.body with
  | die b =>
    rw [hb] at hr
    obtain ⟨_, _, rfl⟩ := List.mem_map.mp hr
    exact hone n hn b hb
  | layer ly =>
    rw [hb] at hr
    simp only [List.mem_singleton] at hr
    subst hr
    have hin : inRect x y (chipRect G.d) = true := by
      unfold inRect chipRect
      rw [decide_eq_true_eq]
      exact ⟨hx.1, by linarith [hx.2], hy.1, by linarith [hy.2]⟩
    rw [List.countP_cons, List.countP_nil, Nat.zero_add, if_pos hin]
  | channel ch => rw [hb] at hr; cases hr

/-! ## Examples -/

theorem nuDivided (p q : ℚ) : ∀ n ∈ nuElems p q, Divided n := by
  intro n hn
  simp only [nuElems, List.mem_cons, List.not_mem_nil, or_false] at hn
  rcases hn with rfl | rfl
  · intro e he
    simp only [nuFlp, List.mem_cons, List.not_mem_nil, or_false] at he
    rcases he with rfl | rfl <;> norm_num
  · show 0 < 2 ∧ 0 < 1
    decide

/-- Ten cells, and the point (12, 3) lies in exactly one cell of each of the three layers. -/
example (p q : ℚ) : (nuGrid none p q).cells.length = 10 ∧ ∀ l, l < 3 →
    ∃ lc, (nuGrid none p q).ls[l]? = some lc ∧ lc.countP (inCell 12 3) = 1 := by
  refine ⟨(C54_cells_fit_arrays (nuFrom none p q).stack).1, fun l hl => ?_⟩
  refine C54_one_cell_per_point_partial (nuFrom none p q) ?_ (nuDivided p q) 12 3 ?_ ?_ ?_ hl
  · show (0 : ℚ) < 20 ∧ (0 : ℚ) < 10; norm_num
  · show (0 : ℚ) ≤ 12 ∧ (12 : ℚ) < 20; norm_num
  · show (0 : ℚ) ≤ 3 ∧ (3 : ℚ) < 10; norm_num
  · intro n hn b hb
    simp only [nuElems, List.mem_cons, List.not_mem_nil, or_false] at hn
    rcases hn with rfl | rfl
    · simp only [Body.die.injEq] at hb
      subst hb
      simp [nuFlp, inRect, List.countP_cons]
      norm_num
    · cases hb

/-- A die with the floorplan of `okRaw1` (an L-shaped element made of two rectangles) and `okRaw2`. -/
def lFlp : List (FEl ℚ) :=
  [⟨⟨0, 0, 35, 10⟩, [⟨0, 10, 5, 10⟩], 1, 1, none, [1, 2, 3]⟩, ⟨⟨35, 0, 35, 20⟩, [], 1, 1, none, [4, 5]⟩]
def lRaw : List (Raw ℚ (List (FEl ℚ))) := [⟨"die", .die ⟨[], exLayer 5, [], lFlp⟩⟩]
def lElems : List (NElem ℚ) := [⟨⟨"die", .die ⟨[exLayer 5], 0, lFlp⟩, 0⟩, 1, 1⟩]
def lGrid : Grid ℚ :=
  { d := { Flp.okDims with nLayers := 1, heights := [5], nCells := 10 }, nCells := 2
    g := { nLayers := 1, types := [.sourceAmb], layers := [exLayer 5], channel := none, top := some (.ambient ⟨1, 300⟩), bottom := none }
    ls := [[⟨0, 0, 0, 35, 10, exMat, false⟩, ⟨0, 35, 0, 70, 20, exMat, false⟩]]
    flps := [some lFlp]
    ns := lElems.map fixDiscr }

theorem lFrom : FromFile Flp.okDims lRaw lElems lGrid := by
  refine ⟨_, lGrid.g, ⟨?_, ?_, ?_, ?_, rfl, rfl⟩, rfl, ?_⟩
  · show 1 ≤ 2; decide
  · show 1 ≤ 5; decide
  · intro s h; simp [spreaderOf, lGrid] at h
  · rintro ch h; simp at h
  · have e : buildNU lGrid.d lGrid.g.top lGrid.g.bottom lElems =
        some { lGrid with ls := layersOf lGrid.d lGrid.g.top (lElems.map fixDiscr) } := rfl
    refine e.trans ?_
    have hls : layersOf lGrid.d lGrid.g.top (lElems.map fixDiscr) = lGrid.ls := ?_
    · rw [hls]
    simp only [lGrid, layersOf, stackLayers, elemLayers, spreaderLayer, lElems, fixDiscr, List.map_cons, List.map_nil, lFlp, fixEl]
    norm_num [List.range_succ, dieLayer, subCells, exLayer]

/-- The rectangles of the model of the floorplan are those of the file. -/
example : lFlp.map (fun e => (e.rect :: e.others, e.powers)) = [Flp.okRaw1, Flp.okRaw2].map fun r => (r.rects, r.powers) := rfl

/-- The property is false when a floorplan element has several rectangles: only the first one has cells. Here the floorplan file is
accepted, the point (2, 15) lies in one of its rectangles, the second one of the first element, but in no cell of the die. -/
theorem C54_second_rectangle_violated : (∃ els, Flp.parseFloorplan Flp.okDims [Flp.okRaw1, Flp.okRaw2] = some els) ∧
    FromFile Flp.okDims lRaw lElems lGrid ∧ (∀ n ∈ lElems, Divided n) ∧
    ([Flp.okRaw1, Flp.okRaw2].flatMap (·.rects)).countP (inRect 2 15) = 1 ∧ lGrid.cells.countP (inCell 2 15) = 0 := by
  refine ⟨?_, lFrom, ?_, ?_, ?_⟩
  · obtain ⟨els, h, -⟩ := Flp.C28_names_and_overlaps_unchecked_violated Flp.okGrid [Flp.okRaw1, Flp.okRaw2] (by simp)
      (by simp [Flp.okRaw1, Flp.okRaw2]) Flp.okIn Flp.okLoc
    exact ⟨els, h⟩
  · intro n hn
    simp only [lElems, List.mem_singleton] at hn
    subst hn
    intro e he
    simp only [lFlp, List.mem_cons, List.not_mem_nil, or_false] at he
    rcases he with rfl | rfl <;> norm_num
  · simp [Flp.okRaw1, Flp.okRaw2, inRect, List.countP_cons]; norm_num
  · simp [Grid.cells, lGrid, inCell, List.countP_cons]; norm_num

end Verif.NU
