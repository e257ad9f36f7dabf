import Verif.Lemmas.NuStack

set_option linter.unusedSectionVars false
set_option linter.unusedSimpArgs false
set_option linter.unusedVariables false

/-! # C44: the matrix of a non-uniform grid

`FromFile d0 rs ns G`: `G` is the non-uniform grid built from an accepted stack file without channels. `Assembled rnd G a m`: `m` is
a matrix the program can produce for it, under some distribution of the iterations of the parallel loops over threads and some
order of the critical sections; `rnd` is the rounding of the additions on the diagonal. -/

namespace Verif.NU
open Verif.Dim Verif.TG Verif.Stk Verif.SM

variable {K : Type} [Field K] [LinearOrder K] [IsStrictOrderedRing K]

/-! ## Specification -/

/-- The cells of a grid, in the order of the unknowns. -/
def Grid.cells (G : Grid K) : List (Cell K) := G.ls.flatten

/-- Is this layer the source layer of a die? -/
def isSource : LType → Bool
  | .source | .sourceAmb | .sourceSpr | .sourcePcb => true
  | _ => false

/-- The material of a cell: its own in a source layer; in another layer the material the layer has at its corner. -/
def ownMat (G : Grid K) (c : Cell K) : Material K :=
  if isSource (typeAt G.g c.layer) then c.mat else cellMaterial (layerAt G.g c.layer) G.d 0 0

def area (c : Cell K) : K := c.length * c.width

/-- Heat capacity of a cell: volumetric capacity times volume. For a spreader cell see `sprCapacity`. -/
def heatCapacity (G : Grid K) (c : Cell K) : K :=
  if c.layer < G.d.nLayers then (ownMat G c).vhc * (area c * height G.d c.layer)
  else sprTerm G.g sprCapacity

/-- Two conductances in series. -/
def series (x y : K) : K := 1 / (1 / x + 1 / y)

/-- Conductance between a cell and the ambient above the stack: half of the cell in series with the heat transfer coefficient of
a conventional top sink, for the cells of the last layer; zero for the others. -/
def toAmbient (G : Grid K) (c : Cell K) : K :=
  match G.g.top with
  | some (.ambient s) =>
    if c.layer + 1 = G.d.nLayers then series (s.htc * area c) ((ownMat G c).kz * area c / (height G.d c.layer / 2)) else 0
  | _ => 0

/-- Positive sizes, materials and heat transfer coefficient. -/
structure PhysicalNU (G : Grid K) : Prop where
  hts : ∀ h ∈ G.d.heights, 0 < h
  cell : ∀ c ∈ G.cells, 0 < c.length ∧ 0 < c.width
  mat : ∀ c ∈ G.cells, c.layer < G.d.nLayers → PosMat (ownMat G c)
  htc : ∀ s, G.g.top = some (.ambient s) → 0 < s.htc
  spr : ∀ s m, G.g.top = some (.pluggable s m) → 0 < s.cellLength ∧ 0 < s.cellWidth ∧ 0 < s.height ∧ PosMat m

/-! ## Schedules -/

/-- In exact arithmetic the matrix (pointers, indices and values) does not depend on the scheduling of the threads. -/
theorem C44_schedule_independent {G : Grid K} {a : Ana K} {m m' : Csc K} (h : Assembled id G a m) (h' : Assembled id G a m') :
    m = m' := by
  obtain ⟨L, hr, rfl⟩ := h
  obtain ⟨L', hr', rfl⟩ := h'
  have hp : L.Perm L' := (runs_perm hr).trans (runs_perm hr').symm
  have h1 := List.mergeSort_perm (triplets id G.g a G.d G.ls.flatten L) before
  have h2 := List.mergeSort_perm (triplets id G.g a G.d G.ls.flatten L') before
  unfold fillMatrixNU
  congr 1
  exact sorted_unique ((h1.trans (triplets_perm hp)).trans h2.symm)
    (((trip_rows id G.g a G.d (runs_proper G.okTy hr)).perm h1.symm).keys) (sorted_sort _) (sorted_sort _)

/-- The result of `qsort` does not depend on the algorithm: any sorted arrangement of the rows gives the same arrays. -/
theorem C44_any_sort {G : Grid K} {a : Ana K} {L : List (Conn K)} (rnd : K → K)
    (h : Runs (regions G.d.nLayers G.ty G.ls) L) (ts : List (Trip K))
    (hp : ts.Perm (triplets rnd G.g a G.d G.ls.flatten L)) (hs : ts.Pairwise fun x y => before x y = true) :
    toCsc ts = fillMatrixNU rnd G.g a G.d G.ls.flatten L := by
  have h1 := List.mergeSort_perm (triplets rnd G.g a G.d G.ls.flatten L) before
  unfold fillMatrixNU
  congr 1
  exact sorted_unique (hp.trans h1.symm) (((trip_rows rnd G.g a G.d (runs_proper G.okTy h)).perm hp.symm).keys) hs (sorted_sort _)

/-- Whatever the rounding, the schedule does not change the off-diagonal coefficients. -/
theorem C44_offdiagonal_any_rounding {G : Grid K} {a : Ana K} {m m' : Csc K} {rnd : K → K} (h : Assembled rnd G a m)
    (h' : Assembled rnd G a m') (i j : Nat) (hj : j < G.cells.length) (hij : i ≠ j) : m.entry i j = m'.entry i j := by
  obtain ⟨L, hr, rfl⟩ := h
  obtain ⟨L', hr', rfl⟩ := h'
  have hp : L.Perm L' := (runs_perm hr).trans (runs_perm hr').symm
  rw [entry_eq rnd G.g a G.d (runs_proper G.okTy hr) i hj, entry_eq rnd G.g a G.d (runs_proper G.okTy hr') i hj, if_neg hij, if_neg hij]
  have h1 : (offDiag G.g G.d G.ls.flatten L).Perm (offDiag G.g G.d G.ls.flatten L') := hp.flatMap_right _
  unfold posSum
  rw [((h1.filter _).map _).sum_eq]

/-- The program can always produce a matrix (the sequential schedule). -/
theorem assembled_exists (rnd : K → K) (G : Grid K) (a : Ana K) : ∃ m, Assembled rnd G a m := ⟨_, _, runs_sequential _, rfl⟩

/-- The arrays are well-formed compressed columns of as many columns as cells, and the number of stored coefficients is twice the
number of connections plus the number of cells (`NConnections`, sources/thermal_data.c:1093). -/
theorem C44_structure {G : Grid K} {a : Ana K} {m : Csc K} {rnd : K → K} (hn : G.cells ≠ []) (h : Assembled rnd G a m) :
    ValidCsc m G.cells.length ∧
      ∃ L, Runs (regions G.d.nLayers G.ty G.ls) L ∧ m.vals.length = 2 * L.length + G.cells.length := by
  obtain ⟨L, hr, rfl⟩ := h
  have h1 := List.mergeSort_perm (triplets rnd G.g a G.d G.ls.flatten L) before
  refine ⟨toCsc_valid ((trip_rows rnd G.g a G.d (runs_proper G.okTy hr)).perm h1.symm) (sorted_sort _) (List.length_pos_of_ne_nil hn),
    L, hr, ?_⟩
  show (List.map _ _).length = _
  rw [List.length_map, h1.length_eq]
  unfold triplets offDiag Grid.cells
  rw [List.length_append, List.length_map, List.length_range, List.length_flatMap]
  congr 1
  clear hr h1
  induction L with
  | nil => rfl
  | cons c L ih => rw [List.map_cons, List.sum_cons, ih, List.length_cons]; simp [pairOf]; omega

/-! ## Symmetry and sums -/

section
variable {d0 : Dims K} {rs : List (Raw K (List (FEl K)))} {ns : List (NElem K)} {G : Grid K} {a : Ana K} {m : Csc K}

/-- Between solid cells both coefficients are the same. -/
theorem conductance_sign (g : TGrid K) (d : Dims K) (cn : Conn K) (x y : Cell K) (h : y.chan = false) : (conductance g d cn x y).2 = 1 := by
  unfold conductance
  simp only [h, Bool.false_eq_true, if_false]
  split_ifs <;> rfl

theorem posSum_symm {g : TGrid K} {d : Dims K} {cs : List (Cell K)} {L : List (Conn K)} (h : ∀ cn ∈ L, (cellAt cs cn.node1).chan = false)
    (i j : Nat) : posSum (offDiag g d cs L) i j = posSum (offDiag g d cs L) j i := by
  induction L with
  | nil => rfl
  | cons cn L ih =>
    have ih := ih fun x hx => h x (List.mem_cons_of_mem _ hx)
    unfold offDiag at ih ⊢
    rw [List.flatMap_cons, posSum_append, posSum_append, ih]
    congr 1
    unfold pairOf
    simp only [posSum_cons, conductance_sign g d cn _ _ (h cn List.mem_cons_self), one_mul]
    by_cases h1 : cn.node2 = i ∧ cn.node1 = j
    · rw [if_pos h1, if_pos (show cn.node1 = j ∧ cn.node2 = i from ⟨h1.2, h1.1⟩)]
      by_cases h2 : cn.node1 = i ∧ cn.node2 = j
      · rw [if_pos h2, if_pos (show cn.node2 = j ∧ cn.node1 = i from ⟨h2.2, h2.1⟩)]; rfl
      · rw [if_neg h2, if_neg (fun hh => h2 ⟨hh.2, hh.1⟩)]; simp [posSum]
    · rw [if_neg h1, if_neg (show ¬ (cn.node1 = j ∧ cn.node2 = i) from fun hh => h1 ⟨hh.2, hh.1⟩)]
      by_cases h2 : cn.node1 = i ∧ cn.node2 = j
      · rw [if_pos h2, if_pos (show cn.node2 = j ∧ cn.node1 = i from ⟨h2.2, h2.1⟩)]; simp [posSum]
      · rw [if_neg h2, if_neg (fun hh => h2 ⟨hh.2, hh.1⟩)]; rfl

theorem nodes_solid (hf : FromFile d0 rs ns G) {L : List (Conn K)} (hr : Runs (regions G.d.nLayers G.ty G.ls) L) :
    ∀ cn ∈ L, (cellAt G.ls.flatten cn.node1).chan = false := by
  intro cn hc
  have := (runs_proper G.okTy hr).lt cn hc
  exact (hf.cell (cellAt_mem (by omega))).1

/-- The matrix is symmetric. -/
theorem C44_symmetric {rnd : K → K} (hf : FromFile d0 rs ns G) (hm : Assembled rnd G a m) (i j : Nat) (hi : i < G.cells.length)
    (hj : j < G.cells.length) : m.entry i j = m.entry j i := by
  obtain ⟨L, hr, rfl⟩ := hm
  rw [entry_eq rnd G.g a G.d (runs_proper G.okTy hr) i hj, entry_eq rnd G.g a G.d (runs_proper G.okTy hr) j hi, posSum_symm (nodes_solid hf hr)]
  congr 1
  by_cases h : i = j
  · subst h; rfl
  · rw [if_neg h, if_neg (Ne.symm h)]

/-- Each column sums to the initial value of its diagonal coefficient. -/
theorem colSum_base (hm : Assembled id G a m) (j : Nat) (hj : j < G.cells.length) :
    ∑ i ∈ Finset.range G.cells.length, m.entry i j = diagBase G.g a G.d (cellAt G.cells j) := by
  obtain ⟨L, hr, rfl⟩ := hm
  have hp := runs_proper G.okTy hr
  rw [Finset.sum_congr rfl fun i _ => entry_eq id G.g a G.d hp i hj, Finset.sum_add_distrib]
  have h1 : ∑ i ∈ Finset.range G.cells.length, posSum (offDiag G.g G.d G.ls.flatten L) i j =
      (((offDiag G.g G.d G.ls.flatten L).filter fun e => decide (e.col = j)).map (·.val)).sum := by
    refine colSum_off _ ?_ j
    intro e he
    obtain ⟨cn, hc, hk⟩ := mem_off he
    have := hp.lt cn hc
    show e.row < G.ls.flatten.length
    omega
  rw [h1, diagAcc_id]
  rw [Finset.sum_ite_eq' , if_pos (Finset.mem_range.mpr hj)]
  unfold Grid.cells
  ring

theorem heightAt_pos (wf : WF G.g G.d) (hp : ∀ h ∈ G.d.heights, 0 < h) {l : Nat} (hl : l < G.d.nLayers) : 0 < height G.d l := by
  have h1 : l < G.d.heights.length := by rw [wf.hlen]; exact hl
  have : height G.d l = G.d.heights[l] := by
    unfold height cellHeight
    rw [List.getElem?_eq_getElem h1, if_neg (by intro hh; rw [hh] at h1; simp at h1), if_neg (by omega)]; rfl
  rw [this]; exact hp _ (List.getElem_mem h1)

theorem series_top {k h x A : K} (hk : 0 < k) (hh : 0 < h) (hx : 0 < x) (hA : 0 < A) :
    (2 * k * x * A) / (h * x + 2 * k) = series (x * A) (k * A / (h / 2)) := by
  unfold series
  have : 0 < h * x + 2 * k := by positivity
  field_simp
  ring

/-- The diagonal before the conductances: storage and ambient. -/
theorem diagBase_solid {decl : Option (Channel K)} (hf : FromStack d0 decl rs ns G) (ph : PhysicalNU G) (c : Cell K) (hc : c ∈ G.cells)
    (hsol : c.layer < G.d.nLayers → solidish (typeAt G.g c.layer) = true)
    (hl : c.layer < G.d.nLayers ∨ (c.layer = G.d.nLayers ∧ ∃ s m, G.g.top = some (.pluggable s m))) :
    diagBase G.g a G.d c = storage a (heatCapacity G c) + toAmbient G c := by
  have wf := hf.wf
  obtain ⟨hlen, hwid⟩ := ph.cell c hc
  unfold diagBase
  congr 1
  · congr 1
    unfold capacityNU heatCapacity
    rw [wf.nl]
    by_cases hlt : c.layer < G.d.nLayers
    · rw [if_neg (by omega), if_pos hlt]
      have hs := hsol hlt
      unfold ownMat area heatCap
      revert hs
      cases typeAt G.g c.layer <;> simp [solidish, isSource] <;> ring
    · rw [if_pos (by omega), if_neg hlt]
  · unfold boundary toAmbient
    by_cases hlt : c.layer < G.d.nLayers
    · rw [if_pos hlt]
      have hs := hsol hlt
      have hamb := wf.amb c.layer hlt
      have hspr := wf.spr c.layer hlt
      have hpcb := wf.pcb c.layer hlt
      obtain ⟨p, hb, -, hd, -⟩ := hf.spec
      have hh := heightAt_pos wf ph.hts hlt
      have hkz := (ph.mat c hc hlt).2.2.1
      have hlast := wf.last
      cases ht : G.g.top with
      | none => rcases hf.top with ⟨s, e⟩ | ⟨s, m, e⟩ <;> rw [ht] at e <;> cases e
      | some t =>
        cases t with
        | pluggable s m =>
          have hno : ¬ (typeAt G.g c.layer = .solidAmb ∨ typeAt G.g c.layer = .sourceAmb) := by
            intro h; obtain ⟨-, s', e⟩ := hamb h; rw [ht] at e; cases e
          revert hs hno
          cases typeAt G.g c.layer <;> simp [solidish]
        | ambient s =>
          have htop : topHtc G.g = s.htc := by unfold topHtc; rw [ht]
          have hx := ph.htc s ht
          simp only
          by_cases hL : c.layer + 1 = G.d.nLayers
          · rw [if_pos hL]
            have hty : typeAt G.g c.layer = .solidAmb ∨ typeAt G.g c.layer = .sourceAmb := by
              obtain ⟨hn, -⟩ := C16_layers_match_file hb.ok hb.parse
              obtain ⟨-, -, -, -, -, hty⟩ := C18_sinks_change_only_outermost_layers hb.ok hb.parse hb.fill
              have hl' : c.layer < (stackTypes decl rs).length := by rw [← hn, ← hd]; exact hlt
              have e := typeAt_of_get (hty c.layer _ (List.getElem?_eq_getElem hl'))
              have hc0 : ¬ (c.layer = 0 ∧ G.g.bottom.isSome) := by
                rintro ⟨h0, hbs⟩
                have : fillGrid p.dims.nLayers p.elems G.g.top G.g.bottom = none := by
                  rw [C18_refused_iff hb.ok hb.parse]
                  left
                  refine ⟨by rw [ht]; rfl, hbs, ?_⟩
                  rw [← hd]; omega
                rw [hb.fill] at this; cases this
              rw [if_neg hc0, if_pos (by rw [← hd]; omega), ht] at e
              rw [e]
              simp only [withTop]
              split_ifs
              · exact Or.inr rfl
              · exact Or.inl rfl
            rw [← series_top hkz hh hx (show 0 < area c by unfold area; positivity)]
            unfold topSeries condZ
            rw [htop]
            rcases hty with e | e
            · have : (ownMat G c) = cellMaterial (layerAt G.g c.layer) G.d 0 0 := by unfold ownMat; rw [e]; rfl
              rw [e, this]; unfold area
              simp only
              congr 1; ring
            · have : (ownMat G c) = c.mat := by unfold ownMat; rw [e]; rfl
              rw [e, this]; unfold area
              simp only
              congr 1; ring
          · rw [if_neg hL]
            have hno : ¬ (typeAt G.g c.layer = .solidAmb ∨ typeAt G.g c.layer = .sourceAmb) := by
              intro h; obtain ⟨e, -⟩ := hamb h; omega
            revert hs hno
            cases typeAt G.g c.layer <;> simp [solidish]
    · rw [if_neg hlt]
      obtain ⟨e, s, m, ht⟩ := hl.resolve_left hlt
      rw [ht]

theorem diagBase_eq (hf : FromFile d0 rs ns G) (ph : PhysicalNU G) (c : Cell K) (hc : c ∈ G.cells) :
    diagBase G.g a G.d c = storage a (heatCapacity G c) + toAmbient G c :=
  diagBase_solid hf.stack ph c hc (fun h => hf.types h) (hf.cell hc).2

/-- Each row of the matrix sums to the storage term of its cell plus the conductance between the cell and the ambient. -/
theorem C44_row_sums (hf : FromFile d0 rs ns G) (ph : PhysicalNU G) (hm : Assembled id G a m) (i : Nat) (hi : i < G.cells.length) :
    ∑ j ∈ Finset.range G.cells.length, m.entry i j = storage a (heatCapacity G G.cells[i]) + toAmbient G G.cells[i] := by
  have h1 : cellAt G.cells i = G.cells[i] := by
    unfold cellAt; rw [List.getD_eq_getElem?_getD, List.getElem?_eq_getElem hi]; rfl
  rw [← diagBase_eq hf ph _ (List.getElem_mem hi), ← h1, ← colSum_base hm i hi]
  exact Finset.sum_congr rfl fun j hj => C44_symmetric hf hm i j hi (Finset.mem_range.mp hj)

/-! ## Dominance -/

theorem list_sum_nonpos : ∀ (l : List K), (∀ x ∈ l, x ≤ 0) → l.sum ≤ 0
  | [], _ => le_refl _
  | x :: l, h => by
    rw [List.sum_cons]
    exact add_nonpos (h x List.mem_cons_self) (list_sum_nonpos l fun y hy => h y (List.mem_cons_of_mem _ hy))

theorem par_nonneg {x y : K} (hx : 0 ≤ x) (hy : 0 ≤ y) : 0 ≤ par x y := by unfold par; positivity

theorem overlap_nonneg {x y : Cell K} (h1 : 0 < x.length ∧ 0 < x.width) (h2 : 0 < y.length ∧ 0 < y.width) : 0 ≤ overlapArea x y := by
  obtain ⟨a1, a2⟩ := h1
  obtain ⟨b1, b2⟩ := h2
  unfold Cell.length Cell.width at *
  unfold overlapArea
  simp only
  refine mul_nonneg ?_ ?_ <;> split_ifs <;> first | exact abs_nonneg _ | linarith

theorem value_nonneg (ph : PhysicalNU G) {L : List (Conn K)} (hr : Runs (regions G.d.nLayers G.ty G.ls) L) :
    ∀ cn ∈ L, 0 ≤ cn.value := by
  intro cn hc
  have hlt := (runs_proper G.okTy hr).lt cn hc
  have hc := (runs_perm hr).mem_iff.mp hc
  obtain ⟨r, hr, hc⟩ := List.mem_flatMap.mp hc
  rcases List.mem_append.mp hr with hr | hr
  · obtain ⟨l, _, rfl⟩ := List.mem_map.mp hr
    obtain ⟨-, -, -, h⟩ := mem_in hc
    unfold inLayer at h
    simp only at h
    split_ifs at h <;> (rw [← Option.some.inj h]; try first | exact abs_nonneg _ | exact le_refl _)
  · obtain ⟨l, _, rfl⟩ := List.mem_map.mp hr
    obtain ⟨-, -, -, -, h⟩ := mem_between hc
    unfold between at h
    simp only at h
    split_ifs at h
    rw [← Option.some.inj h]
    exact overlap_nonneg (ph.cell _ (cellAt_mem (show cn.node1 < G.ls.flatten.length by omega)))
      (ph.cell _ (cellAt_mem (show cn.node2 < G.ls.flatten.length by omega)))

section
variable (hf : FromFile d0 rs ns G) (ph : PhysicalNU G)
include hf ph

theorem spr_nonneg {f : Spreader K → Material K → K} (h : ∀ s m, 0 < s.cellLength ∧ 0 < s.cellWidth ∧ 0 < s.height ∧ PosMat m → 0 ≤ f s m) :
    0 ≤ sprTerm G.g f := by
  unfold sprTerm
  split
  · rename_i s m e; exact h s m (ph.spr s m e)
  · exact le_refl _

theorem ownMat_solid {c : Cell K} (h : isSource (typeAt G.g c.layer) = false) : cellMaterial (layerAt G.g c.layer) G.d 0 0 = ownMat G c := by
  unfold ownMat; rw [h]; rfl

theorem ownMat_source {c : Cell K} (h : isSource (typeAt G.g c.layer) = true) : c.mat = ownMat G c := by
  unfold ownMat; rw [if_pos h]

theorem g_nonneg {c : Cell K} (hc : c ∈ G.cells) {v : K} (hv : 0 ≤ v) (up : Bool) (note : K) :
    0 ≤ gz G.g G.d v c up ∧ 0 ≤ gx G.g G.d v c ∧ 0 ≤ gy G.g G.d v c note := by
  obtain ⟨hlen, hwid⟩ := ph.cell c hc
  by_cases hlt : c.layer < G.d.nLayers
  · have hs := hf.types hlt
    have hh := heightAt_pos hf.wf ph.hts hlt
    obtain ⟨k1, k2, k3, k4⟩ := ph.mat c hc hlt
    have hn : ¬ (c.layer ≥ G.d.nLayers) := by omega
    have hif : ∀ p : Prop, ∀ _ : Decidable p, 0 < (if p then height G.d c.layer / 2 else height G.d c.layer) ∧
        0 < (if p then height G.d c.layer else height G.d c.layer / 2) := by
      intro p _; split_ifs <;> exact ⟨by positivity, by positivity⟩
    unfold gz gx gy
    rw [if_neg hn, if_neg hn, if_neg hn]
    by_cases hsrc : isSource (typeAt G.g c.layer) = true
    · rw [ownMat_source hf ph hsrc]
      revert hs hsrc
      cases typeAt G.g c.layer <;> intro hs hsrc <;> simp [solidish, isSource] at hs hsrc <;>
        refine ⟨?_, ?_, ?_⟩ <;> first | positivity | exact div_nonneg (by positivity) (hif _ _).1.le | exact div_nonneg (by positivity) (hif _ _).2.le
    · have hsrc' : isSource (typeAt G.g c.layer) = false := by simpa using hsrc
      unfold condZ condX condY
      rw [ownMat_solid hf ph hsrc']
      revert hs hsrc'
      cases typeAt G.g c.layer <;> intro hs hsrc <;> simp [solidish, isSource] at hs hsrc <;>
        refine ⟨?_, ?_, ?_⟩ <;> first | positivity | exact div_nonneg (by positivity) (hif _ _).1.le | exact div_nonneg (by positivity) (hif _ _).2.le
  · have hn : c.layer ≥ G.d.nLayers := by omega
    unfold gz gx gy
    rw [if_pos hn, if_pos hn, if_pos hn]
    refine ⟨spr_nonneg hf ph ?_, spr_nonneg hf ph ?_, spr_nonneg hf ph ?_⟩ <;>
      rintro s m ⟨h1, h2, h3, k1, k2, k3, k4⟩ <;> (try simp only [sprEW, sprNS]) <;> positivity

theorem conductance_nonpos {x y : Cell K} (hx : x ∈ G.cells) (hy : y ∈ G.cells) {cn : Conn K} (hv : 0 ≤ cn.value) :
    (conductance G.g G.d cn x y).1 ≤ 0 := by
  have X := fun up note => g_nonneg hf ph hx hv up note
  have Y := fun up note => g_nonneg hf ph hy hv up note
  have hch := (hf.cell hy).1
  unfold conductance
  simp only [hch, Bool.false_eq_true, if_false]
  split_ifs with h0 h1 h2 h3 h4 h5
  · exact neg_nonpos.mpr (Y _ 0).1
  · exact neg_nonpos.mpr (X _ 0).1
  · exact neg_nonpos.mpr (par_nonneg (X _ 0).1 (Y _ 0).1)
  · exact neg_nonpos.mpr (par_nonneg (X true 0).2.1 (Y true 0).2.1)
  · exact neg_nonpos.mpr (par_nonneg (X true _).2.2 (Y true _).2.2)
  · exact neg_nonpos.mpr (par_nonneg (X true _).2.2 (Y true _).2.2)
  · exact le_refl _

/-- Off-diagonal coefficients are not positive. -/
theorem off_nonpos {rnd : K → K} (hm : Assembled rnd G a m) (i j : Nat) (hj : j < G.cells.length) (hij : i ≠ j) : m.entry i j ≤ 0 := by
  obtain ⟨L, hr, rfl⟩ := hm
  rw [entry_eq rnd G.g a G.d (runs_proper G.okTy hr) i hj, if_neg hij, add_zero]
  unfold posSum
  refine list_sum_nonpos _ fun x hx => ?_
  obtain ⟨e, he, rfl⟩ := List.mem_map.mp hx
  obtain ⟨cn, hc, he⟩ := List.mem_flatMap.mp (List.mem_filter.mp he).1
  have hlt := (runs_proper G.okTy hr).lt cn hc
  have hv := value_nonneg ph hr cn hc
  have h := conductance_nonpos hf ph (cn := cn) (cellAt_mem (show cn.node2 < G.ls.flatten.length by omega))
    (cellAt_mem (show cn.node1 < G.ls.flatten.length by omega)) hv
  have hs := conductance_sign G.g G.d cn (cellAt G.ls.flatten cn.node2) (cellAt G.ls.flatten cn.node1) (nodes_solid hf hr cn hc)
  unfold pairOf at he
  simp only [List.mem_cons, List.not_mem_nil, or_false] at he
  rcases he with rfl | rfl
  · exact h
  · show _ * _ ≤ _; rw [hs, one_mul]; exact h

theorem capacity_posNU {c : Cell K} (hc : c ∈ G.cells) : 0 < heatCapacity G c := by
  obtain ⟨hlen, hwid⟩ := ph.cell c hc
  unfold heatCapacity
  split_ifs with hlt
  · have hh := heightAt_pos hf.wf ph.hts hlt
    obtain ⟨k1, k2, k3, k4⟩ := ph.mat c hc hlt
    unfold area; positivity
  · obtain ⟨e, s, m, ht⟩ := (hf.cell hc).2.resolve_left hlt
    obtain ⟨h1, h2, h3, k1, k2, k3, k4⟩ := ph.spr s m ht
    unfold sprTerm; rw [ht]; unfold sprCapacity; positivity

theorem ambient_nonnegNU {c : Cell K} (hc : c ∈ G.cells) : 0 ≤ toAmbient G c := by
  obtain ⟨hlen, hwid⟩ := ph.cell c hc
  unfold toAmbient
  split
  · rename_i s ht
    split_ifs with hl
    · have hlt : c.layer < G.d.nLayers := by omega
      have hh := heightAt_pos hf.wf ph.hts hlt
      obtain ⟨k1, k2, k3, k4⟩ := ph.mat c hc hlt
      have := ph.htc s ht
      unfold series area; positivity
    · exact le_refl _
  · exact le_refl _

end

/-- Transient, with a positive step, positive sizes and materials: off-diagonal coefficients are not positive, each row is strictly
diagonally dominant and the linear system has exactly one solution for every right-hand side. -/
theorem C44_dominant_unique (hf : FromFile d0 rs ns G) (ph : PhysicalNU G) (hm : Assembled id G a m) (hat : a.transient = true)
    (ha : 0 < a.stepTime) :
    (∀ i j, i < G.cells.length → j < G.cells.length → i ≠ j → m.entry i j ≤ 0) ∧
    (∀ i, i < G.cells.length → ∑ j ∈ (Finset.range G.cells.length).erase i, |m.entry i j| < m.entry i i) ∧
    (∀ b, OneSolution G.cells.length m.entry b) := by
  have hoff : ∀ i j, i < G.cells.length → j < G.cells.length → i ≠ j → m.entry i j ≤ 0 := fun i j _ hj hij => off_nonpos hf ph hm i j hj hij
  have hrow : ∀ i, i < G.cells.length → 0 < ∑ j ∈ Finset.range G.cells.length, m.entry i j := by
    intro i hi
    rw [C44_row_sums hf ph hm i hi]
    have h1 := capacity_posNU hf ph (List.getElem_mem hi)
    have h2 := ambient_nonnegNU hf ph (List.getElem_mem hi)
    have h3 : 0 < storage a (heatCapacity G G.cells[i]) := by unfold storage; rw [hat]; simp only [if_true]; positivity
    linarith
  refine ⟨hoff, ?_, ?_⟩
  · intro i hi
    have h1 := hrow i hi
    rw [← Finset.add_sum_erase _ _ (Finset.mem_range.mpr hi)] at h1
    have h3 : ∑ j ∈ (Finset.range G.cells.length).erase i, |m.entry i j| = - ∑ j ∈ (Finset.range G.cells.length).erase i, m.entry i j := by
      rw [← Finset.sum_neg_distrib]
      refine Finset.sum_congr rfl fun j hj => ?_
      obtain ⟨hji, hjn⟩ := Finset.mem_erase.mp hj
      exact abs_of_nonpos (hoff i j hi (Finset.mem_range.mp hjn) (Ne.symm hji))
    rw [h3]; linarith
  · intro b
    refine one_of_unique _ _ (Net2.unique_of_dominant ?_ ?_ _)
    · intro i j hij; exact hoff i j i.2 j.2 fun h => hij (Fin.ext h)
    · intro i; rw [sum_fin G.cells.length (fun j => m.entry i j)]; exact hrow i i.2

end

end Verif.NU
