import Verif.Lemmas.Example

set_option linter.unusedSectionVars false
set_option linter.unusedSimpArgs false
set_option linter.unusedVariables false

/-! # C19, C21, C22: the system matrix of a uniform grid

`fillMatrix g a d` are the three arrays left by `fill_system_matrix`; `Csc.entry` reads them as a matrix. `Built φ g d` says
that the thermal grid `g` and the dimensions `d` come from an accepted stack file, `Physical g d` that sizes, materials and
heat transfer coefficients are positive. -/

namespace Verif.SM
open Verif.Dim Verif.TG Verif.Stk

variable {K φ : Type} [Field K] [LinearOrder K] [IsStrictOrderedRing K]

theorem nCells_eq {g : TGrid K} {d : Dims K} (wf : WF g d) : d.nCells = size g d := by
  rw [(accepted_bound wf.acc).2.2, size, Nat.mul_assoc]

/-! ## C19 -/

/-- A well-formed compressed-column matrix of order `n`. -/
structure ValidCsc (m : Csc K) (n : Nat) : Prop where
  cols : m.colPtr.length = n + 1
  start : m.colPtr[0]? = some 0
  stop : m.colPtr[n]? = some m.rowIdx.length
  same : m.vals.length = m.rowIdx.length
  mono : ∀ (j a b : Nat), m.colPtr[j]? = some a → m.colPtr[j + 1]? = some b → a ≤ b
  inside : ∀ (k r : Nat), m.rowIdx[k]? = some r → r < n
  sorted : ∀ (j a b k k' r r' : Nat), m.colPtr[j]? = some a → m.colPtr[j + 1]? = some b → a ≤ k → k < k' → k' < b →
    m.rowIdx[k]? = some r → m.rowIdx[k']? = some r' → r < r'
  diag : ∀ (j a b : Nat), m.colPtr[j]? = some a → m.colPtr[j + 1]? = some b → ∃ k, a ≤ k ∧ k < b ∧ m.rowIdx[k]? = some j

theorem scanl_getElem? {α : Type} (L : List (List α)) (a j x : Nat)
    (h : (L.scanl (fun p col => p + col.length) a)[j]? = some x) : j ≤ L.length ∧ x = a + ((L.take j).map List.length).sum := by
  have hj : j < (L.scanl (fun p col => p + col.length) a).length := (List.getElem?_eq_some_iff.mp h).1
  rw [List.length_scanl] at hj
  have := scanl_getD L a j (by omega)
  rw [List.getD_eq_getElem?_getD, h] at this
  exact ⟨by omega, this⟩

theorem flatMap_getElem?_map {α β : Type} (L : List (List α)) (f : α → β) {j t : Nat} {col : List α} (hj : L[j]? = some col)
    (ht : t < col.length) :
    (L.flatMap fun c => c.map f)[((L.take j).map List.length).sum + t]? = (col.map f)[t]? := by
  induction L generalizing j with
  | nil => simp at hj
  | cons x L ih =>
    cases j with
    | zero =>
      simp at hj; subst hj
      rw [List.flatMap_cons, List.take_zero, List.map_nil, List.sum_nil, zero_add, List.getElem?_append_left (by simpa using ht)]
    | succ j =>
      rw [List.getElem?_cons_succ] at hj
      rw [List.flatMap_cons, List.take_succ_cons, List.map_cons, List.sum_cons, List.getElem?_append_right (by simp; omega),
        List.length_map, show x.length + ((L.take j).map List.length).sum + t - x.length = ((L.take j).map List.length).sum + t
          by omega]
      exact ih hj

theorem length_flatMap_map {α β : Type} (L : List (List α)) (f : α → β) :
    (L.flatMap fun c => c.map f).length = (L.map List.length).sum := by
  rw [List.length_flatMap]; simp [Function.comp_def]

/-- The arrays written by `fill_system_matrix` for an accepted stack form a valid compressed-column matrix whose order is the
number of cells: pointers start at 0, are monotone and end at the number of coefficients; in each column the rows are strictly
increasing, inside the matrix, and the diagonal is present. No assumption on the numerical values. -/
theorem C19_valid_compressed_columns {g : TGrid K} {d : Dims K} (hb : Built φ g d) (a : Ana K) :
    ValidCsc (fillMatrix g a d) d.nCells := by
  have wf := wf_of_built hb
  have hN := nCells_eq wf
  rw [hN]
  have hlen : (columns g a d).length = size g d := by rw [columns_eq wf, List.length_map, cells_length wf]
  have hcol : ∀ (j p q : Nat), (fillMatrix g a d).colPtr[j]? = some p → (fillMatrix g a d).colPtr[j + 1]? = some q →
      j < size g d ∧ p = (((columns g a d).take j).map List.length).sum ∧ q = p + (columnOf g a d (cellAt g d j)).length := by
    intro j p q h1 h2
    obtain ⟨-, e1⟩ := scanl_getElem? _ _ _ _ h1
    obtain ⟨l2, e2⟩ := scanl_getElem? _ _ _ _ h2
    have hj : j < size g d := by omega
    refine ⟨hj, by omega, ?_⟩
    rw [e2, List.take_add_one, columns_get wf a hj]
    simp only [Option.toList_some, List.map_append, List.sum_append, List.map_cons, List.map_nil, List.sum_cons, List.sum_nil]
    omega
  refine ⟨?_, ?_, ?_, ?_, ?_, ?_, ?_, ?_⟩
  · show (List.scanl _ _ _).length = _
    rw [List.length_scanl, hlen]
  · show (List.scanl _ _ _)[0]? = _
    cases columns g a d <;> simp
  · have hl : size g d < (fillMatrix g a d).colPtr.length := by
      show _ < (List.scanl _ _ _).length
      rw [List.length_scanl, hlen]; omega
    rw [List.getElem?_eq_getElem hl]
    obtain ⟨-, e⟩ := scanl_getElem? _ _ _ _ (List.getElem?_eq_getElem hl)
    have e' : (fillMatrix g a d).colPtr[size g d] = 0 + (((columns g a d).take (size g d)).map List.length).sum := e
    rw [e']
    rw [← hlen, List.take_length]
    show _ = some ((columns g a d).flatMap fun col => col.map fun e => offset d (spreaderOf g) e.1).length
    rw [length_flatMap_map, zero_add]
  · show ((columns g a d).flatMap fun col => col.map fun e => e.2).length =
      ((columns g a d).flatMap fun col => col.map fun e => offset d (spreaderOf g) e.1).length
    rw [length_flatMap_map, length_flatMap_map]
  · intro j p q h1 h2
    obtain ⟨-, -, h⟩ := hcol j p q h1 h2
    omega
  · intro k r h
    have hm : r ∈ (columns g a d).flatMap fun col => col.map fun e => offset d (spreaderOf g) e.1 := List.mem_of_getElem? h
    rw [List.mem_flatMap] at hm
    obtain ⟨col, hcm, hr⟩ := hm
    rw [columns_eq wf] at hcm
    obtain ⟨q, hq, rfl⟩ := List.mem_map.mp hcm
    have hv := (mem_cells wf).mp hq
    obtain ⟨e, he, rfl⟩ := List.mem_map.mp hr
    rw [column_eq wf a hv, assemble] at he
    simp only [List.mem_append, List.mem_map, List.mem_singleton] at he
    rcases he with (⟨x, hx, rfl⟩ | rfl) | ⟨x, hx, rfl⟩
    · exact offset_lt_size wf (valid_lo wf hv hx)
    · exact offset_lt_size wf hv
    · exact offset_lt_size wf (valid_hi wf hv hx)
  · intro j p q k k' r r' h1 h2 hpk hkk hkq hr hr'
    obtain ⟨hj, hp, hq⟩ := hcol j p q h1 h2
    have hs := column_sorted wf a (cellAt_valid wf hj).1
    have g1 : ∀ (k : Nat), p ≤ k → k < q → (fillMatrix g a d).rowIdx[k]? =
        ((columnOf g a d (cellAt g d j)).map fun e => offset d (spreaderOf g) e.1)[k - p]? := by
      intro k hk1 hk2
      have := flatMap_getElem?_map (columns g a d) (fun e => offset d (spreaderOf g) e.1) (columns_get wf a hj) (t := k - p) (by omega)
      rw [← hp, Nat.add_sub_cancel' hk1] at this
      exact this
    rw [g1 k hpk (by omega)] at hr
    rw [g1 k' (by omega) hkq] at hr'
    obtain ⟨i1, e1⟩ := List.getElem?_eq_some_iff.mp hr
    obtain ⟨i2, e2⟩ := List.getElem?_eq_some_iff.mp hr'
    rw [← e1, ← e2]
    exact List.pairwise_iff_getElem.mp hs _ _ i1 i2 (by omega)
  · intro j p q h1 h2
    obtain ⟨hj, hp, hq⟩ := hcol j p q h1 h2
    obtain ⟨hv, ho⟩ := cellAt_valid wf hj
    have hce := column_eq wf a hv
    have hl : (loOf g d (cellAt g d j)).length < (columnOf g a d (cellAt g d j)).length := by
      rw [hce, assemble]; simp
    refine ⟨p + (loOf g d (cellAt g d j)).length, by omega, by omega, ?_⟩
    have := flatMap_getElem?_map (columns g a d) (fun e => offset d (spreaderOf g) e.1) (columns_get wf a hj) hl
    rw [← hp] at this
    refine this.trans ?_
    rw [hce, assemble, List.map_append, List.map_append, List.append_assoc, List.getElem?_append_right (by simp)]
    simp [ho]

/-- The property holds, in particular, for the 120 cells of the example with a coolant channel and for the 48 cells of the
example with a heat spreader. -/
example (a : Ana ℚ) : ValidCsc (fillMatrix exG a exD) 120 := C19_valid_compressed_columns exBuilt a
example (a : Ana ℚ) : ValidCsc (fillMatrix exSolidG a exSolidD) 48 := C19_valid_compressed_columns exSolidBuilt a

/-! ## C21 -/

section
variable {g : TGrid K} {d : Dims K} (wf : WF g d) (ph : Physical g d)
include wf ph

/-- Without a channel every layer is solid. -/
theorem solid_of_no_channel (hc : g.channel = none) {l : Nat} (hl : l < d.nLayers) : solidish (typeAt g l) = true := by
  by_contra h
  obtain ⟨ch, h1, -⟩ := channel_some wf hl (by simpa using h)
  rw [hc] at h1; cases h1

/-- Without a channel no coefficient is a flow term. -/
theorem no_flow (hc : g.channel = none) {q : Cell} (hq : Valid g d q) {e : Ent K} (he : e ∈ loOf g d q ++ hiOf g d q) :
    e.val + e.contrib = 0 := by
  have hlink : ∀ (p : Cell) (x : K), (link p x).val + (link p x).contrib = 0 := by intro p x; simp [link]
  cases q with
  | spr r c =>
    obtain ⟨s, m, ht, -, -⟩ := hq
    simp only [loOf, hiOf, ht, sprLo, sprHi, List.mem_append, mem_opt] at he
    rcases he with ((⟨_, rfl⟩ | ⟨_, rfl⟩) | ⟨_, rfl⟩) | (⟨_, rfl⟩ | ⟨_, rfl⟩) <;> exact hlink _ _
  | box l r c =>
    have hs := solid_of_no_channel wf ph hc hq.1
    have hk : kindOf (typeAt g l) c = .solid := by
      revert hs; cases typeAt g l <;> simp [solidish, kindOf]
    simp only [loOf, hiOf, hk, solidLo, solidHi, List.mem_append, mem_opt] at he
    rcases he with ((⟨_, rfl⟩ | ⟨_, rfl⟩) | ⟨_, rfl⟩) | (((⟨_, rfl⟩ | ⟨_, rfl⟩) | ⟨_, rfl⟩) | ⟨_, rfl⟩) <;> exact hlink _ _

theorem flow_zero (hc : g.channel = none) (a : Ana K) : (netw g a d).flow = 0 := by
  funext i j
  obtain ⟨hv, -⟩ := cellAt_valid wf j.2
  show Net2.pick _ _ i j = 0
  unfold Net2.pick
  refine List.sum_eq_zero fun x hx => ?_
  obtain ⟨e, he, rfl⟩ := List.mem_map.mp hx
  obtain ⟨y, hy, rfl⟩ := List.mem_map.mp (List.mem_filter.mp he).1
  exact no_flow wf ph hc hv hy

end

/-- In a stack without coolant the coefficient stored for two cells is the same in both directions, for any materials, heights,
cell sizes and layouts (positive, as in `Physical`), transient or steady. -/
theorem C21_conduction_is_symmetric {g : TGrid K} {d : Dims K} (hb : Built φ g d) (hp : Physical g d) (hc : g.channel = none)
    (a : Ana K) (i j : Nat) (hi : i < d.nCells) (hj : j < d.nCells) :
    (fillMatrix g a d).entry i j = (fillMatrix g a d).entry j i := by
  have wf := wf_of_built hb
  have hN := nCells_eq wf
  rw [hN] at hi hj
  have h := matrix_eq wf a
  have h1 := congrFun (congrFun h ⟨i, hi⟩) ⟨j, hj⟩
  have h2 := congrFun (congrFun h ⟨j, hj⟩) ⟨i, hi⟩
  simp only [matrix] at h1 h2
  rw [h1, h2, Net2.mat_eq, flow_zero wf hp hc a, add_zero]
  exact Net2.symm_symm (netw_ok wf hp a) _ _

/-- A cell of the grid that contains coolant: any cell of a 2RM or pin fin coolant layer, odd columns of a 4RM layer. -/
def IsCoolant (g : TGrid K) (l c : Nat) : Prop :=
  typeAt g l = .ch2rm ∨ typeAt g l = .pfInline ∨ typeAt g l = .pfStag ∨ (typeAt g l = .ch4rm ∧ c % 2 = 1)

/-- With coolant, two coefficients differ only between consecutive cells of the same coolant channel. -/
theorem C21_asymmetry_only_along_coolant {g : TGrid K} {d : Dims K} (hb : Built φ g d) (hp : Physical g d) (a : Ana K)
    (i j : Nat) (hi : i < d.nCells) (hj : j < d.nCells) (hne : (fillMatrix g a d).entry i j ≠ (fillMatrix g a d).entry j i) :
    ∃ l r c, l < d.nLayers ∧ r + 1 < d.nRows ∧ c < d.nCols ∧ IsCoolant g l c ∧
      ((i = offInStack d l r c ∧ j = offInStack d l (r + 1) c) ∨ (j = offInStack d l r c ∧ i = offInStack d l (r + 1) c)) := by
  have wf := wf_of_built hb
  rw [nCells_eq wf] at hi hj
  have h := matrix_eq wf a
  have h1 := congrFun (congrFun h ⟨i, hi⟩) ⟨j, hj⟩
  have h2 := congrFun (congrFun h ⟨j, hj⟩) ⟨i, hi⟩
  simp only [matrix] at h1 h2
  rw [h1, h2, Net2.mat_eq] at hne
  have hok := netw_ok wf hp a
  simp only [Matrix.add_apply] at hne
  rw [Net2.symm_symm hok ⟨i, hi⟩ ⟨j, hj⟩, Net2.flow_anti hok ⟨i, hi⟩ ⟨j, hj⟩] at hne
  have hf : (netw g a d).flow ⟨j, hj⟩ ⟨i, hi⟩ ≠ 0 := by
    intro h0; rw [h0] at hne; simp at hne
  obtain ⟨hv, ho⟩ := cellAt_valid wf hi
  obtain ⟨y, hy, hy0⟩ := List.exists_mem_ne_zero_of_sum_ne_zero hf
  obtain ⟨e, he, rfl⟩ := List.mem_map.mp hy
  obtain ⟨he1, he2⟩ := List.mem_filter.mp he
  obtain ⟨x, hx, rfl⟩ := List.mem_map.mp he1
  rw [decide_eq_true_eq] at he2
  have hxv := ent_valid wf hv hx
  have hxj : offset d (spreaderOf g) x.cell = j := by
    have := congrArg Fin.val he2
    simp only at this
    rw [rowOf_val wf _ hxv] at this; exact this
  have hlink : ∀ (p : Cell) (x : K), (link p x).val + (link p x).contrib = 0 := by intro p x; simp [link]
  simp only at hy0
  subst hxj
  rw [← ho]
  cases hq : cellAt g d i with
  | spr r c =>
    exfalso
    simp only [hq] at hx
    rw [hq] at hv
    obtain ⟨s, m, ht, -, -⟩ := hv
    simp only [loOf, hiOf, ht, sprLo, sprHi, List.mem_append, mem_opt] at hx
    rcases hx with ((⟨_, rfl⟩ | ⟨_, rfl⟩) | ⟨_, rfl⟩) | (⟨_, rfl⟩ | ⟨_, rfl⟩) <;> exact hy0 (hlink _ _)
  | box l r c =>
    simp only [hq] at hx
    rw [hq] at hv
    obtain ⟨hl, hr, hc⟩ := hv
    have hlr := wf.lastRow
    have fin : ∀ (co : IsCoolant g l c), (r ≠ 0 ∧ x.cell = .box l (r - 1) c) ∨ (r ≠ lastRow d ∧ x.cell = .box l (r + 1) c) →
        ∃ l' r' c', l' < d.nLayers ∧ r' + 1 < d.nRows ∧ c' < d.nCols ∧ IsCoolant g l' c' ∧
          ((offset d (spreaderOf g) (.box l r c) = offInStack d l' r' c' ∧ offset d (spreaderOf g) x.cell = offInStack d l' (r' + 1) c') ∨
           (offset d (spreaderOf g) x.cell = offInStack d l' r' c' ∧ offset d (spreaderOf g) (.box l r c) = offInStack d l' (r' + 1) c')) := by
      rintro co (⟨h0, e⟩ | ⟨h0, e⟩)
      · refine ⟨l, r - 1, c, hl, by omega, hc, co, Or.inr ⟨by rw [e]; rfl, ?_⟩⟩
        rw [Nat.sub_add_cancel (by omega)]; rfl
      · exact ⟨l, r, c, hl, by omega, hc, co, Or.inl ⟨rfl, by rw [e]; rfl⟩⟩
    cases hk : kindOf (typeAt g l) c <;> simp only [loOf, hiOf, hk, solidLo, solidHi, liquid4Lo, liquid4Hi, liquid2Lo, liquid2Hi, vwallLo,
      vwallHi, topWallLo, topWallHi, bottomWallLo, bottomWallHi, List.mem_append, mem_opt, List.not_mem_nil, or_self] at hx
    · exfalso
      rcases hx with ((⟨_, rfl⟩ | ⟨_, rfl⟩) | ⟨_, rfl⟩) | (((⟨_, rfl⟩ | ⟨_, rfl⟩) | ⟨_, rfl⟩) | ⟨_, rfl⟩) <;> exact hy0 (hlink _ _)
    · have co : IsCoolant g l c := Or.inr (Or.inr (Or.inr (by
        obtain ⟨k1, k2⟩ := kind_liquid4 wf hk; exact ⟨k1, by simpa [isChannelCol] using k2⟩)))
      rcases hx with ((⟨_, rfl⟩ | ⟨h0, rfl⟩) | ⟨_, rfl⟩) | ((⟨_, rfl⟩ | ⟨h0, rfl⟩) | ⟨_, rfl⟩)
      · exact absurd (hlink _ _) hy0
      · exact fin co (Or.inl ⟨h0, rfl⟩)
      · exact absurd (hlink _ _) hy0
      · exact absurd (hlink _ _) hy0
      · exact fin co (Or.inr ⟨h0, rfl⟩)
      · exact absurd (hlink _ _) hy0
    · have co : IsCoolant g l c := by
        rcases kind_liquid2 wf hk with h | h | h
        · exact Or.inl h
        · exact Or.inr (Or.inl h)
        · exact Or.inr (Or.inr (Or.inl h))
      rcases hx with (⟨_, rfl⟩ | ⟨h0, rfl⟩) | (⟨h0, rfl⟩ | ⟨_, rfl⟩)
      · exact absurd (hlink _ _) hy0
      · exact fin co (Or.inl ⟨h0, rfl⟩)
      · exact fin co (Or.inr ⟨h0, rfl⟩)
      · exact absurd (hlink _ _) hy0
    · exfalso
      rcases hx with (⟨_, rfl⟩ | ⟨_, rfl⟩) | (⟨_, rfl⟩ | ⟨_, rfl⟩) <;> exact hy0 (hlink _ _)
    · exfalso
      rcases hx with (⟨_, rfl⟩ | ⟨_, rfl⟩) | ⟨_, rfl⟩ <;> exact hy0 (hlink _ _)
    · exfalso
      rcases hx with ⟨_, rfl⟩ | (⟨_, rfl⟩ | ⟨_, rfl⟩) <;> exact hy0 (hlink _ _)

/-- With coolant, the stored matrix is the sum of a symmetric matrix with non-positive off-diagonal coefficients and of an
antisymmetric one. -/
theorem C21_coolant_part_is_antisymmetric {g : TGrid K} {d : Dims K} (hb : Built φ g d) (hp : Physical g d) (a : Ana K) :
    ∃ S F : Nat → Nat → K, (∀ i j, i < d.nCells → j < d.nCells → (fillMatrix g a d).entry i j = S i j + F i j) ∧
      (∀ i j, i < d.nCells → j < d.nCells → S i j = S j i ∧ (i ≠ j → S i j ≤ 0) ∧ F i j = - F j i) := by
  have wf := wf_of_built hb
  have hN := nCells_eq wf
  rw [hN]
  refine ⟨fun i j => if h : i < size g d ∧ j < size g d then (netw g a d).symm ⟨i, h.1⟩ ⟨j, h.2⟩ else 0,
    fun i j => if h : i < size g d ∧ j < size g d then (netw g a d).flow ⟨i, h.1⟩ ⟨j, h.2⟩ else 0, ?_, ?_⟩
  · intro i j hi hj
    have h1 := congrFun (congrFun (matrix_eq wf a) ⟨i, hi⟩) ⟨j, hj⟩
    rw [Net2.mat_eq] at h1
    simp only [dif_pos (And.intro hi hj)]
    exact h1
  · intro i j hi hj
    simp only [dif_pos (And.intro hi hj), dif_pos (And.intro hj hi)]
    refine ⟨Net2.symm_symm (netw_ok wf hp a) _ _, fun hij => Net2.symm_off ?_ (fun h => hij (congrArg Fin.val h)),
      Net2.flow_anti (netw_ok wf hp a) _ _⟩
    intro j e he
    obtain ⟨x, hx, rfl⟩ := List.mem_map.mp he
    exact contrib_nonneg wf hp (cellAt_valid wf j.2).1 hx

/-- Non-vacuity: the example with a heat spreader has no channel. -/
example (a : Ana ℚ) : (fillMatrix exSolidG a exSolidD).entry 3 13 = (fillMatrix exSolidG a exSolidD).entry 13 3 :=
  C21_conduction_is_symmetric exSolidBuilt exSolidPhysical rfl a 3 13 (by decide) (by decide)

/-! ## C22 -/

section
variable {g : TGrid K} {d : Dims K} (wf : WF g d) (ph : Physical g d)
include wf ph

theorem ambient_nonneg {l r c : Nat} (hl : l < d.nLayers) (hr : r < d.nRows) (hc : c < d.nCols) : 0 ≤ ambientTerm g d l r c := by
  unfold ambientTerm
  cases ht : typeAt g l <;> simp only [le_refl]
  · exact (solid_top_pos wf ph hl hr hc (by rw [ht]; rfl) (by simp [ht])).le
  · exact (solid_top_pos wf ph hl hr hc (by rw [ht]; rfl) (by simp [ht])).le
  · exact (solid_bottom_pos wf ph hl hr hc (by rw [ht]; rfl) (by simp [ht])).le
  · exact (solid_bottom_pos wf ph hl hr hc (by rw [ht]; rfl) (by simp [ht])).le

theorem port_nonneg {l r c : Nat} (hl : l < d.nLayers) (hr : r < d.nRows) (hc : c < d.nCols)
    (hk : kindOf (typeAt g l) c = .liquid4 ∨ kindOf (typeAt g l) c = .liquid2) : 0 ≤ portTerm g d l r c := by
  unfold portTerm
  split
  · rcases hk with hk | hk
    · obtain ⟨h1, h2⟩ := kind_liquid4 wf hk
      exact (ch4_pos wf ph hl hr hc h1).2.2.2.2.2.2 h2
    · exact (liquid2_pos wf ph hl hr hc (kind_liquid2 wf hk)).2.2.2
  · exact le_refl _

theorem capacity_pos {l r c : Nat} (hl : l < d.nLayers) (hr : r < d.nRows) (hc : c < d.nCols)
    (hk : kindOf (typeAt g l) c ≠ .top ∧ kindOf (typeAt g l) c ≠ .bottom) : 0 < capacity g d l r c := by
  cases hkk : kindOf (typeAt g l) c with
  | solid =>
    rcases kind_solid_cases wf hkk with h | h
    · exact (solid_pos wf ph hl hr hc h).1
    · exact (ch4_pos wf ph hl hr hc h.1).1
  | liquid4 => exact (ch4_pos wf ph hl hr hc (kind_liquid4 wf hkk).1).1
  | liquid2 => exact (liquid2_pos wf ph hl hr hc (kind_liquid2 wf hkk)).1
  | vwall => exact (vwall_pos wf ph hl hr hc (kind_vwall wf hkk)).1
  | top => exact absurd hkk hk.1
  | bottom => exact absurd hkk hk.2
  | none =>
    have := type_ne_none wf hl
    revert hkk this
    cases typeAt g l <;> simp [kindOf]
    split <;> simp

theorem sprCapacity_pos {s : Spreader K} {m : Material K} (ht : g.top = some (.pluggable s m)) : 0 < sprCapacity s m := by
  obtain ⟨h1, h2, h3, h4⟩ := ph.spr s m ht
  unfold sprCapacity
  have := h4.2.2.2
  positivity

theorem storage_nonneg {a : Ana K} (ha : a.transient = true → 0 < a.stepTime) {x : K} (hx : 0 ≤ x) : 0 ≤ storage a x := by
  unfold storage
  split
  · exact div_nonneg hx (ha (by assumption)).le
  · exact le_refl _

theorem wall_capacity {l r c : Nat} (hk : kindOf (typeAt g l) c = .top ∨ kindOf (typeAt g l) c = .bottom) : capacity g d l r c = 0 := by
  rcases hk with hk | hk
  · have := kind_top wf hk; simp [capacity, this]
  · have := kind_bottom wf hk; simp [capacity, this]

theorem capacity_nonneg {l r c : Nat} (hl : l < d.nLayers) (hr : r < d.nRows) (hc : c < d.nCols) : 0 ≤ capacity g d l r c := by
  by_cases h : kindOf (typeAt g l) c = .top ∨ kindOf (typeAt g l) c = .bottom
  · rw [wall_capacity wf ph h]
  · exact (capacity_pos wf ph hl hr hc (not_or.mp h)).le

theorem base_nonneg {a : Ana K} (ha : a.transient = true → 0 < a.stepTime) {p : Cell} (hp : Valid g d p) : 0 ≤ baseOf g a d p := by
  cases p with
  | spr r c =>
    obtain ⟨s, m, ht, -, -⟩ := hp
    simp only [baseOf, ht]
    exact storage_nonneg wf ph ha (sprCapacity_pos wf ph ht).le
  | box l r c =>
    obtain ⟨hl, hr, hc⟩ := hp
    have hst := storage_nonneg wf ph ha (capacity_nonneg wf ph hl hr hc)
    simp only [baseOf]
    cases hk : kindOf (typeAt g l) c <;> simp only
    · exact add_nonneg hst (ambient_nonneg wf ph hl hr hc)
    · exact add_nonneg hst (port_nonneg wf ph hl hr hc (Or.inl hk))
    · exact add_nonneg hst (port_nonneg wf ph hl hr hc (Or.inr hk))
    all_goals exact hst

theorem base_pos {a : Ana K} (hat : a.transient = true) (ha : 0 < a.stepTime) {p : Cell} (hp : Valid g d p)
    (hk : ∀ l r c, p = .box l r c → kindOf (typeAt g l) c ≠ .top ∧ kindOf (typeAt g l) c ≠ .bottom) : 0 < baseOf g a d p := by
  have hst : ∀ x : K, 0 < x → 0 < storage a x := by intro x hx; simp only [storage, hat, if_true]; exact div_pos hx ha
  cases p with
  | spr r c =>
    obtain ⟨s, m, ht, -, -⟩ := hp
    simp only [baseOf, ht]
    exact hst _ (sprCapacity_pos wf ph ht)
  | box l r c =>
    obtain ⟨hl, hr, hc⟩ := hp
    have h1 := hst _ (capacity_pos wf ph hl hr hc (hk l r c rfl))
    simp only [baseOf]
    cases hk : kindOf (typeAt g l) c <;> simp only
    · exact add_pos_of_pos_of_nonneg h1 (ambient_nonneg wf ph hl hr hc)
    · exact add_pos_of_pos_of_nonneg h1 (port_nonneg wf ph hl hr hc (Or.inl hk))
    · exact add_pos_of_pos_of_nonneg h1 (port_nonneg wf ph hl hr hc (Or.inr hk))
    all_goals exact h1

theorem contrib_all : ∀ (j : Fin (size g d)), ∀ e ∈ (netw g a d).ents j, 0 ≤ e.2.2 := by
  intro j e he
  obtain ⟨x, hx, rfl⟩ := List.mem_map.mp he
  exact contrib_nonneg wf ph (cellAt_valid wf j.2).1 hx

end

/-- Sum over `Fin n` as a sum over the numbers below `n`. -/
theorem sum_fin (n : Nat) (f : Nat → K) : ∑ i : Fin n, f i = ∑ i ∈ Finset.range n, f i := (Finset.sum_range f).symm

/-- `x` solves the linear system of order `n` with coefficients `A` and right-hand side `b`. -/
def Solves (n : Nat) (A : Nat → Nat → K) (x b : Nat → K) : Prop := ∀ i, i < n → ∑ j ∈ Finset.range n, A i j * x j = b i

/-- Exactly one solution: one exists, and any two agree on the `n` unknowns. -/
def OneSolution (n : Nat) (A : Nat → Nat → K) (b : Nat → K) : Prop :=
  ∃ x, Solves n A x b ∧ ∀ y, Solves n A y b → ∀ i, i < n → y i = x i

theorem solves_iff {n : Nat} (A : Nat → Nat → K) (x b : Nat → K) :
    Solves n A x b ↔ Matrix.mulVec (fun (i j : Fin n) => A i j) (fun j : Fin n => x j) = fun i : Fin n => b i := by
  constructor
  · intro h
    funext i
    rw [← h i i.2, ← sum_fin]; rfl
  · intro h i hi
    have := congrFun h ⟨i, hi⟩
    rw [← sum_fin n (fun j => A i j * x j)]; exact this

theorem one_of_unique {n : Nat} (A : Nat → Nat → K) (b : Nat → K)
    (h : ∃! x : Fin n → K, Matrix.mulVec (fun (i j : Fin n) => A i j) x = fun i : Fin n => b i) : OneSolution n A b := by
  obtain ⟨x, hx, hu⟩ := h
  have key : ∀ f : Fin n → K, (fun j : Fin n => (fun k : Nat => if h : k < n then f ⟨k, h⟩ else 0) j) = f := by
    intro f; funext j; simp
  refine ⟨fun k => if h : k < n then x ⟨k, h⟩ else 0, ?_, ?_⟩
  · rw [solves_iff]; rw [key]; exact hx
  · intro y hy i hi
    rw [solves_iff] at hy
    have := hu _ hy
    have := congrFun this ⟨i, hi⟩
    simp only [dif_pos hi]; exact this

/-- For a stack without coolant, positive materials and a positive step: off-diagonal coefficients are not positive, each row
is strictly diagonally dominant, and the step has exactly one solution whatever the right-hand side. -/
theorem C22_solid_step_dominant_unique {g : TGrid K} {d : Dims K} (hb : Built φ g d) (hp : Physical g d) (hc : g.channel = none)
    (a : Ana K) (hat : a.transient = true) (ha : 0 < a.stepTime) :
    (∀ i j, i < d.nCells → j < d.nCells → i ≠ j → (fillMatrix g a d).entry i j ≤ 0) ∧
    (∀ i, i < d.nCells → ∑ j ∈ (Finset.range d.nCells).erase i, |(fillMatrix g a d).entry i j| < (fillMatrix g a d).entry i i) ∧
    (∀ b, OneSolution d.nCells (fillMatrix g a d).entry b) := by
  have wf := wf_of_built hb
  rw [nCells_eq wf]
  have hm := matrix_eq wf a
  rw [Net2.mat_eq, flow_zero wf hp hc a, add_zero] at hm
  have hok := netw_ok wf hp a
  have hent : ∀ (i j : Nat) (hi : i < size g d) (hj : j < size g d), (fillMatrix g a d).entry i j = (netw g a d).symm ⟨i, hi⟩ ⟨j, hj⟩ :=
    fun i j hi hj => congrFun (congrFun hm ⟨i, hi⟩) ⟨j, hj⟩
  have hoff : ∀ (i j : Fin (size g d)), i ≠ j → (netw g a d).symm i j ≤ 0 := fun i j hij => Net2.symm_off (contrib_all wf hp) hij
  have hrow : ∀ i : Fin (size g d), 0 < ∑ j, (netw g a d).symm i j := by
    intro i
    rw [Net2.symm_rowSum hok]
    refine base_pos wf hp hat ha (cellAt_valid wf i.2).1 ?_
    intro l r c he
    have hv := (cellAt_valid wf i.2).1
    rw [he] at hv
    have hs := solid_of_no_channel wf hp hc hv.1
    revert hs
    cases typeAt g l <;> simp [solidish, kindOf]
  refine ⟨?_, ?_, ?_⟩
  · intro i j hi hj hij
    rw [hent i j hi hj]
    exact hoff _ _ (fun h => hij (congrArg Fin.val h))
  · intro i hi
    have h1 := hrow ⟨i, hi⟩
    have h2 : ∑ j, (netw g a d).symm ⟨i, hi⟩ j = ∑ j ∈ Finset.range (size g d), (fillMatrix g a d).entry i j := by
      rw [← sum_fin]
      exact Finset.sum_congr rfl fun j _ => (hent i j hi j.2).symm
    rw [h2, ← Finset.add_sum_erase _ _ (Finset.mem_range.mpr hi)] at h1
    have h3 : ∑ j ∈ (Finset.range (size g d)).erase i, |(fillMatrix g a d).entry i j| =
        - ∑ j ∈ (Finset.range (size g d)).erase i, (fillMatrix g a d).entry i j := by
      rw [← Finset.sum_neg_distrib]
      refine Finset.sum_congr rfl fun j hj => ?_
      obtain ⟨hji, hjn⟩ := Finset.mem_erase.mp hj
      rw [Finset.mem_range] at hjn
      rw [abs_of_nonpos]
      rw [hent i j hi hjn]
      exact hoff _ _ (fun h => hji (congrArg Fin.val h).symm)
    rw [h3]; linarith
  · intro b
    refine one_of_unique _ _ ?_
    have : (fun (i j : Fin (size g d)) => (fillMatrix g a d).entry i j) = (netw g a d).symm := hm
    rw [this]
    exact Net2.unique_of_dominant hoff hrow _

theorem step_unique_wf {g : TGrid K} {d : Dims K} (wf : WF g d) (hp : Physical g d)
    (a : Ana K) (hat : a.transient = true) (ha : 0 < a.stepTime) (b : Nat → K) :
    OneSolution d.nCells (fillMatrix g a d).entry b := by
  rw [nCells_eq wf]
  have hm := matrix_eq wf a
  rw [Net2.mat_eq] at hm
  have hok := netw_ok wf hp a
  refine one_of_unique _ _ ?_
  have : (fun (i j : Fin (size g d)) => (fillMatrix g a d).entry i j) = (netw g a d).symm + (netw g a d).flow := hm
  rw [this]
  have hpos : ∀ i : Fin (size g d), (∀ l r c, cellAt g d i = .box l r c → kindOf (typeAt g l) c ≠ .top ∧ kindOf (typeAt g l) c ≠ .bottom) →
      0 < ∑ j, (netw g a d).symm i j := by
    intro i h
    rw [Net2.symm_rowSum hok]
    exact base_pos wf hp hat ha (cellAt_valid wf i.2).1 h
  -- a wall is linked to the virtual wall of its channel
  have hwall : ∀ (i : Fin (size g d)) (l r c l' : Nat), cellAt g d i = .box l r c → Valid g d (.box l' r c) →
      kindOf (typeAt g l') c = .vwall → ∀ x : K, 0 < x → link (.box l' r c) x ∈ loOf g d (.box l r c) ++ hiOf g d (.box l r c) →
      ∃ k, k ≠ i ∧ (0 < ∑ j, (netw g a d).symm k j) ∧ (netw g a d).symm i k ≠ 0 := by
    intro i l r c l' hi hv' hk' x hx hmem
    have hv := (cellAt_valid wf i.2).1
    have hmem' : (rowOf g d i (.box l' r c), (link (.box l' r c) x).val, x) ∈ (netw g a d).ents i := by
      refine List.mem_map.mpr ⟨link (.box l' r c) x, ?_, rfl⟩
      rw [hi]; exact hmem
    refine ⟨rowOf g d i (.box l' r c), hok.off i _ hmem', ?_, ?_⟩
    · apply hpos
      intro l2 r2 c2 he
      rw [rowOf_val wf i hv', cellAt_offset wf hv'] at he
      simp only [Cell.box.injEq] at he
      obtain ⟨rfl, rfl, rfl⟩ := he
      rw [hk']; simp
    · have := Net2.symm_entry hok hmem'
      simp only at this
      rw [Net2.symm_symm hok, this]
      exact neg_ne_zero.mpr hx.ne'
  refine Net2.unique_of_network rfl (fun i j => Net2.symm_symm hok i j) (fun i j => Net2.flow_anti hok i j)
    (fun i j hij => Net2.symm_off (contrib_all wf hp) hij) ?_ ?_ _
  · intro i
    rw [Net2.symm_rowSum hok]
    exact base_nonneg wf hp (fun _ => ha) (cellAt_valid wf i.2).1
  · intro i
    have hv := (cellAt_valid wf i.2).1
    have hll := wf.lastLayer
    cases hcell : cellAt g d i with
    | spr r c => exact Or.inl (hpos i (by intro l r c h; rw [hcell] at h; cases h))
    | box l r c =>
      rw [hcell] at hv
      obtain ⟨hl, hr, hc⟩ := hv
      cases hk : kindOf (typeAt g l) c with
      | top =>
        right
        obtain ⟨k, rfl, hbk⟩ := top_block wf hl hk
        obtain ⟨-, -, h1, h2, h3⟩ := bottom_block wf (by omega) hbk
        refine hwall i (k + 3) r c (k + 1) hcell ⟨by omega, hr, hc⟩ h1 (gTop g d (k + 1) r c)
          (vwall_pos wf hp (by omega) hr hc (kind_vwall wf h1)).2.1 ?_
        refine List.mem_append_left _ ?_
        simp only [loOf, hk, topWallLo, List.mem_append, mem_opt]
        exact Or.inl ⟨by omega, by rw [show k + 3 - 2 = k + 1 by omega]⟩
      | bottom =>
        right
        obtain ⟨-, h4, h1, h2, h3⟩ := bottom_block wf hl hk
        refine hwall i l r c (l + 1) hcell ⟨by omega, hr, hc⟩ h1 (gTop g d (l + 1) r c)
          (vwall_pos wf hp (by omega) hr hc (kind_vwall wf h1)).2.1 ?_
        refine List.mem_append_right _ ?_
        simp only [hiOf, hk, bottomWallHi, List.mem_append, mem_opt]
        exact Or.inl ⟨by omega, trivial⟩
      | _ =>
        left
        refine hpos i ?_
        intro l' r' c' h
        rw [hcell] at h
        simp only [Cell.box.injEq] at h
        obtain ⟨rfl, rfl, rfl⟩ := h
        rw [hk]; simp

/-- With any coolant model the transient step also has exactly one solution, although the matrix is not diagonally dominant:
heat conduction is symmetric and the coolant transport antisymmetric. -/
theorem C22_coolant_step_unique {g : TGrid K} {d : Dims K} (hb : Built φ g d) (hp : Physical g d)
    (a : Ana K) (hat : a.transient = true) (ha : 0 < a.stepTime) (b : Nat → K) :
    OneSolution d.nCells (fillMatrix g a d).entry b := step_unique_wf (wf_of_built hb) hp a hat ha b

/-- Non-vacuity of C22: a step of 1/100 on the examples. -/
example : OneSolution 48 (fillMatrix exSolidG ⟨true, 1/100⟩ exSolidD).entry (fun _ => 1) :=
  (C22_solid_step_dominant_unique exSolidBuilt exSolidPhysical rfl ⟨true, 1/100⟩ rfl (by norm_num)).2.2 _
example : OneSolution 120 (fillMatrix exG ⟨true, 1/100⟩ exD).entry (fun i => i) :=
  C22_coolant_step_unique exBuilt exPhysical ⟨true, 1/100⟩ rfl (by norm_num) _

end Verif.SM
