import Verif.Props.NonUniformChannelTile
import Verif.Props.NonUniformUnique
import Verif.Props.NuSlots

/-! Stacks whose layers, rectangles and materials make sense give grids of cells with positive sizes and conductivities. -/

set_option linter.unusedSectionVars false
set_option linter.unusedSimpArgs false
set_option linter.unusedVariables false

namespace Verif.NU
open Verif.Dim Verif.TG Verif.Stk Verif.SM

variable {K : Type} [Field K] [LinearOrder K] [IsStrictOrderedRing K] {π : Type}
variable {d0 : Dims K} {decl : Option (Channel K)} {rs : List (Raw K (List (FEl K)))} {ns : List (NElem K)} {G : Grid K}

/-- The layers of an element are layers of the grid. -/
theorem FromStack.layers_mem (hf : FromStack d0 decl rs ns G) {n : NElem K} (hn : n ∈ ns) {ly : Layer K} (h : ly ∈ blockLayers n.elem.body) : ly ∈ G.g.layers := by
  obtain ⟨p, hb, he, -⟩ := hf.spec
  obtain ⟨es, m, -, -, -, -, -, -, hel, hdim, -⟩ := parseStack_spec hb.parse
  have hL : G.g.layers = es.reverse.flatMap fun e => blockLayers e.body := by
    have hg := hb.fill
    unfold fillGrid at hg
    simp only [Option.bind_eq_some_iff, Option.map_eq_some_iff] at hg
    obtain ⟨ts1, -, ts2, -, hgg⟩ := hg
    have := congrArg TGrid.layers hgg
    simp only [hel, hdim] at this
    rw [← this]
    exact foldl_layers _ _
  have hmem : n.elem ∈ p.elems := by rw [← he]; exact List.mem_map_of_mem hn
  rw [hel] at hmem
  obtain ⟨i, hi0⟩ := List.getElem?_of_mem hmem
  have hi : i < es.reverse.length := by
    rw [← assignOffsets_length 0 es.reverse]; exact (List.getElem?_eq_some_iff.mp hi0).1
  rw [assignOffsets_get _ _ _ hi] at hi0
  simp only [Option.some.injEq] at hi0
  have hbody : (es.reverse[i]).body = n.elem.body := by rw [← hi0]
  rw [hL, List.mem_flatMap]
  exact ⟨_, List.getElem_mem hi, by rw [hbody]; exact h⟩

/-- Where a cell is: in a layer of an element, or in the spreader. -/
theorem FromStack.cell_cases (hf : FromStack d0 decl rs ns G) {c : Cell K} (hc : c ∈ G.cells) :
    (∃ n ∈ ns, ∃ k, k < nLayersOf n.elem ∧ c.layer = n.elem.offset + k ∧ ∃ lc, (elemLayers G.d n.elem.offset (fixDiscr n))[k]? = some lc ∧ c ∈ lc) ∨
      c.layer = G.d.nLayers ∧ c ∈ subCells (chipRect G.d) G.d.nCols G.d.nRows G.d.nLayers noMat := by
  obtain ⟨i, hi, rfl⟩ := List.mem_iff_getElem.mp hc
  obtain ⟨lc, h1, -, -, -, h2, h3⟩ := hf.pos_layer hi
  rcases h3 with h3 | ⟨h3, s, m, ht⟩
  · obtain ⟨n, hn, k, hk, e⟩ := hf.elemAt h3
    obtain ⟨-, g2, -⟩ := hf.layersAt hn hk
    rw [e, g2] at h1
    exact .inl ⟨n, hn, k, hk, e, lc, h1, List.mem_of_getElem? h2⟩
  · right
    refine ⟨h3, ?_⟩
    obtain ⟨p, -, -, -, -, hls, -⟩ := hf.spec
    rw [h3, hls, ht] at h1
    unfold layersOf at h1
    simp only at h1
    rw [List.getElem?_append_right (by rw [hf.nLayers]), hf.nLayers, Nat.sub_self] at h1
    simp only [spreaderLayer, List.getElem?_cons_zero, Option.some.injEq] at h1
    rw [h1]
    exact List.mem_of_getElem? h2

theorem subCells_pos {r : Rect K} {nx ny l : Nat} {m : Material K} (hl : 0 < r.length) (hw : 0 < r.width) {c : Cell K} (hc : c ∈ subCells r nx ny l m) :
    0 < c.length ∧ 0 < c.width := by
  obtain ⟨s, hs, rfl⟩ := List.mem_map.mp hc
  have hs := List.mem_range.mp hs
  have hx : 0 < nx := by rcases Nat.eq_zero_or_pos nx with h | h; · rw [h] at hs; simp at hs
                         · exact h
  have hy : 0 < ny := by rcases Nat.eq_zero_or_pos ny with h | h; · rw [h] at hs; simp at hs
                         · exact h
  have hx' : (0 : K) < nx := by exact_mod_cast hx
  have hy' : (0 : K) < ny := by exact_mod_cast hy
  constructor
  · have : (r.x + r.length / (nx : K) * ((s % nx + 1 : Nat) : K)) - (r.x + r.length / (nx : K) * ((s % nx : Nat) : K)) = r.length / nx := by
      push_cast; ring
    show 0 < _ - _
    rw [this]; positivity
  · have : (r.y + r.width / (ny : K) * ((s / nx + 1 : Nat) : K)) - (r.y + r.width / (ny : K) * ((s / nx : Nat) : K)) = r.width / ny := by
      push_cast; ring
    show 0 < _ - _
    rw [this]; positivity

/-- The material that a cell of a die takes. -/
theorem dieLayer_cell {n : NElem K} {b : Die K (List (FEl K))} (hb : n.elem.body = .die b) {cur k : Nat} {c : Cell K}
    (hc : c ∈ dieLayer (fixDiscr n) { b with flp := b.flp.map (fixEl n) } cur k) :
    ∃ e ∈ b.flp, ∃ nx ny l, ∃ m, c ∈ subCells e.rect nx ny l m ∧ c.mat = m ∧
      m = if k = b.srcOff then e.mat.getD (((b.layers.reverse[k]?).map (·.mat)).getD noMat) else ((b.layers.reverse[k]?).map (·.mat)).getD noMat := by
  unfold dieLayer at hc
  simp only [List.flatMap_map, List.mem_flatMap] at hc
  obtain ⟨e, he, hc⟩ := hc
  have hr : (fixEl n e).rect = e.rect := by unfold fixEl; split_ifs <;> rfl
  have hm : (fixEl n e).mat = e.mat := by unfold fixEl; split_ifs <;> rfl
  rw [hr, hm] at hc
  refine ⟨e, he, _, _, _, _, hc, ?_, rfl⟩
  obtain ⟨s, -, rfl⟩ := List.mem_map.mp hc
  rfl

theorem fix_die_layers {d : Dims K} {n : NElem K} {b : Die K (List (FEl K))} (hb : n.elem.body = .die b) {cur k : Nat} {lc : List (Cell K)}
    (h : (elemLayers d cur (fixDiscr n))[k]? = some lc) : lc = dieLayer (fixDiscr n) { b with flp := b.flp.map (fixEl n) } cur k ∧ k < b.layers.length := by
  have e : (fixDiscr n).elem.body = .die { b with flp := b.flp.map (fixEl n) } := by rw [fixed_die hb]
  simp only [elemLayers, e] at h
  obtain ⟨h1, h2⟩ := List.getElem?_eq_some_iff.mp h
  simp only [List.getElem_map, List.getElem_range] at h2
  simp only [List.length_map, List.length_range] at h1
  exact ⟨h2.symm, h1⟩

theorem fix_layer_layers {d : Dims K} {n : NElem K} {ly : Layer K} (hb : n.elem.body = .layer ly) {cur k : Nat} {lc : List (Cell K)}
    (h : (elemLayers d cur (fixDiscr n))[k]? = some lc) : lc = subCells (chipRect d) n.dx n.dy cur noMat := by
  have e : fixDiscr n = n := by unfold fixDiscr; rw [hb]
  simp only [elemLayers, e, hb] at h
  cases k with
  | zero => exact (Option.some.inj h).symm
  | succ k => simp at h

theorem fix_channel_layers {d : Dims K} {n : NElem K} {ch : Channel K} (hb : n.elem.body = .channel ch) {cur k : Nat} {lc : List (Cell K)}
    (h : (elemLayers d cur (fixDiscr n))[k]? = some lc) : lc = channelLayer d ch.model cur k := by
  have e : fixDiscr n = n := by unfold fixDiscr; rw [hb]
  simp only [elemLayers, e, hb] at h
  obtain ⟨h1, h2⟩ := List.getElem?_eq_some_iff.mp h
  simp only [List.getElem_map, List.getElem_range] at h2
  exact h2.symm

/-- Source layers are those of dies, at the position of the source. -/
theorem FromStack.source_die (hf : FromStack d0 decl rs ns G) {n : NElem K} (hn : n ∈ ns) {k : Nat} (hk : k < nLayersOf n.elem)
    (h : isSource (typeAt G.g (n.elem.offset + k)) = true) : ∃ b, n.elem.body = .die b ∧ k = b.srcOff := by
  obtain ⟨p, hb, -⟩ := hf.spec
  have hok := hf.elemOk hn
  have hlen : k < (blockTypes n.elem.body).length := by
    obtain ⟨-, -, hl⟩ := hf.layersAt hn hk
    unfold nLayersOf at hk
    unfold ElemOk at hok
    cases hbd : n.elem.body with
    | die b => rw [hbd] at hk; simpa [blockTypes] using hk
    | layer ly => rw [hbd] at hk; simpa [blockTypes] using hk
    | channel ch =>
      rw [hbd] at hk hok
      simp only [blockTypes]
      rw [chTypes_length hok]; exact hk
  have hget := List.getElem?_eq_getElem hlen
  have hsrc : isSource (blockTypes n.elem.body)[k] = true := by
    rcases same_type hb (hf.typesAt hn hget) with e | ⟨e1, -⟩
    · rw [← e]; exact h
    · obtain ⟨-, -, -, -, -, hty⟩ := C18_sinks_change_only_outermost_layers hb.ok hb.parse hb.fill
      have := hty _ _ (hf.typesAt hn hget)
      unfold typeAt at h
      rw [List.getD_eq_getElem?_getD, this, Option.getD_some] at h
      generalize (blockTypes n.elem.body)[k] = t at h
      split_ifs at h
      · revert h; unfold withBottom; cases G.g.bottom <;> cases t <;> simp [isSource]
      · revert h; unfold withTop
        cases G.g.top with
        | none => cases t <;> simp [isSource]
        | some x => cases x <;> cases t <;> simp [isSource]
      · exact h
  cases hbd : n.elem.body with
  | die b =>
    refine ⟨b, rfl, ?_⟩
    simp only [hbd, blockTypes] at hsrc hlen
    rw [List.getElem_set] at hsrc
    split_ifs at hsrc with he
    · exact he.symm
    · simp [isSource] at hsrc
  | layer ly =>
    simp only [hbd, blockTypes, List.length_singleton] at hsrc hlen
    have : k = 0 := by omega
    subst this
    simp [isSource] at hsrc
  | channel ch =>
    simp only [hbd, blockTypes] at hsrc hlen
    have hm : ch.model ≠ .none := by have := hok; unfold ElemOk at this; rw [hbd] at this; exact this
    have := List.getElem_mem hlen
    generalize (chTypes ch.model)[k] = t at this hsrc
    have := chTypes_not_solid this
    revert hsrc this
    cases t <;> simp [isSource, solidish]

/-- The materials that the floorplan elements name are materials. -/
def GoodMats (n : NElem K) : Prop := ∀ b, n.elem.body = .die b → ∀ e ∈ b.flp, ∀ m, e.mat = some m → PosMat m

theorem FromStack.physical (hf : FromStack d0 decl rs ns G) (ph : Physical G.g G.d) (fit : ChipFits G.d) (hd : ∀ n ∈ ns, Divided n) (hm : ∀ n ∈ ns, GoodMats n) :
    PhysicalNU G := by
  have hsz := hf.wf.sized
  have hlen : 0 < G.d.chipLength := by
    refine lt_of_lt_of_le ?_ fit.fit
    unfold gridLength
    exact Finset.sum_pos (fun c hc => cellLength_pos hsz fit.pos (Finset.mem_range.mp hc)) ⟨0, Finset.mem_range.mpr hsz.cols.1⟩
  refine ⟨ph.hts, ?_, ?_, ph.top, ph.spr⟩
  · intro c hc
    rcases hf.cell_cases hc with ⟨n, hn, k, hk, e, lc, h1, h2⟩ | ⟨-, h2⟩
    · have hdn := hd n hn
      cases hb : n.elem.body with
      | die b =>
        rw [(fix_die_layers hb h1).1] at h2
        obtain ⟨x, hx, _, _, _, _, hc, -⟩ := dieLayer_cell hb h2
        unfold Divided at hdn; rw [hb] at hdn
        exact subCells_pos (hdn x hx).1 (hdn x hx).2.1 hc
      | layer ly =>
        rw [fix_layer_layers hb h1] at h2
        exact subCells_pos (r := chipRect G.d) hlen fit.chip h2
      | channel ch =>
        rw [fix_channel_layers hb h1] at h2
        obtain ⟨q, hq, rfl⟩ := List.mem_map.mp h2
        have hq := List.mem_range.mp hq
        have hcol : q % G.d.nCols < G.d.nCols := Nat.mod_lt _ hsz.cols.1
        refine ⟨?_, ?_⟩
        · have := chan_len hsz hcol
          show 0 < chanX1 G.d _ - chanX0 G.d _
          rw [this]; exact cellLength_pos hsz fit.pos hcol
        · have hr : (0 : K) < G.d.nRows := by exact_mod_cast hsz.rows.1
          have e2 : (G.d.chipWidth / (G.d.nRows : K)) * ((q / G.d.nCols + 1 : Nat) : K) - (G.d.chipWidth / (G.d.nRows : K)) * ((q / G.d.nCols : Nat) : K) =
              G.d.chipWidth / G.d.nRows := by push_cast; ring
          show 0 < _ - _
          rw [e2]
          have := fit.chip
          positivity
    · exact subCells_pos (r := chipRect G.d) hlen fit.chip h2
  · intro c hc hl
    unfold ownMat
    split_ifs with hs
    · rcases hf.cell_cases hc with ⟨n, hn, k, hk, e, lc, h1, h2⟩ | ⟨h2, -⟩
      · rw [e] at hs
        obtain ⟨b, hb, rfl⟩ := hf.source_die hn hk hs
        obtain ⟨rfl, hkl⟩ := fix_die_layers hb h1
        obtain ⟨x, hx, _, _, _, m, -, hcm, hmm⟩ := dieLayer_cell hb h2
        rw [hcm, hmm, if_pos rfl]
        cases hxm : x.mat with
        | some y => exact hm n hn b hb x hx y hxm
        | none =>
          have hkr : b.srcOff < b.layers.reverse.length := by rw [List.length_reverse]; exact hkl
          rw [List.getElem?_eq_getElem hkr]
          exact (ph.mat _ (hf.layers_mem hn (by rw [hb]; exact List.getElem_mem hkr))).1
      · omega
    · exact cellMat_pos hf.wf ph hl 0 0

theorem subCells_ne {r : Rect K} {nx ny l : Nat} {m : Material K} (hx : 0 < nx) (hy : 0 < ny) : subCells r nx ny l m ≠ [] := by
  unfold subCells
  intro h
  rw [List.map_eq_nil_iff, List.range_eq_nil] at h
  have := Nat.mul_pos hx hy
  omega

theorem pair_pos (n : NElem K) {e : FEl K} (h : (0 < e.dx ∧ 0 < e.dy) ∨ (0 < n.dx ∧ 0 < n.dy)) :
    0 < (if (fixEl n e).dx = 0 ∨ (fixEl n e).dy = 0 then (n.dx, n.dy) else ((fixEl n e).dx, (fixEl n e).dy)).1 ∧
      0 < (if (fixEl n e).dx = 0 ∨ (fixEl n e).dy = 0 then (n.dx, n.dy) else ((fixEl n e).dx, (fixEl n e).dy)).2 := by
  have key : ∀ a b c d : Nat, (0 < a ∧ 0 < b) ∨ (0 < c ∧ 0 < d) →
      0 < (if a = 0 ∨ b = 0 then (c, d) else (a, b)).1 ∧ 0 < (if a = 0 ∨ b = 0 then (c, d) else (a, b)).2 := by
    intro a b c d h
    by_cases hz : a = 0 ∨ b = 0
    · rw [if_pos hz]; exact h.resolve_left (by omega)
    · rw [if_neg hz]; exact ⟨by show 0 < a; omega, by show 0 < b; omega⟩
  apply key
  unfold fixEl
  by_cases hz : e.dx ≠ 0 ∧ e.dy ≠ 0
  · rw [if_pos hz]; exact h
  · rw [if_neg hz]; right; exact h.resolve_left (by omega)

/-- No layer is empty. -/
theorem FromStack.full (hf : FromStack d0 decl rs ns G) (hd : ∀ n ∈ ns, Divided n) (hne : ∀ n ∈ ns, ∀ b, n.elem.body = .die b → b.flp ≠ []) : Full G := by
  intro lc hlc
  obtain ⟨l, hl⟩ := List.mem_iff_getElem?.mp hlc
  have hsz := hf.wf.sized
  rcases Nat.lt_or_ge l G.d.nLayers with h | h
  · obtain ⟨n, hn, k, hk, rfl⟩ := hf.elemAt h
    obtain ⟨-, g2, -⟩ := hf.layersAt hn hk
    rw [g2] at hl
    have hdn := hd n hn
    unfold Divided at hdn
    cases hb : n.elem.body with
    | die b =>
      rw [hb] at hdn
      rw [(fix_die_layers hb hl).1]
      obtain ⟨e, he⟩ := List.exists_mem_of_ne_nil _ (hne n hn b hb)
      unfold dieLayer
      intro hh
      rw [List.flatMap_map, List.flatMap_eq_nil_iff] at hh
      have := hh e he
      revert this
      obtain ⟨p1, p2⟩ := pair_pos n (hdn e he).2.2
      have hfx : (fixDiscr n).dx = n.dx ∧ (fixDiscr n).dy = n.dy := by rw [fixed_die hb]; exact ⟨rfl, rfl⟩
      rw [hfx.1, hfx.2]
      exact subCells_ne p1 p2
    | layer ly =>
      rw [hb] at hdn
      rw [fix_layer_layers hb hl]
      exact subCells_ne hdn.1 hdn.2
    | channel ch =>
      rw [fix_channel_layers hb hl]
      unfold channelLayer
      intro hh
      rw [List.map_eq_nil_iff, List.range_eq_nil] at hh
      have := Nat.mul_pos hsz.cols.1 hsz.rows.1
      omega
  · obtain ⟨p, -, -, -, -, hls, -⟩ := hf.spec
    rw [hls] at hl
    unfold layersOf at hl
    simp only at hl
    rw [List.getElem?_append_right (by rw [hf.nLayers]; exact h)] at hl
    have := List.mem_of_getElem? hl
    unfold spreaderLayer at this
    split at this
    · rw [List.mem_singleton] at this
      rw [this]
      exact subCells_ne hsz.cols.1 hsz.rows.1
    · cases this

/-- Every floorplan element of a simulation is divided. -/
theorem begun_divided {cfg : NCfg K π} {s : NSim K π} (h : Begun cfg d0 decl rs ns s) (hd : ∀ n ∈ ns, Divided n) : ∀ e ∈ elements s, e.dx * e.dy ≠ 0 := by
  have hf : FromStack d0 decl rs ns s.G := .fresh h.grid
  obtain ⟨p, g, hb, he, hG⟩ := h.grid
  have hfl : s.G.flps = (ns.map fixDiscr).flatMap fun n => blockFlp n.elem.body := by
    rw [← hf.filledFlps]
    unfold buildNU at hG
    simp only [Option.bind_eq_some_iff, Option.map_eq_some_iff] at hG
    obtain ⟨n, -, g', -, hGe⟩ := hG
    rw [← hGe]
  intro e hee
  unfold elements at hee
  rw [hfl, List.mem_flatMap] at hee
  obtain ⟨o, ho, hee⟩ := hee
  rw [List.flatMap_map, List.mem_flatMap] at ho
  obtain ⟨n, hn, ho⟩ := ho
  have hdn := hd n hn
  unfold Divided at hdn
  cases hbd : n.elem.body with
  | die b =>
    rw [hbd] at hdn
    rw [fixed_die hbd] at ho
    simp only [blockFlp] at ho
    rcases List.mem_or_eq_of_mem_set ho with h1 | h1
    · rw [(List.mem_replicate.mp h1).2] at hee; cases hee
    · rw [h1] at hee
      simp only [Option.getD_some] at hee
      obtain ⟨x, hx, rfl⟩ := List.mem_map.mp hee
      unfold fixEl
      rcases (hdn x hx).2.2 with ⟨a1, a2⟩ | ⟨a1, a2⟩
      · rw [if_pos ⟨a1.ne', a2.ne'⟩]; positivity
      · split_ifs with hz
        · exact Nat.mul_ne_zero hz.1 hz.2
        · show n.dx * n.dy ≠ 0
          positivity
  | layer ly =>
    have e : fixDiscr n = n := by unfold fixDiscr; rw [hbd]
    rw [e, hbd] at ho
    simp only [blockFlp, List.mem_singleton] at ho
    rw [ho] at hee; cases hee
  | channel ch =>
    have e : fixDiscr n = n := by unfold fixDiscr; rw [hbd]
    rw [e, hbd] at ho
    simp only [blockFlp] at ho
    rw [(List.mem_replicate.mp ho).2] at hee; cases hee

end Verif.NU
