import Verif.Props.NuEnergy
import Verif.Props.NonUniformChannelTile

/-! # C72: the steady state on a non-uniform grid -/

set_option linter.unusedSectionVars false
set_option linter.unusedSimpArgs false
set_option linter.unusedVariables false

namespace Verif.NU
open Verif.Dim Verif.TG Verif.Stk Verif.SM
open Verif.Emu (SimResult Succeeded)

variable {K : Type} [Field K] [LinearOrder K] [IsStrictOrderedRing K] {π : Type}
variable {d0 : Dims K} {decl : Option (Channel K)} {rs : List (Raw K (List (FEl K)))} {ns : List (NElem K)} {G : Grid K} {a : Ana K} {m : Csc K}

/-! ## Specification -/

/-- Is the point in the chip? -/
def InChip (d : Dims K) (x y : K) : Prop := (0 ≤ x ∧ x < d.chipLength) ∧ 0 ≤ y ∧ y < d.chipWidth

/-- A stack without holes: the cells are in the chip, every point of the chip is in the first rectangle of an element of the floorplan of
each die, the chip is as long as the columns of its channels, and no channel lies directly on another. -/
structure NoHoles (G : Grid K) (ns : List (NElem K)) : Prop where
  chip : 0 < G.d.chipLength
  inside : ∀ c ∈ G.cells, 0 ≤ c.x0 ∧ c.x1 ≤ G.d.chipLength ∧ 0 ≤ c.y0 ∧ c.y1 ≤ G.d.chipWidth
  divided : ∀ n ∈ ns, Divided n
  covered : ∀ x y, InChip G.d x y → ∀ n ∈ ns, ∀ b, n.elem.body = .die b → ∃ e ∈ b.flp, inRect x y e.rect = true
  columns : ∀ n ∈ ns, ∀ ch, n.elem.body = .channel ch → gridLength G.d = G.d.chipLength
  single : ∀ n ∈ ns, ∀ n' ∈ ns, ∀ ch ch', n.elem.body = .channel ch → n'.elem.body = .channel ch' → n'.elem.offset ≠ n.elem.offset + chLayers ch

/-- The coolant exchanges heat with the surfaces over and under it. -/
def Exchanges (ch : Channel K) : Prop := 0 < filmUp ch 1 ∧ 0 < filmDown ch 1

/-! ## Proofs -/

/-- Every point of the chip lies in a cell of each layer. -/
theorem point_in_layer (hf : FromStack d0 decl rs ns G) (fit : ChipFits G.d) (hh : NoHoles G ns) {x y : K} (hp : InChip G.d x y)
    {l : Nat} (hl : l < G.d.nLayers) : ∃ i, ∃ h : i < G.cells.length, G.cells[i].layer = l ∧ inCell x y G.cells[i] = true := by
  obtain ⟨n, hn, k, hk, rfl⟩ := hf.elemAt hl
  obtain ⟨-, h2, -⟩ := hf.layersAt hn hk
  have hlt : k < (elemLayers G.d n.elem.offset (fixDiscr n)).length := by rw [elemLayers_length, nLayersOf_fix]; exact hk
  rw [List.getElem?_eq_getElem hlt] at h2
  have hpos : 0 < (elemLayers G.d n.elem.offset (fixDiscr n))[k].countP (inCell x y) := by
    have hdn := hh.divided n hn
    cases hb : n.elem.body with
    | die b =>
      have e : (fixDiscr n).elem.body = .die { b with flp := b.flp.map (fixEl n) } := by rw [fixed_die hb]
      have e2 : (elemLayers G.d n.elem.offset (fixDiscr n))[k] = dieLayer (fixDiscr n) { b with flp := b.flp.map (fixEl n) } n.elem.offset k := by
        simp only [elemLayers, e, List.getElem_map, List.getElem_range]
      rw [e2, dieLayer_points hb hdn n.elem.offset k x y]
      obtain ⟨el, he, hin⟩ := hh.covered x y hp n hn b hb
      exact List.countP_pos_iff.mpr ⟨_, List.mem_map_of_mem he, hin⟩
    | layer ly =>
      have e : fixDiscr n = n := by unfold fixDiscr; rw [hb]
      have e2 : (elemLayers G.d n.elem.offset (fixDiscr n))[k] = subCells (chipRect G.d) n.dx n.dy n.elem.offset noMat := by
        have hk0 : k = 0 := by unfold nLayersOf at hk; rw [hb] at hk; simpa using hk
        subst hk0
        simp only [elemLayers, e, hb, List.getElem_cons_zero]
      unfold Divided at hdn
      rw [hb] at hdn
      have hin : inRect x y (chipRect G.d) = true := by
        unfold inRect chipRect
        rw [decide_eq_true_eq]
        exact ⟨hp.1.1, by linarith [hp.1.2], hp.2.1, by linarith [hp.2.2]⟩
      rw [e2, subCells_count (show 0 < (chipRect G.d).length from hh.chip) (show 0 < (chipRect G.d).width from fit.chip) hdn.1 hdn.2, if_pos hin]
      omega
    | channel ch =>
      have e : fixDiscr n = n := by unfold fixDiscr; rw [hb]
      have e2 : (elemLayers G.d n.elem.offset (fixDiscr n))[k] = channelLayer G.d ch.model n.elem.offset k := by
        simp only [elemLayers, e, hb, List.getElem_map, List.getElem_range]
      rw [e2, channelLayer_point hf.wf.sized fit (hh.columns n hn ch hb) hp.1 hp.2]
      omega
  obtain ⟨c, hc, hin⟩ := List.countP_pos_iff.mp hpos
  obtain ⟨j, hj, rfl⟩ := List.mem_iff_getElem.mp hc
  have hg := (flatten_get G.ls h2 (s := j) hj).trans (List.getElem?_eq_getElem hj)
  obtain ⟨h1, h3⟩ := List.getElem?_eq_some_iff.mp hg
  refine ⟨_, h1, ?_, ?_⟩
  · refine hf.layer_of_pos h1 (Nat.le_add_right _ _) ?_
    rw [start_succ, h2]
    show _ < _ + _
    simp only [Option.map_some, Option.getD_some]
    omega
  · rw [show G.cells[_]'h1 = _ from h3]; exact hin

/-- Over every cell that is not in the last layer there is another. -/
theorem cell_above (hf : FromStack d0 decl rs ns G) (fit : ChipFits G.d) (ph : PhysicalNU G) (hh : NoHoles G ns) {i : Nat} (hi : i < G.cells.length)
    (hl : G.cells[i].layer + 1 < G.d.nLayers) :
    ∃ j, ∃ h : j < G.cells.length, G.cells[j].layer = G.cells[i].layer + 1 ∧ Overlap G.cells[i] G.cells[j] := by
  have hmem : G.cells[i] ∈ G.cells := List.getElem_mem hi
  obtain ⟨hx, hy⟩ := ph.cell _ hmem
  obtain ⟨a1, a2, a3, a4⟩ := hh.inside _ hmem
  have ex : G.cells[i].length = G.cells[i].x1 - G.cells[i].x0 := rfl
  have ey : G.cells[i].width = G.cells[i].y1 - G.cells[i].y0 := rfl
  rw [ex] at hx; rw [ey] at hy
  obtain ⟨j, hj, h1, h2⟩ := point_in_layer hf fit hh (x := (G.cells[i].x0 + G.cells[i].x1) / 2) (y := (G.cells[i].y0 + G.cells[i].y1) / 2)
    ⟨⟨by linarith, by linarith⟩, by linarith, by linarith⟩ hl
  refine ⟨j, hj, h1, ?_⟩
  unfold inCell at h2
  rw [decide_eq_true_eq] at h2
  obtain ⟨b1, b2, b3, b4⟩ := h2
  unfold Overlap commonX commonY overlap
  constructor
  · rw [sub_pos, lt_min_iff, max_lt_iff, max_lt_iff]
    exact ⟨⟨by linarith, by linarith⟩, by linarith, by linarith⟩
  · rw [sub_pos, lt_min_iff, max_lt_iff, max_lt_iff]
    exact ⟨⟨by linarith, by linarith⟩, by linarith, by linarith⟩

theorem series_pos {x y : K} (hx : 0 < x) (hy : 0 < y) : 0 < series x y := by unfold series; positivity

theorem toFace_pos (hf : FromStack d0 decl rs ns G) (ph : PhysicalNU G) {c : Cell K} (hc : c ∈ G.cells) (hl : c.layer < G.d.nLayers) {A : K} (hA : 0 < A) :
    0 < toFace G c A := by
  obtain ⟨k1, k2, k3, k4⟩ := ph.mat c hc hl
  have hh := heightAt_pos hf.wf ph.hts hl
  unfold toFace vertical depth
  rw [if_pos hl, if_pos hl]
  split_ifs <;> positivity

theorem film_pos {ch : Channel K} {A : K} (hA : 0 < A) (h : Exchanges ch) : 0 < filmUp ch A ∧ 0 < filmDown ch A := by
  obtain ⟨h1, h2⟩ := h
  unfold filmUp at h1 ⊢
  unfold filmDown at h2 ⊢
  cases hm : ch.model <;> simp only [hm, mul_one] at h1 h2 ⊢ <;> exact ⟨mul_pos h1 hA, mul_pos h2 hA⟩

section
variable (hf : FromStack d0 decl rs ns G) (fit : ChipFits G.d) (ph : PhysicalNU G) (hsh : Sharp G)
include hf fit ph hsh

/-- Every cell below the last layer conducts heat to a cell of a higher layer. -/
theorem conducts_up (hp : ∀ ch, G.g.channel = some ch → PosChannel ch ∧ Exchanges ch) (hh : NoHoles G ns) {rnd : K → K} (hm : Assembled rnd G a m)
    {i : Nat} (hi : i < G.cells.length) (hl : G.cells[i].layer + 1 < G.d.nLayers) :
    ∃ j, ∃ h : j < G.cells.length, G.cells[i].layer < G.cells[j].layer ∧ ∃ g, 0 < g ∧ Conducts m i j g := by
  obtain ⟨j, hj, hjl, hO⟩ := cell_above hf fit ph hh hi hl
  have hA : 0 < commonX G.cells[i] G.cells[j] * commonY G.cells[i] G.cells[j] := mul_pos hO.1 hO.2
  by_cases hin : InChannel ns G.cells[i]
  · obtain ⟨n, hn, ch, hb, b1, b2⟩ := hin
    obtain ⟨g1, g2, -⟩ := hf.channel hn hb
    obtain ⟨pc, ex⟩ := hp ch g1
    have hk : G.cells[i].layer - n.elem.offset < chLayers ch := by omega
    obtain ⟨r, c, hr, hc, ei⟩ := chan_of_layer hf hn hb hk hi (by omega)
    generalize hkk : G.cells[i].layer - n.elem.offset = k at hk ei
    have hi' : i = G.at (n.elem.offset + k) r c := ei
    have hcl : 0 < cellLength G.d c := by rw [← chan_len hf.wf.sized hc]; linarith [column_pos hf.wf.sized fit hc]
    have hnR : (0 : K) < (G.d.nRows : K) := by exact_mod_cast (by omega : 0 < G.d.nRows)
    have hca : 0 < chanArea G c := mul_pos hcl (div_pos fit.chip hnR)
    obtain ⟨wf, -⟩ := wallFace_pos hf fit ph hsh hn hb (by omega) (by omega)
    obtain ⟨fu, fd⟩ := film_pos hca ex
    by_cases hlast : k + 1 = chLayers ch
    · have hnot : ¬ InChannel ns G.cells[j] := by
        rintro ⟨n', hn', ch', hb', c1, c2⟩
        have := hh.single n hn n' hn' ch ch' hb hb'
        obtain ⟨o, ho⟩ : ∃ o, n'.elem.offset = o := ⟨_, rfl⟩
        by_cases hlt : n'.elem.offset ≤ G.cells[i].layer
        · -- the two channels share the layer of the cell
          obtain ⟨g1', g2', -⟩ := hf.channel hn' hb'
          rw [g1, Option.some.injEq] at g1'
          subst g1'
          have hL : chLayers ch = 1 ∨ (chLayers ch = 4 ∧ ch.model ≠ .mc4rm) := by
            unfold chLayers
            by_cases h4 : ch.model = .mc4rm
            · left; simp [h4]
            · right; simp [h4]
          rcases hL with hL | ⟨hL, h4⟩
          · omega
          · have t1 := (hf.channel hn hb).2.2.2.2.1
            have t2 := (hf.channel hn' hb').2.2.2.2.1
            have e1 : n'.elem.offset + (n.elem.offset + 3 - n'.elem.offset) = n.elem.offset + 3 := by omega
            have e2 : n.elem.offset + 3 - n'.elem.offset < 3 := by omega
            have e3 : n'.elem.offset + 3 = n.elem.offset + 3 + (n'.elem.offset - n.elem.offset) := by omega
            generalize hq : n.elem.offset + 3 - n'.elem.offset = q at e1 e2
            have hq1 : ∀ t, (chTypes ch.model)[q]? = some t → ∀ t', (chTypes ch.model)[3]? = some t' → t = t' := by
              intro t ht t' ht'
              rw [← (t2 q t ht).1, ← (t1 3 t' ht').1, e1]
            cases hmod : ch.model <;> simp only [hmod, ne_eq, not_true_eq_false] at g2 h4 <;>
              (have : q = 0 ∨ q = 1 ∨ q = 2 := by omega) <;> rcases this with rfl | rfl | rfl <;>
              simp [hmod, chTypes] at hq1
        · omega
      have hjn : G.cells[j].layer = n.elem.offset + chLayers ch := by omega
      obtain ⟨cell, h1, -, h2⟩ := C58_above hf fit ph hsh hm hn hb hj hnot hjn hr hc
      have hk' : chLayers ch - 1 = k := by omega
      rw [hk', ← hi', List.getElem?_eq_getElem hi, Option.some.injEq] at h1
      rw [hk', ← hi', ← h1] at h2
      obtain ⟨u1, u2, u3⟩ := h2 hO _ rfl
      have tf := toFace_pos hf ph (List.getElem_mem hj) (by omega) hA
      refine ⟨j, hj, by omega, ?_⟩
      by_cases h4 : ch.model = .mc4rm
      · by_cases hw : WetCol G ch c
        · have ht : 0 < ch.coolant.htcTop := by have := ex.1; unfold filmUp at this; rw [h4] at this; simpa using this
          exact ⟨_, series_pos (mul_pos ht hA) tf, u1 h4 hw ht⟩
        · exact ⟨_, series_pos (wf _ hA) tf, u2 h4 hw⟩
      · exact ⟨_, tf, u3 h4⟩
    · have h4 : ch.model ≠ .mc4rm := by
        intro h4
        have : chLayers ch = 1 := by simp [chLayers, h4]
        omega
      have hL : chLayers ch = 4 := by simp [chLayers, h4]
      obtain ⟨-, c23, c01, c13, -⟩ := C58_inside_2rm hf fit ph hsh hm hn hb h4 hr hc
      have hwall : 0 < wallFace ch ((1 - ch.porosity) * chanArea G c) := wf _ (mul_pos (by linarith [pc.por.2]) hca)
      have place : ∀ k', k' < 4 → k < k' → ∃ h : G.at (n.elem.offset + k') r c < G.cells.length, G.cells[i].layer < G.cells[G.at (n.elem.offset + k') r c].layer := by
        intro k' hk' hlt
        obtain ⟨p1, p2⟩ := chan_place hf fit ph hsh hn hb (k := k') (by omega) hr hc
        refine ⟨p1, ?_⟩
        rw [p2]
        show G.cells[i].layer < n.elem.offset + k'
        omega
      have : k = 0 ∨ k = 1 ∨ k = 2 := by omega
      rcases this with rfl | rfl | rfl
      · obtain ⟨p1, p2⟩ := place 1 (by omega) (by omega)
        exact ⟨_, p1, p2, _, hwall, by rw [hi']; exact c01⟩
      · obtain ⟨p1, p2⟩ := place 3 (by omega) (by omega)
        exact ⟨_, p1, p2, _, hwall, by rw [hi']; exact c13⟩
      · obtain ⟨p1, p2⟩ := place 3 (by omega) (by omega)
        exact ⟨_, p1, p2, _, fu, by rw [hi']; exact c23⟩
  · have tf := toFace_pos hf ph (List.getElem_mem hi) (by omega) hA
    refine ⟨j, hj, by omega, ?_⟩
    by_cases hjn : InChannel ns G.cells[j]
    · obtain ⟨n, hn, ch, hb, b1, b2⟩ := hjn
      have hoff : G.cells[i].layer + 1 = n.elem.offset := by
        by_contra hne
        exact hin ⟨n, hn, ch, hb, by omega, by omega⟩
      obtain ⟨g1, g2, -⟩ := hf.channel hn hb
      obtain ⟨pc, ex⟩ := hp ch g1
      have hk : 0 < chLayers ch := by omega
      obtain ⟨r, c, hr, hc, ej⟩ := chan_of_layer hf hn hb hk hj (by omega)
      have ej' : j = G.at n.elem.offset r c := ej
      obtain ⟨wf, -⟩ := wallFace_pos hf fit ph hsh hn hb (by omega) (by omega)
      obtain ⟨cell, h1, -, h2⟩ := C58_below hf fit ph hsh hm hn hb hi hin hoff hr hc
      rw [← ej', List.getElem?_eq_getElem hj, Option.some.injEq] at h1
      rw [← ej', ← h1] at h2
      obtain ⟨u1, u2, u3⟩ := h2 hO _ rfl
      by_cases h4 : ch.model = .mc4rm
      · by_cases hw : WetCol G ch c
        · have ht : 0 < ch.coolant.htcBottom := by have := ex.2; unfold filmDown at this; rw [h4] at this; simpa using this
          exact ⟨_, series_pos tf (mul_pos ht hA), u1 h4 hw ht⟩
        · exact ⟨_, series_pos tf (wf _ hA), u2 h4 hw⟩
      · exact ⟨_, tf, u3 h4⟩
    · have key := C58_solid_pairs_partial hf ph hsh hm (i := i) (j := j) (by rintro rfl; omega) hi hj hin hjn (fun h => by omega)
      refine ⟨_, ?_, key⟩
      unfold link
      rw [if_neg (by omega), if_pos (by omega), if_pos hO]
      exact series_pos tf (toFace_pos hf ph (List.getElem_mem hj) (by omega) hA)

/-- Sums of the row and of the column of a cell in the steady state: not negative, and positive in the last layer. -/
theorem steady_sums (hp : ∀ ch, G.g.channel = some ch → PosChannel ch) (hm : Assembled id G a m) (hat : a.transient = false) {t : Sink K}
    (ht : G.g.top = some (.ambient t)) {i : Nat} (hi : i < G.cells.length) :
    0 ≤ ∑ j ∈ Finset.range G.cells.length, m.entry i j ∧ 0 ≤ ∑ j ∈ Finset.range G.cells.length, m.entry j i ∧
    (G.cells[i].layer + 1 = G.d.nLayers → 0 < ∑ j ∈ Finset.range G.cells.length, m.entry i j) := by
  have hst : ∀ x : K, storage a x = 0 := fun x => by unfold storage; rw [hat]; rfl
  obtain ⟨hlen, hwid⟩ := ph.cell _ (List.getElem_mem hi)
  by_cases hin : InChannel ns G.cells[i]
  · obtain ⟨n, hn, ch, hb, b1, b2⟩ := hin
    have hk : G.cells[i].layer - n.elem.offset < chLayers ch := by omega
    obtain ⟨r, c, hr, hc, ei⟩ := chan_of_layer hf hn hb hk hi (by omega)
    obtain ⟨g1, g2, g3, g4, -⟩ := hf.channel hn hb
    have hno : ¬ G.cells[i].layer + 1 = G.d.nLayers := by omega
    generalize hkk : G.cells[i].layer - n.elem.offset = k at hk ei
    have hs := stream_nonneg hf fit ph hsh (hp ch g1) hc
    have hi' : i = G.at (n.elem.offset + k) r c := ei
    by_cases hw : k = coolantPos ch ∧ WetCol G ch c
    · obtain ⟨rfl, hw⟩ := hw
      obtain ⟨-, cell, h1, h2, h3, h4⟩ := C58_stream hf fit ph hsh hm hn hb hr hc hw
      rw [coolantLayer_eq, ← hi'] at h1 h3 h4
      have e1 : 0 ≤ if r + 1 = G.d.nRows then stream ch G.d c else 0 := by split_ifs <;> first | exact hs | exact le_refl _
      have e2 : 0 ≤ if r = 0 then stream ch G.d c else 0 := by split_ifs <;> first | exact hs | exact le_refl _
      rw [h3, h4, hst]
      exact ⟨by linarith, by linarith, fun h => absurd h hno⟩
    · obtain ⟨cell, h1, h2, h3, h4⟩ := C58_walls hf fit ph hsh hm hn hb hk hr hc (fun h hww => hw ⟨by rw [coolantLayer_eq] at h; omega, hww⟩)
      rw [← hi'] at h1 h3 h4
      rw [h3, h4, hst]
      exact ⟨le_refl _, le_refl _, fun h => absurd h hno⟩
  · obtain ⟨h1, h2⟩ := C58_solid hf fit ph hsh hm hi hin
    have h4 : 0 ≤ toAmbient G G.cells[i] ∧ (G.cells[i].layer + 1 = G.d.nLayers → 0 < toAmbient G G.cells[i]) := by
      unfold toAmbient
      rw [ht]
      simp only
      split_ifs with hl
      · have hlt : G.cells[i].layer < G.d.nLayers := by omega
        have hh := heightAt_pos hf.wf ph.hts hlt
        obtain ⟨k1, k2, k3, k4⟩ := ph.mat _ (List.getElem_mem hi) hlt
        have := ph.htc t ht
        have key : 0 < series (t.htc * area G.cells[i]) ((ownMat G G.cells[i]).kz * area G.cells[i] / (height G.d G.cells[i].layer / 2)) := by
          unfold series area; positivity
        exact ⟨key.le, fun _ => key⟩
      · exact ⟨le_refl _, fun h => absurd h hl⟩
    rw [h1, h2, hst, zero_add]
    exact ⟨h4.1, h4.1, h4.2⟩

/-- **C72 (one steady state)** A stack without holes under a conventional heat sink, with positive sizes, materials and coefficients: the equations of
the steady state on a non-uniform grid have exactly one solution, with any model of the coolant, whether it flows or not. -/
theorem C72_steady_unique (hp : ∀ ch, G.g.channel = some ch → PosChannel ch ∧ Exchanges ch) (hh : NoHoles G ns) (hm : Assembled id G a m)
    (hat : a.transient = false) {t : Sink K} (ht : G.g.top = some (.ambient t)) (b : Nat → K) : OneSolution G.cells.length m.entry b := by
  refine one_of_unique _ _ ?_
  have hsum : ∀ i : Fin G.cells.length, ∑ j : Fin G.cells.length, (m.entry i j + m.entry j i) / 2 =
      (∑ j ∈ Finset.range G.cells.length, m.entry i j + ∑ j ∈ Finset.range G.cells.length, m.entry j i) / 2 := by
    intro i
    rw [← sum_fin G.cells.length (fun j => m.entry i j), ← sum_fin G.cells.length (fun j => m.entry j i), ← Finset.sum_add_distrib, Finset.sum_div]
  have hS := fun i : Fin G.cells.length => steady_sums hf fit ph hsh (fun ch h => (hp ch h).1) hm hat ht i.2
  refine Net2.unique_of_grounded (S := Matrix.of fun (i j : Fin G.cells.length) => (m.entry i j + m.entry j i) / 2)
    (F := Matrix.of fun (i j : Fin G.cells.length) => (m.entry i j - m.entry j i) / 2) ?_ ?_ ?_ ?_ ?_ (fun i => G.d.nLayers - G.cells[i].layer) ?_ _
  · funext i j
    simp only [Matrix.add_apply, Matrix.of_apply]
    ring
  · intro i j; simp only [Matrix.of_apply]; ring
  · intro i j; simp only [Matrix.of_apply]; ring
  · intro i j hij
    simp only [Matrix.of_apply]
    have := pair_nonpos' hf fit ph hsh (fun ch h => (hp ch h).1) hm (fun h => hij (Fin.ext h)) i.2 j.2
    linarith
  · intro i
    simp only [Matrix.of_apply]
    rw [hsum i]
    obtain ⟨h1, h2, -⟩ := hS i
    linarith
  · intro i
    simp only [Matrix.of_apply]
    obtain ⟨h1, h2, h3⟩ := hS i
    have hlt : G.cells[i].layer < G.d.nLayers := below_top hf ht (List.getElem_mem i.2)
    by_cases hl : G.cells[i].layer + 1 = G.d.nLayers
    · left; rw [hsum i]
      have := h3 hl
      linarith
    · right
      obtain ⟨j, hj, hup, g, hg, e1, e2⟩ := conducts_up hf fit ph hsh hp hh hm i.2 (show G.cells[i].layer + 1 < G.d.nLayers by omega)
      refine ⟨⟨j, hj⟩, ?_, ?_⟩
      · show G.d.nLayers - G.cells[j].layer < G.d.nLayers - G.cells[i].layer
        have : G.cells[i].layer < G.cells[j].layer := hup
        omega
      · show (m.entry i j + m.entry j i) / 2 ≠ 0
        rw [e1, e2]
        intro h
        linarith
end

/-! ## The simulation -/

/-- **C72 (the steady state is found)** On every reachable state with power values left, and a solver that finds unique solutions, `emulate_steady`
ends with the temperatures of the only steady state. -/
theorem C72_steady_succeeds {cfg : NCfg K π} {s : NSim K π} (h : ReachableNU cfg d0 decl rs ns s) {t : Sink K}
    (ht : s.G.g.top = some (.ambient t)) (hty : cfg.an.type = .steady) (hp : ∀ e ∈ elements s, e.powers ≠ []) (fit : ChipFits s.G.d) (ph : PhysicalNU s.G)
    (hsh : Sharp s.G) (hpos : ∀ ch, s.G.g.channel = some ch → PosChannel ch ∧ Exchanges ch) (hh : NoHoles s.G ns) (hc : CompleteNU cfg) :
    (steadyNU cfg s).1 = .endOfSimulation := by
  have hv := reachable_valid h
  have hat : cfg.an.ana.transient = false := by simp [Emu.Analysis.ana, hty]
  obtain ⟨S, fl, e4, hE⟩ := steady_eq hv ht hty hp
  have hlen : ((List.range s.G.ls.flatten.length).map fun i => S.getD i 0).length = s.G.cells.length := by
    rw [List.length_map, List.length_range]; rfl
  obtain ⟨x, hx⟩ := hc s.mat ((List.range s.G.ls.flatten.length).map fun i => S.getD i 0) (by
    rw [hlen]
    exact C72_steady_unique hv.grid fit ph hsh hpos hh ⟨s.conns, hv.conns, hv.mat⟩ hat ht _)
  rw [hE, hx]

/-- **C72 (nothing else matters)** Two simulations of the same stack with the same next power values end with the same temperatures, whatever
was simulated before, in whatever order the threads ran, and with whatever correct solver. -/
theorem C72_steady_deterministic {π' : Type} {cfg : NCfg K π} {cfg' : NCfg K π'} {s : NSim K π} {s' : NSim K π'} {d1 : Dims K} {decl' : Option (Channel K)}
    {rs' : List (Raw K (List (FEl K)))} {ns' : List (NElem K)} (h : ReachableNU cfg d0 decl rs ns s) (h' : ReachableNU cfg' d1 decl' rs' ns' s')
    (hG : s'.G = s.G) {t : Sink K} (ht : s.G.g.top = some (.ambient t)) (hty : cfg.an.type = .steady) (han : cfg'.an = cfg.an)
    (hp : ∀ e ∈ elements s, e.powers ≠ []) (fit : ChipFits s.G.d) (ph : PhysicalNU s.G)
    (hsh : Sharp s.G) (hpos : ∀ ch, s.G.g.channel = some ch → PosChannel ch ∧ Exchanges ch) (hh : NoHoles s.G ns) (hc : CorrectNU cfg) (hc' : CorrectNU cfg')
    (hs : (steadyNU cfg s).1 = .endOfSimulation) (hs' : (steadyNU cfg' s').1 = .endOfSimulation) :
    (steadyNU cfg s).2.temps = (steadyNU cfg' s').2.temps := by
  have hv := reachable_valid h
  have hv' := reachable_valid h'
  have hat : cfg.an.ana.transient = false := by simp [Emu.Analysis.ana, hty]
  have hty' : cfg'.an.type = .steady := by rw [han]; exact hty
  have hp' : ∀ e ∈ elements s', e.powers ≠ [] := by
    have : elements s' = elements s := by unfold elements; rw [hG]
    rw [this]; exact hp
  obtain ⟨⟨S, fl, a1, a2, a3⟩, -⟩ := C60_steady h ht hty hp hs hc
  obtain ⟨⟨S', fl', b1, b2, b3⟩, -⟩ := C60_steady h' (t := t) (by rw [hG]; exact ht) hty' hp' hs' hc'
  rw [hG, a1, Option.some.injEq, Prod.mk.injEq] at b1
  obtain ⟨rfl, -⟩ := b1
  have hasm : Assembled id s.G cfg.an.ana s.mat := ⟨s.conns, hv.conns, hv.mat⟩
  have hasm' : Assembled id s.G cfg.an.ana s'.mat := by
    have := hv'.mat
    rw [han, hG] at this
    exact ⟨s'.conns, by rw [← hG]; exact hv'.conns, this⟩
  have hmat := C44_schedule_independent hasm hasm'
  rw [hG] at b2 b3
  rw [← hmat] at b3
  obtain ⟨x, -, hx⟩ := C72_steady_unique hv.grid fit ph hsh hpos hh hasm hat ht fun i => S.getD i 0
  refine List.ext_getElem (by rw [a2, b2]) fun i h1 h2 => ?_
  have e := (hx _ a3 i (by omega)).trans (hx _ b3 i (by omega)).symm
  simp only [List.getD_eq_getElem?_getD, List.getElem?_eq_getElem h1, List.getElem?_eq_getElem h2, Option.getD_some] at e
  exact e

end Verif.NU
