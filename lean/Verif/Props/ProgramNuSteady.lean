import Verif.Props.NuSteady
import Verif.Props.ProgramNuValues
import Verif.Props.ProgramSteady

/-! # C72: the steady state that the program computes on a non-uniform grid -/

set_option linter.unusedSectionVars false
set_option linter.unusedSimpArgs false
set_option linter.unusedVariables false

namespace Verif.Prog
open Verif.Gram Verif.Dim Verif.TG Verif.SM Verif.Stk Verif.FE Verif.Emu Verif.Flp

variable {π : Type}

/-! ### Specification -/

/-- The floorplans leave no gaps: every point of the chip is in the first rectangle of some element of each of them. -/
def NoGaps (files : Files) (s : StackD) : Prop :=
  ∀ x y, 0 ≤ x → x < s.dims.chipL → 0 ≤ y → y < s.dims.chipW → ∀ el fs, FloorplanOf files s el fs → 0 < hits fs x y

/-! ### Proofs -/

variable {w : World π} {file : String} {s : StackD} {D : Desc NFlps} {an : Analysis ℚ} {G : NU.Grid ℚ} {s0 s' : NU.NSim ℚ π} {log : NLog}

theorem sub_inside {r : Rect ℚ} {nx ny l : Nat} {m : Material ℚ} (hx : 0 < r.length) (hy : 0 < r.width) {c : NU.Cell ℚ} (hc : c ∈ NU.subCells r nx ny l m) :
    r.x ≤ c.x0 ∧ c.x1 ≤ r.x + r.length ∧ r.y ≤ c.y0 ∧ c.y1 ≤ r.y + r.width := by
  unfold NU.subCells at hc
  obtain ⟨s, hs, e⟩ := List.mem_map.mp hc
  have hp : NU.InPart r nx ny s c := by rw [← e]; exact ⟨rfl, rfl, rfl, rfl⟩
  obtain ⟨a1, -, a2, a3, -, a4⟩ := NU.inPart_inside hx hy (List.mem_range.mp hs) hp
  exact ⟨a1, a2, a3, a4⟩

/-- Channels that are not listed one after the other are not one on the other. -/
theorem channels_apart (M : Means nuReader w.eff (filesOf w.read) s D) (hdbl : NoDoubleChannel s) (hf : ∃ d0 rs, NU.FromStack d0 D.chan rs (nElems D) G) :
    ∀ n ∈ nElems D, ∀ n' ∈ nElems D, ∀ ch ch', n.elem.body = .channel ch → n'.elem.body = .channel ch' → n'.elem.offset ≠ n.elem.offset + chLayers ch := by
  obtain ⟨d0, rs, hf⟩ := hf
  obtain ⟨walls, d, spr, -, -, -, -, -, -, -, raws, he, hp⟩ := M.stack
  obtain ⟨es, m, h1, -, -, -, -, -, h2, -⟩ := parseStack_spec hp
  have hx := forall₂_reverse (forall₂_comp he h1)
  have hlen := discr_length M
  have hne : (nElems D).length = es.reverse.length := by
    unfold nElems
    rw [List.length_zipWith, ← hlen, Nat.min_self, h2, assign_length]
  -- the element in place i
  have at_ : ∀ (i : Nat) (hi : i < (nElems D).length), ∃ (k : i < es.reverse.length), (nElems D)[i].elem = elemMap (List.map (elOf D.mats)) { es.reverse[i] with offset := 0 + total (es.reverse.take i) } := by
    intro i hi
    have hk : i < es.reverse.length := by omega
    refine ⟨hk, ?_⟩
    have h3 := assignOffsets_get es.reverse 0 i hk
    rw [← h2] at h3
    have h4 : (nElems D)[i]? = some ((nElems D)[i]) := List.getElem?_eq_getElem hi
    have h5 : (nElems D)[i]?.map (·.elem) = (D.parsed.elems[i]?).map (elemMap (List.map (elOf D.mats))) := by
      unfold nElems
      rw [List.getElem?_zipWith]
      cases h6 : D.parsed.elems[i]? with
      | none => rfl
      | some e =>
        have h7 : i < D.discr.length := by
          have := (List.getElem?_eq_some_iff.mp h6).1
          omega
        rw [List.getElem?_eq_getElem h7]; rfl
    rw [h4, h3] at h5
    exact Option.some.inj h5
  have pos : ∀ (i : Nat) (hi : i < es.reverse.length), 0 < nLayersOf es.reverse[i] := by
    intro i hi
    obtain ⟨k, e⟩ := at_ i (by omega)
    have hok := hf.elemOk (List.getElem_mem (by omega : i < (nElems D).length))
    rw [e] at hok
    unfold ElemOk elemMap at hok
    unfold nLayersOf
    cases hb : es.reverse[i].body with
    | die b => simp only [hb, bodyMap] at hok ⊢; omega
    | layer l => simp
    | channel ch => simp only [chLayers]; split_ifs <;> omega
  have tot : ∀ (i : Nat) (hi : i < es.reverse.length), total (es.reverse.take (i + 1)) = total (es.reverse.take i) + nLayersOf es.reverse[i] := by
    intro i hi
    unfold total
    rw [List.take_succ_eq_append_getElem hi, List.map_append, List.sum_append, List.map_singleton, List.sum_singleton]
  have mono : ∀ i k, i + k ≤ es.reverse.length → total (es.reverse.take i) + k ≤ total (es.reverse.take (i + k)) := by
    intro i k
    induction k with
    | zero => intro _; simp
    | succ k ih =>
      intro hk
      have a := ih (by omega)
      have b := tot (i + k) (by omega)
      have c := pos (i + k) (by omega)
      have e : i + (k + 1) = i + k + 1 := by omega
      rw [e]
      omega
  intro n hn n' hn' ch ch' hb hb' heq
  obtain ⟨i, hi, rfl⟩ := List.mem_iff_getElem.mp hn
  obtain ⟨j, hj, rfl⟩ := List.mem_iff_getElem.mp hn'
  obtain ⟨ki, ei⟩ := at_ i hi
  obtain ⟨kj, ej⟩ := at_ j hj
  rw [ei] at hb heq
  rw [ej] at hb' heq
  have bi : es.reverse[i].body = .channel ch := by
    unfold elemMap at hb
    cases h : es.reverse[i].body <;> simp only [h, bodyMap, reduceCtorEq] at hb
    exact congrArg _ (by simpa using hb)
  have bj : es.reverse[j].body = .channel ch' := by
    unfold elemMap at hb'
    cases h : es.reverse[j].body <;> simp only [h, bodyMap, reduceCtorEq] at hb'
    exact congrArg _ (by simpa using hb')
  have heq' : total (es.reverse.take j) = total (es.reverse.take i) + chLayers ch := by
    have : 0 + total (es.reverse.take j) = 0 + total (es.reverse.take i) + chLayers ch := heq
    omega
  have hni : nLayersOf es.reverse[i] = chLayers ch := by unfold nLayersOf; rw [bi]
  have hnext := tot i ki
  have hcl := pos i ki
  have hji : j = i + 1 := by
    rcases Nat.lt_trichotomy j (i + 1) with h | h | h
    · exfalso
      have := mono j (i - j) (by omega)
      rw [show j + (i - j) = i by omega] at this
      omega
    · exact h
    · exfalso
      have := mono (i + 1) (j - (i + 1)) (by omega)
      rw [show i + 1 + (j - (i + 1)) = j by omega] at this
      omega
  subst hji
  have hxl : s.elems.reverse.length = es.reverse.length := hx.length_eq
  have chan : ∀ (k : Nat) (hk : k < es.reverse.length) (c : Channel ℚ), es.reverse[k].body = .channel c → ∃ a, s.elems.reverse[k]? = some (.channel a) := by
    intro k hk c hc
    have := hx.get (by omega : k < s.elems.reverse.length) hk
    simp only [List.get_eq_getElem] at this
    obtain ⟨raw, r1, r2⟩ := this
    rw [List.getElem?_eq_getElem (by omega)]
    cases hy : s.elems.reverse[k]'(by omega) with
    | channel a => exact ⟨a, rfl⟩
    | layer a b c' =>
      rw [hy] at r1
      obtain ⟨l, -, e⟩ := r1
      rw [e] at r2
      simp only [resolve, Option.some.injEq] at r2
      rw [← r2] at hc; cases hc
    | die a b c' o =>
      rw [hy] at r1
      obtain ⟨q, f, gg, -, -, -, e⟩ := r1
      rw [e] at r2
      simp only [resolve, Option.some.injEq] at r2
      rw [← r2] at hc; cases hc
  obtain ⟨a, ha⟩ := chan i ki ch bi
  obtain ⟨b, hb⟩ := chan (i + 1) kj ch' bj
  have hel : s.elems.length = es.reverse.length := by rw [← hxl, List.length_reverse]
  rw [List.getElem?_reverse (by omega)] at ha hb
  refine hdbl (s.elems.length - 1 - (i + 1)) b a hb ?_
  rw [show s.elems.length - 1 - (i + 1) + 1 = s.elems.length - 1 - i by omega]
  exact ha

/-- The cells are in the chip. -/
theorem cells_inside (h : StartedNU w s D an G s0) (hs : Sensible w.eff (filesOf w.read) s) (hg : GoodDivision (filesOf w.read) s)
    (htop : ∃ t, G.g.top = some (.ambient t)) :
    ∀ c ∈ G.cells, 0 ≤ c.x0 ∧ c.x1 ≤ G.d.chipLength ∧ 0 ≤ c.y0 ∧ c.y1 ≤ G.d.chipWidth := by
  obtain ⟨⟨d0, rs, hf⟩, fit, whole, ⟨e1, e2⟩, odd, dv⟩ := h.shown hs hg
  obtain ⟨c1, c2, c3, c4⟩ := hs.chip
  obtain ⟨t, ht⟩ := htop
  intro c hc
  obtain ⟨i, hi, rfl⟩ := List.mem_iff_getElem.mp hc
  obtain ⟨lc, h1, -, -, -, h3, -⟩ := hf.pos_layer hi
  have hl := NU.below_top hf ht hc
  obtain ⟨n, hn, k, hk, e⟩ := hf.elemAt hl
  obtain ⟨-, h2, -⟩ := hf.layersAt hn hk
  rw [← e, h1] at h2
  have hlt : k < (NU.elemLayers G.d n.elem.offset (NU.fixDiscr n)).length := by rw [NU.elemLayers_length, NU.nLayersOf_fix]; exact hk
  rw [List.getElem?_eq_getElem hlt, Option.some.injEq] at h2
  have hmem : G.cells[i] ∈ lc := List.mem_of_getElem? h3
  generalize G.cells[i] = c at hmem
  rw [h2] at hmem
  cases hb : n.elem.body with
  | die b =>
    have e3 : (NU.fixDiscr n).elem.body = .die { b with flp := b.flp.map (NU.fixEl n) } := by rw [NU.fixed_die hb]
    have e4 : (NU.elemLayers G.d n.elem.offset (NU.fixDiscr n))[k] = NU.dieLayer (NU.fixDiscr n) { b with flp := b.flp.map (NU.fixEl n) } n.elem.offset k := by
      simp only [NU.elemLayers, e3, List.getElem_map, List.getElem_range]
    rw [e4] at hmem
    unfold NU.dieLayer at hmem
    obtain ⟨el, hel, hin⟩ := List.mem_flatMap.mp hmem
    obtain ⟨el0, hel0, rfl⟩ := List.mem_map.mp hel
    obtain ⟨g1, g2, g3, g4, g5, g6⟩ : GoodRect s.dims (NU.fixEl n el0).rect := by
      have hfx : (NU.fixEl n el0).rect = el0.rect := by unfold NU.fixEl; split_ifs <;> rfl
      rw [hfx]
      obtain ⟨d, x, hx, raw, e5, k1, k2, k3, k4⟩ := nElem_of h.means hn
      rw [hb] at k3
      cases x with
      | channel id =>
        have k1 : raw = _ := k1
        subst k1
        obtain ⟨ch, -, rfl⟩ := Option.map_eq_some_iff.mp k2
        cases k3
      | layer id ref o =>
        obtain ⟨l, -, k1⟩ := k1
        subst k1
        cases k2
        cases k3
      | die id ref p o =>
        obtain ⟨q, f, g, -, hff, hr, k1⟩ := k1
        subst k1
        cases k2
        have hgf : g = f := by
          obtain ⟨_, -, e⟩ := Option.map_eq_some_iff.mp hr
          exact e.symm
        subst hgf
        obtain ⟨o1, o2⟩ := files_ok w.read p g hff
        simp only [bodyMap, Body.die.injEq] at k3
        rw [k3] at hel0
        obtain ⟨y, hy, rfl⟩ := List.mem_map.mp hel0
        exact hs.flps id ref p o g hx hff y hy _ (elOf_rect (ms := D.mats) (o2 y hy))
    obtain ⟨a1, a2, a3, a4⟩ := sub_inside g1 g2 hin
    exact ⟨by linarith, by linarith, by linarith, by linarith⟩
  | layer ly =>
    have e3 : NU.fixDiscr n = n := by unfold NU.fixDiscr; rw [hb]
    have e4 : (NU.elemLayers G.d n.elem.offset (NU.fixDiscr n))[k] = NU.subCells (NU.chipRect G.d) n.dx n.dy n.elem.offset NU.noMat := by
      have hk0 : k = 0 := by unfold nLayersOf at hk; rw [hb] at hk; simpa using hk
      subst hk0
      simp only [NU.elemLayers, e3, hb, List.getElem_cons_zero]
    rw [e4] at hmem
    obtain ⟨a1, a2, a3, a4⟩ := sub_inside (show 0 < G.d.chipLength by rw [e1]; exact c1) (show 0 < G.d.chipWidth by rw [e2]; exact c2) hmem
    simp only [NU.chipRect, zero_add] at a1 a2 a3 a4
    exact ⟨a1, a2, a3, a4⟩
  | channel ch =>
    have e3 : NU.fixDiscr n = n := by unfold NU.fixDiscr; rw [hb]
    have e4 : (NU.elemLayers G.d n.elem.offset (NU.fixDiscr n))[k] = NU.channelLayer G.d ch.model n.elem.offset k := by
      simp only [NU.elemLayers, e3, hb, List.getElem_map, List.getElem_range]
    rw [e4] at hmem
    unfold NU.channelLayer at hmem
    obtain ⟨q, hq, rfl⟩ := List.mem_map.mp hmem
    have hq := List.mem_range.mp hq
    have hcp := hf.wf.sized.cols.1
    have hrp := hf.wf.sized.rows.1
    have hqc : q % G.d.nCols < G.d.nCols := Nat.mod_lt _ hcp
    have hqr : q / G.d.nCols < G.d.nRows := Nat.div_lt_of_lt_mul hq
    have hw : 0 < G.d.chipWidth / (G.d.nRows : ℚ) := div_pos fit.chip (by exact_mod_cast hrp)
    have hnr : (G.d.nRows : ℚ) ≠ 0 := by
      have : (0 : ℚ) < (G.d.nRows : ℚ) := by exact_mod_cast hrp
      exact this.ne'
    refine ⟨?_, ?_, ?_, ?_⟩
    · show 0 ≤ NU.chanX0 G.d _
      rw [NU.whole_left hf.wf.sized whole hqc, ← sum_cellLength G.d hf.wf.sized.cols.2 _ hqc]
      refine Finset.sum_nonneg fun x hx => ?_
      have hx : x < G.d.nCols := by have := Finset.mem_range.mp hx; omega
      rw [← NU.chan_len hf.wf.sized hx]; linarith [NU.column_pos hf.wf.sized fit hx]
    · show NU.chanX1 G.d _ ≤ _
      have hlast : NU.chanX1 G.d (G.d.nCols - 1) = G.d.chipLength := by
        rw [NU.whole_right hf.wf.sized whole (by omega), ← NU.gridLength_last hf.wf.sized, whole]
      by_cases h6 : q % G.d.nCols = G.d.nCols - 1
      · rw [h6, hlast]
      · have a := NU.columns_apart hf.wf.sized fit (c := q % G.d.nCols) (c' := G.d.nCols - 1) (by omega) (by omega)
        have b := NU.column_pos hf.wf.sized fit (c := G.d.nCols - 1) (by omega)
        linarith
    · show 0 ≤ G.d.chipWidth / (G.d.nRows : ℚ) * ((q / G.d.nCols : Nat) : ℚ)
      positivity
    · show G.d.chipWidth / (G.d.nRows : ℚ) * ((q / G.d.nCols + 1 : Nat) : ℚ) ≤ G.d.chipWidth
      have h5 : ((q / G.d.nCols + 1 : Nat) : ℚ) ≤ (G.d.nRows : ℚ) := by exact_mod_cast hqr
      calc _ ≤ G.d.chipWidth / (G.d.nRows : ℚ) * (G.d.nRows : ℚ) := mul_le_mul_of_nonneg_left h5 hw.le
        _ = _ := div_mul_cancel₀ _ hnr

/-- The channels of sensible files exchange heat. -/
theorem exchanges_of {ch : Channel ℚ} (h : CoolantOk ch) (hm : ch.model ≠ .none) : NU.Exchanges ch := by
  unfold NU.Exchanges NU.filmUp NU.filmDown
  unfold CoolantOk at h
  cases hmo : ch.model <;> simp only [hmo, mul_one] at h hm ⊢
  · exact absurd rfl hm
  · exact ⟨h.2.2.2.2.1, h.2.2.2.2.2⟩
  · exact ⟨h.2.2.2.1, h.2.2.2.2.1⟩
  · exact ⟨h.2.2.1, h.2.2.1⟩
  · exact ⟨h.2.2.1, h.2.2.1⟩

/-- The grid of sensible files is as C72 assumes. -/
theorem no_holes (h : StartedNU w s D an G s0) (hs : Sensible w.eff (filesOf w.read) s) (hg : GoodDivision (filesOf w.read) s)
    (hdbl : NoDoubleChannel s) (hgap : NoGaps (filesOf w.read) s) (htop : ∃ t, G.g.top = some (.ambient t)) : NU.NoHoles G (nElems D) := by
  obtain ⟨hf, fit, whole, ⟨e1, e2⟩, odd, dv⟩ := h.shown hs hg
  refine ⟨by rw [e1]; exact hs.chip.1, cells_inside h hs hg htop, dv, ?_, fun _ _ _ _ => whole, channels_apart h.means hdbl hf⟩
  rintro x y ⟨⟨x1, x2⟩, y1, y2⟩ n hn b hb
  rw [e1] at x2; rw [e2] at y2
  obtain ⟨e, he, e3⟩ : ∃ e ∈ D.parsed.elems, n.elem = elemMap (List.map (elOf D.mats)) e := by
    unfold nElems at hn
    obtain ⟨i, hi, rfl⟩ := List.mem_iff_getElem.mp hn
    rw [List.length_zipWith, lt_min_iff] at hi
    exact ⟨D.parsed.elems[i]'hi.1, List.getElem_mem _, by rw [List.getElem_zipWith]⟩
  have hb' : ∃ b0 : Die ℚ NFlps, e.body = .die b0 ∧ b.flp = b0.flp.map (elOf D.mats) := by
    rw [e3] at hb
    unfold elemMap at hb
    cases h : e.body <;> simp only [h, bodyMap, reduceCtorEq] at hb
    rename_i b0
    simp only [Body.die.injEq] at hb
    exact ⟨b0, rfl, by rw [← hb]⟩
  obtain ⟨b0, hb0, hfl⟩ := hb'
  have hh := hgap x y x1 x2 y1 y2 _ _ (die_file h.means he hb0)
  rw [← hits_eq D.mats, ← hfl] at hh
  obtain ⟨r, hr, hin⟩ := List.countP_pos_iff.mp hh
  obtain ⟨el, hel, rfl⟩ := List.mem_map.mp hr
  exact ⟨el, hel, hin⟩

/-- The coolant of sensible files. -/
theorem StartedNU.exchanges (h : StartedNU w s D an G s0) (hs : Sensible w.eff (filesOf w.read) s) {c : Channel ℚ} (hc : G.g.channel = some c) :
    NU.Exchanges c := by
  obtain ⟨walls, d, spr, hw, hd, -, hch, -, -, -, raws', -, hp⟩ := h.means.stack
  obtain ⟨w1, w2, w3, w4, w5, w6, w7, w8, w9, w10⟩ := dims_good hs hw hd
  obtain ⟨hfg, -⟩ := grid_fill h.means h.grid
  have hw10 : (∃ n, d.nCols = 2 * n + 3) ∨ ∀ h c w f l m fl t v i, s.chan ≠ some (.rm4 h c w f l m fl t v i) :=
    w10.imp (fun ⟨n, h, _⟩ => ⟨n, h⟩) fun h => h.2.2.2.2.2
  have hdecl : ∀ c, D.chan = some c → c.model ≠ .none ∧ CoolantOk c := by
    intro c hc
    cases hx : s.chan with
    | none => rw [hx, hc] at hch; exact hch.elim
    | some x =>
      rw [hx, hc] at hch
      obtain ⟨k1, -, -, k4⟩ := chan_good hs w5 hw10 hx hch
      exact ⟨k1, k4⟩
  have hok : DeclOk D.chan := fun c hc => (hdecl c hc).1
  obtain ⟨-, b2, -⟩ := grid_parts hok hp hfg
  have : D.chan = some c := by
    rcases b2 with b2 | b2
    · rw [b2] at hc; cases hc
    · rw [← b2]; exact hc
  obtain ⟨k1, k4⟩ := hdecl c this
  exact exchanges_of k4 k1

/-! ### Theorems -/

/-- **C72 (the program finds the steady state)** A steady analysis on a non-uniform grid, with a conventional heat sink on top, floorplans without
gaps and no channel directly on another: with a solver that finds unique solutions, the program ends with the temperatures of the steady state,
in which the power of the files, the exchange with the ambient and what the coolant carries are in balance. -/
theorem C72_program_steady (h : SessionNU w file s D an G s0 log s') (hs : Sensible w.eff (filesOf w.read) s) (hg : GoodDivision (filesOf w.read) s)
    (hm : ∀ x, w.mul10 x = x * 10) (ht : s.solver.kind = none) {x : SinkD} (hx : s.top = some (.conv x)) (hsh : NU.Sharp G)
    (hdbl : NoDoubleChannel s) (hgap : NoGaps (filesOf w.read) s) (hcm : NU.CompleteNU (configNU w an))
    (hc : NU.CorrectNU (configNU w an)) (hp : ∀ t ∈ filePowers (filesOf w.read) s, t ≠ []) :
    (NU.steadyNU (configNU w an) s0).1 = .endOfSimulation ∧ s'.temps.length = G.cells.length ∧
    ((filePowers (filesOf w.read) s).map fun t => t.getD 0 0).sum +
      ((G.cells.map (NU.fromSinks G)).sum - ∑ i ∈ Finset.range G.cells.length, (G.cells[i]?).elim 0 (NU.toAmbient G) * s'.temps.getD i 0) +
      NU.overColumns G (nElems D) (fun n ch c => SM.stream ch G.d c * (ch.coolant.tIn - s'.temps.getD (G.at (SM.coolantLayer n.elem ch) (G.d.nRows - 1) c) 0)) = 0 := by
  obtain ⟨d0, rs, h1, h2, h3, h4, gg, h6⟩ := h.start.good hs hg
  obtain ⟨e1, -⟩ := C69_steady_outputs h hs hm ht
  have hty : (configNU w an).an.type = .steady := by
    obtain ⟨-, -, -, t4⟩ := times_nu hm h.times
    rcases t4 with ⟨-, t4⟩ | ⟨sl, t4, t5⟩
    · exact t4
    · rw [h.means.times.1, ht] at t4; cases t4
  have htr := begun_traces h.start hs
  have hpw : ∀ e ∈ NU.elements s0, e.powers ≠ [] := by
    intro e he
    refine hp _ ?_
    rw [← htr]
    exact List.mem_map_of_mem he
  have htop : G.g.top = some (.ambient ⟨x.htc, x.temp⟩) := h3.trans (top_ambient h.means hx)
  have hend : (NU.steadyNU (configNU w an) s0).1 = .endOfSimulation :=
    NU.C72_steady_succeeds (.begun h1) (t := ⟨x.htc, x.temp⟩) (by rw [h2]; exact htop) hty hpw (by rw [h2]; exact gg.fit) (by rw [h2]; exact gg.phys)
      (by rw [h2]; exact hsh) (by rw [h2]; exact fun ch hch => ⟨gg.chan ch hch, h.start.exchanges hs hch⟩)
      (by rw [h2]; exact no_holes h.start hs hg hdbl hgap ⟨_, htop⟩) hcm
  refine ⟨hend, ?_, C70_steady h hs hg hm ht hx hsh hc hp hend⟩
  obtain ⟨⟨S, fl, -, k2, -⟩, -⟩ := NU.C60_steady (.begun h1) (t := ⟨x.htc, x.temp⟩) (by rw [h2]; exact htop) hty hpw hend hc
  rw [e1, k2, h2]

/-- **C72 (it is the only one)** Two runs of the program on the same files end with the same temperatures: the order in which the threads find the
connections does not matter, nor which correct and complete solver is used. -/
theorem C72_program_unique {π' : Type} {w' : World π'} {file' : String} {D' : Desc NFlps} {an' : Analysis ℚ} {G' : NU.Grid ℚ} {t0 t' : NU.NSim ℚ π'}
    {log' : NLog} (h : SessionNU w file s D an G s0 log s') (h' : SessionNU w' file' s D' an' G' t0 log' t') (hfiles : filesOf w'.read = filesOf w.read)
    (heff : w'.eff = w.eff) (hs : Sensible w.eff (filesOf w.read) s) (hg : GoodDivision (filesOf w.read) s)
    (hm : ∀ x, w.mul10 x = x * 10) (hm' : ∀ x, w'.mul10 x = x * 10) (ht : s.solver.kind = none) {x : SinkD} (hx : s.top = some (.conv x)) (hsh : NU.Sharp G)
    (hdbl : NoDoubleChannel s) (hgap : NoGaps (filesOf w.read) s) (hcm : NU.CompleteNU (configNU w an)) (hcm' : NU.CompleteNU (configNU w' an'))
    (hc : NU.CorrectNU (configNU w an)) (hc' : NU.CorrectNU (configNU w' an')) (hp : ∀ t ∈ filePowers (filesOf w.read) s, t ≠ []) :
    t'.temps = s'.temps := by
  have hD : D' = D := by
    have a := (C67_meaning nuReader w.eff (filesOf w.read) s D).mpr h.means
    have b := (C67_meaning nuReader w'.eff (filesOf w'.read) s D').mpr h'.means
    rw [hfiles, heff, a] at b
    exact (Option.some.inj b).symm
  subst hD
  have hmm : w'.mul10 = w.mul10 := funext fun x => (hm' x).trans (hm x).symm
  have han : an' = an := by
    have b := h'.times
    rw [hmm] at b
    exact analysed_det b h.times
  subst han
  have hGG : G' = G := by
    have b := h'.grid
    rw [h.grid] at b
    exact (Option.some.inj b).symm
  subst hGG
  have hs' : Sensible w'.eff (filesOf w'.read) s := by rw [hfiles, heff]; exact hs
  have hg' : GoodDivision (filesOf w'.read) s := by rw [hfiles]; exact hg
  have hgap' : NoGaps (filesOf w'.read) s := by rw [hfiles]; exact hgap
  have hp' : ∀ t ∈ filePowers (filesOf w'.read) s, t ≠ [] := by rw [hfiles]; exact hp
  obtain ⟨a1, -, -⟩ := C72_program_steady h hs hg hm ht hx hsh hdbl hgap hcm hc hp
  obtain ⟨b1, -, -⟩ := C72_program_steady h' hs' hg' hm' ht hx hsh hdbl hgap' hcm' hc' hp'
  obtain ⟨d0, rs, h1, h2, h3, h4, gg, h6⟩ := h.start.good hs hg
  obtain ⟨d0', rs', h1', h2', -, -, -, -⟩ := h'.start.good hs' hg'
  obtain ⟨e1, -⟩ := C69_steady_outputs h hs hm ht
  obtain ⟨e1', -⟩ := C69_steady_outputs h' hs' hm' ht
  have hty : (configNU w an').an.type = .steady := by
    obtain ⟨-, -, -, t4⟩ := times_nu hm h.times
    rcases t4 with ⟨-, t4⟩ | ⟨sl, t4, t5⟩
    · exact t4
    · rw [h.means.times.1, ht] at t4; cases t4
  have htr := begun_traces h.start hs
  have hpw : ∀ e ∈ NU.elements s0, e.powers ≠ [] := by
    intro e he
    refine hp _ ?_
    rw [← htr]
    exact List.mem_map_of_mem he
  have htop : G'.g.top = some (.ambient ⟨x.htc, x.temp⟩) := h3.trans (top_ambient h.means hx)
  rw [e1, e1']
  exact (NU.C72_steady_deterministic (.begun h1) (.begun h1') (h2'.trans h2.symm) (t := ⟨x.htc, x.temp⟩) (by rw [h2]; exact htop) hty rfl hpw
    (by rw [h2]; exact gg.fit) (by rw [h2]; exact gg.phys) (by rw [h2]; exact hsh)
    (by rw [h2]; exact fun ch hch => ⟨gg.chan ch hch, h.start.exchanges hs hch⟩)
    (by rw [h2]; exact no_holes h.start hs hg hdbl hgap ⟨_, htop⟩) hc hc' a1 b1).symm

end Verif.Prog
