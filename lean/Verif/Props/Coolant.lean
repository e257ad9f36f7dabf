import Verif.Props.Conductance
import Verif.Props.MatrixSize
import Verif.Lemmas.RowSums
import Verif.Lemmas.NuUniform

set_option linter.unusedSectionVars false
set_option linter.unusedSimpArgs false
set_option linter.unusedVariables false

/-! # C57: what the matrix of a uniform grid says about the layers of a channel -/

namespace Verif.SM
open Verif.Dim Verif.TG Verif.Stk Verif.Emu

variable {K φ : Type} [Field K] [LinearOrder K] [IsStrictOrderedRing K]

/-! ## Where the layers of a channel are -/

theorem height_of_get {d : Dims K} {l : Nat} {x : K} (h : d.heights[l]? = some x) : height d l = x := by
  have hl := (List.getElem?_eq_some_iff.mp h).1
  unfold height cellHeight
  rw [if_neg (by intro hx; rw [hx] at hl; simp at hl), if_neg (by omega), h]; rfl

section
variable {d0 : Dims K} {decl : Option (Channel K)} {rs : List (Raw K φ)} {p : Parsed K φ} {g : TGrid K}

theorem chTypes_not_solid {m : ChModel} {t : LType} (h : t ∈ chTypes m) : solidish t = false := by
  revert h
  cases m <;> simp [chTypes, solidish] <;> (intro hx; rcases hx with rfl | rfl | rfl | rfl <;> rfl)

/-- The layers of a channel of the stack file: types, walls, heights; the channel of the grid; solid layers above and below. -/
theorem channel_at (h : BuiltFrom d0 decl rs p g) {e : SElem K φ} (he : e ∈ p.elems) {ch : Channel K} (hb : e.body = .channel ch) :
    g.channel = some ch ∧ 0 < e.offset ∧ e.offset + chLayers ch < p.dims.nLayers ∧
    ∀ (k : Nat) (t : LType), (chTypes ch.model)[k]? = some t → typeAt g (e.offset + k) = t ∧ layerAt g (e.offset + k) = wallLayer ch ∧
      height p.dims (e.offset + k) = ch.height := by
  have wf := wf_of_built h.built
  obtain ⟨es, n, hf, -, -, -, -, -, hel, hdim, -, -⟩ := parseStack_spec h.parse
  have hr := forall₂_reverse hf
  rw [hel] at he
  obtain ⟨i, hi0⟩ := List.getElem?_of_mem he
  have hi : i < es.reverse.length := by
    rw [← assignOffsets_length 0 es.reverse]; exact (List.getElem?_eq_some_iff.mp hi0).1
  rw [assignOffsets_get _ _ _ hi] at hi0
  simp only [Option.some.injEq, Nat.zero_add] at hi0
  have hoff : e.offset = total (es.reverse.take i) := by rw [← hi0]
  have hbody : (es.reverse[i]).body = .channel ch := by rw [← hb, ← hi0]
  have hir : i < rs.reverse.length := by rw [hr.length_eq]; exact hi
  have hre : resolve decl rs.reverse[i] = some es.reverse[i] := by
    have := (List.forall₂_iff_get.mp hr).2 i hir hi
    simpa using this
  have hdecl : decl = some ch ∧ rs.reverse[i].body.isChannel = true := by
    unfold resolve at hre
    cases hbr : rs.reverse[i].body with
    | die dd => rw [hbr] at hre; simp only [Option.some.injEq] at hre; rw [← hre] at hbody; simp at hbody
    | layer ly => rw [hbr] at hre; simp only [Option.some.injEq] at hre; rw [← hre] at hbody; simp at hbody
    | channel =>
      rw [hbr] at hre
      simp only [Option.map_eq_some_iff] at hre
      obtain ⟨c', h1, h2⟩ := hre
      rw [← h2] at hbody
      simp only [Body.channel.injEq] at hbody
      rw [h1, hbody]; exact ⟨rfl, rfl⟩
  have hch : g.channel = some ch := by
    rw [chModel_of h ⟨_, by simpa using List.getElem_mem hir, hdecl.2⟩, hdecl.1]
  have hmod := h.ok ch hdecl.1
  have hok : ∀ x ∈ es.reverse, nLayersOf x = (blockTypes x.body).length ∧ (blockLayers x.body).length = (blockTypes x.body).length ∧
      (heightsOf x).length = (blockTypes x.body).length := by
    intro x hx
    obtain ⟨r, _, hrx⟩ := mem_forall₂_right hr hx
    obtain ⟨-, -, -, h4, h5, -, h7⟩ := resolve_block h.ok hrx
    have h8 := (spec_lengths h.ok hrx).1
    refine ⟨by rw [h7, h4], ?_, by rw [← h5, ← h4, h8]⟩
    rw [← h4, ← h7]
    cases hbd : x.body <;> simp [blockLayers, nLayersOf, hbd]
  have hlen1 : total (es.reverse.take i) = ((es.reverse.take i).flatMap fun x => blockTypes x.body).length :=
    total_eq_length _ _ fun x hx => (hok x (List.mem_of_mem_take hx)).1.symm
  have hlen2 : total (es.reverse.take i) = ((es.reverse.take i).flatMap fun x => blockLayers x.body).length := by
    rw [hlen1]; exact (flatMap_length_congr _ _ _ fun x hx => (hok x (List.mem_of_mem_take hx)).2.1).symm
  have hlen3 : total (es.reverse.take i) = ((es.reverse.take i).flatMap heightsOf).length := by
    rw [hlen1]; exact (flatMap_length_congr _ _ _ fun x hx => (hok x (List.mem_of_mem_take hx)).2.2).symm
  have hT : stackTypes decl rs = es.reverse.flatMap fun x => blockTypes x.body :=
    flatMap_congr_forall₂ hr fun r x hrx => (resolve_block h.ok hrx).2.2.2.1
  have hL : g.layers = es.reverse.flatMap fun e => blockLayers e.body := by
    have hg := h.fill
    unfold fillGrid at hg
    simp only [Option.bind_eq_some_iff, Option.map_eq_some_iff] at hg
    obtain ⟨ts1, -, ts2, -, hgg⟩ := hg
    have := congrArg TGrid.layers hgg
    simp only [hel, hdim] at this
    rw [← this]
    exact foldl_layers _ _
  have hH : p.dims.heights = es.reverse.flatMap heightsOf := by rw [hdim]
  have hblk : blockTypes (es.reverse[i]).body = chTypes ch.model := by rw [hbody]; rfl
  have hn4 : (chTypes ch.model).length = chLayers ch := by rw [chTypes_length hmod]; rfl
  have key : ∀ (k : Nat) (t : LType), (chTypes ch.model)[k]? = some t → typeAt g (e.offset + k) = t ∧ layerAt g (e.offset + k) = wallLayer ch ∧
      height p.dims (e.offset + k) = ch.height := by
    intro k t hk
    have hkl : k < (chTypes ch.model).length := (List.getElem?_eq_some_iff.mp hk).1
    have hns := chTypes_not_solid (List.mem_of_getElem? hk)
    have e1 : (stackTypes decl rs)[e.offset + k]? = some t := by
      rw [hT, hoff, hlen1, flatMap_getElem? _ _ i hi k (by rw [hblk]; exact hkl), hblk, hk]
    refine ⟨?_, ?_, ?_⟩
    · rcases same_type h e1 with hx | hx
      · exact hx
      · rw [hns] at hx; simp at hx
    · have e2 : g.layers[e.offset + k]? = some (wallLayer ch) := by
        rw [hL, hoff, hlen2, flatMap_getElem? _ _ i hi k (by rw [hbody]; simp [blockLayers]; omega), hbody]
        simp only [blockLayers]
        rw [List.getElem?_replicate, if_pos (by omega)]
      rw [layerAt, List.getD_eq_getElem?_getD, e2]; rfl
    · have hh : heightsOf (es.reverse[i]) = List.replicate (chLayers ch) ch.height := by
        unfold heightsOf; rw [hbody]
      have e3 : p.dims.heights[e.offset + k]? = some ch.height := by
        rw [hH, hoff, hlen3, flatMap_getElem? _ _ i hi k (by rw [hh]; simp; omega), hh,
          List.getElem?_replicate, if_pos (by omega)]
      rw [height_of_get e3]
  refine ⟨hch, ?_, ?_, key⟩
  · by_contra h0
    have h0 : e.offset = 0 := by omega
    have h1 : 0 < (chTypes ch.model).length := by rw [hn4]; unfold chLayers; split <;> omega
    have := (key 0 _ (List.getElem?_eq_getElem h1)).1
    rw [h0] at this
    have hf := wf.first
    rw [show (0 : Nat) = 0 + 0 from rfl, this, chTypes_not_solid (List.getElem_mem h1)] at hf
    cases hf
  · have hle : e.offset + chLayers ch ≤ p.dims.nLayers := by
      have hk1 : chLayers ch - 1 < (chTypes ch.model).length := by rw [hn4]; unfold chLayers; split <;> omega
      have hlt : e.offset + (chLayers ch - 1) < (stackTypes decl rs).length := by
        have := flatMap_getElem? es.reverse (fun x => blockTypes x.body) i hi (chLayers ch - 1) (by rw [hblk]; exact hk1)
        rw [← hT, ← hlen1, ← hoff, hblk, List.getElem?_eq_getElem hk1] at this
        exact (List.getElem?_eq_some_iff.mp this).1
      rw [(C16_layers_match_file h.ok h.parse).1]
      have : 0 < chLayers ch := by unfold chLayers; split <;> omega
      omega
    rcases Nat.lt_or_ge (e.offset + chLayers ch) p.dims.nLayers with hx | hx
    · exact hx
    · exfalso
      have hk1 : chLayers ch - 1 < (chTypes ch.model).length := by rw [hn4]; unfold chLayers; split <;> omega
      have := (key _ _ (List.getElem?_eq_getElem hk1)).1
      have hf := wf.last
      have h0 : 0 < chLayers ch := by unfold chLayers; split <;> omega
      rw [show p.dims.nLayers - 1 = e.offset + (chLayers ch - 1) by omega, this, chTypes_not_solid (List.getElem_mem hk1)] at hf
      cases hf

/-! ## The specification -/

/-- Heat carried per kelvin by the coolant that flows through one column of cells. A microchannel of the 4RM model carries its part
of the flow; a column of cells of the 2RM model the part of the flow of the channels it contains; between pin fins the velocity is
the same everywhere. -/
def stream (ch : Channel K) (d : Dims K) (c : Nat) : K :=
  match ch.model with
  | .mc4rm => ch.coolant.vhc * (ch.coolant.flowRate / ch.nChannels)
  | .mc2rm => ch.coolant.vhc * (ch.coolant.flowRate / ch.nChannels) * (ch.porosity * cellLength d c / ch.length)
  | .pfInline | .pfStag => ch.coolant.vhc * ch.coolant.darcy * (cellLength d c * ch.height)
  | .none => 0

/-- Area of a cell seen from above. -/
def areaZ (d : Dims K) (r c : Nat) : K := cellLength d c * cellWidth d r

/-- Heat transfer coefficients between the coolant and the walls above and below: the declared ones for microchannels, the
correlation of the declared arrangement for pin fins. -/
def htcUp (ch : Channel K) : K :=
  match ch.model with
  | .pfInline => ch.effInline ch.coolant.darcy
  | .pfStag => ch.effStag ch.coolant.darcy
  | _ => ch.coolant.htcTop
def htcDown (ch : Channel K) : K :=
  match ch.model with
  | .pfInline => ch.effInline ch.coolant.darcy
  | .pfStag => ch.effStag ch.coolant.darcy
  | _ => ch.coolant.htcBottom

/-! ## Lemmas -/

theorem conv_stream {ch : Channel K} {d : Dims K} (hch : g.channel = some ch) {l c : Nat} (hh : height d l = ch.height) :
    convective g d l c = stream ch d c / 2 := by
  unfold convective stream
  rw [hch]
  simp only
  cases ch.model <;> simp only <;> (try rw [hh]) <;> (try rw [zero_div])
  all_goals (simp only [div_eq_mul_inv, mul_inv]; ring)

theorem wall_conds {ch : Channel K} {d : Dims K} {l : Nat} (hl : layerAt g l = wallLayer ch) (r c : Nat) :
    condX g d l r c = ch.wallMat.kx ∧ condY g d l r c = ch.wallMat.ky ∧ condZ g d l r c = ch.wallMat.kz ∧
    heatCap g d l r c = ch.wallMat.vhc := by
  unfold condX condY condZ heatCap cellMaterial
  rw [hl]; simp [wallLayer]

theorem width_row (d : Dims K) (hs : Sized d) {r : Nat} (hr : r < d.nRows) : cellWidth d r = d.width := by
  unfold cellWidth
  rw [lastRow_eq hs.rows.1 hs.rows.2, if_neg (by omega)]

/-- A coefficient that is not zero belongs to a neighbour. -/
theorem entry_mem {d : Dims K} (wf : WF g d) (a : Ana K) {u q : Cell} (hu : Valid g d u) (hq : Valid g d q) (hne : u ≠ q)
    (h0 : (fillMatrix g a d).entry (offset d (spreaderOf g) u) (offset d (spreaderOf g) q) ≠ 0) :
    ∃ e ∈ loOf g d q ++ hiOf g d q, e.cell = u := by
  rw [entry_neighbours wf a hu hq hne] at h0
  by_contra hx
  apply h0
  rw [List.filter_eq_nil_iff.mpr]
  · rfl
  · intro e he hu'
    exact hx ⟨e, he, by simpa using hu'⟩

/-- Layer of the coolant: the only one of a 4RM channel, the third of the four layers of the other models. -/
def coolantLayer (e : SElem K φ) (ch : Channel K) : Nat := if ch.model = .mc4rm then e.offset else e.offset + 2

/-- Columns with coolant: every second one for 4RM, all of them otherwise. -/
def Wet (ch : Channel K) (c : Nat) : Prop := ch.model = .mc4rm → c % 2 = 1

/-- Heat capacity of a coolant cell: the whole cell is coolant in the 4RM model, a part of it (the porosity) in the others. -/
def coolantCapacity (ch : Channel K) (d : Dims K) (r c : Nat) : K :=
  if ch.model = .mc4rm then ch.coolant.vhc * (areaZ d r c * ch.height) else ch.coolant.vhc * (ch.porosity * (areaZ d r c * ch.height))

theorem coolant_at (h : BuiltFrom d0 decl rs p g) {e : SElem K φ} (he : e ∈ p.elems) {ch : Channel K} (hb : e.body = .channel ch) :
    coolantLayer e ch < p.dims.nLayers ∧ height p.dims (coolantLayer e ch) = ch.height ∧ layerAt g (coolantLayer e ch) = wallLayer ch ∧
    typeAt g (coolantLayer e ch) = (match ch.model with
      | .mc4rm => LType.ch4rm | .mc2rm => .ch2rm | .pfInline => .pfInline | .pfStag => .pfStag | .none => .none) ∧ ch.model ≠ .none := by
  obtain ⟨h1, h2, h3, h4⟩ := channel_at h he hb
  have hm : ch.model ≠ .none := by
    intro hx
    have wf := wf_of_built h.built
    by_cases hd : decl = some ch
    · exact h.ok ch hd hx
    · obtain ⟨es, n, hf, -, -, -, -, -, hel, hdim, -, -⟩ := parseStack_spec h.parse
      have hr := forall₂_reverse hf
      rw [hel] at he
      obtain ⟨i, hi0⟩ := List.getElem?_of_mem he
      have hi : i < es.reverse.length := by
        rw [← assignOffsets_length 0 es.reverse]; exact (List.getElem?_eq_some_iff.mp hi0).1
      rw [assignOffsets_get _ _ _ hi] at hi0
      simp only [Option.some.injEq, Nat.zero_add] at hi0
      have hbody : (es.reverse[i]).body = .channel ch := by rw [← hb, ← hi0]
      obtain ⟨r, -, hre⟩ := mem_forall₂_right hr (List.getElem_mem hi)
      unfold resolve at hre
      cases hbr : r.body with
      | die dd => rw [hbr] at hre; simp only [Option.some.injEq] at hre; rw [← hre] at hbody; simp at hbody
      | layer ly => rw [hbr] at hre; simp only [Option.some.injEq] at hre; rw [← hre] at hbody; simp at hbody
      | channel =>
        rw [hbr] at hre
        simp only [Option.map_eq_some_iff] at hre
        obtain ⟨c', h1', h2'⟩ := hre
        rw [← h2'] at hbody
        simp only [Body.channel.injEq] at hbody
        exact hd (hbody ▸ h1')
  unfold coolantLayer
  unfold chLayers at h3
  by_cases h4m : ch.model = .mc4rm
  · rw [if_pos h4m] at h3 ⊢
    obtain ⟨t1, t2, t3⟩ := h4 0 .ch4rm (by rw [h4m]; rfl)
    refine ⟨by omega, t3, t2, ?_, hm⟩
    rw [h4m]; exact t1
  · rw [if_neg h4m] at h3 ⊢
    revert h4
    cases hmm : ch.model <;> simp only [hmm] at h4m hm <;> intro h4
    · exact absurd rfl hm
    · exact absurd trivial h4m
    · obtain ⟨t1, t2, t3⟩ := h4 2 .ch2rm rfl; exact ⟨by omega, t3, t2, t1, by simp⟩
    · obtain ⟨t1, t2, t3⟩ := h4 2 .pfInline rfl; exact ⟨by omega, t3, t2, t1, by simp⟩
    · obtain ⟨t1, t2, t3⟩ := h4 2 .pfStag rfl; exact ⟨by omega, t3, t2, t1, by simp⟩

theorem coolant_wet (h : BuiltFrom d0 decl rs p g) {e : SElem K φ} (he : e ∈ p.elems) {ch : Channel K} (hb : e.body = .channel ch)
    {c : Nat} (hw : Wet ch c) : IsCoolant g (coolantLayer e ch) c := by
  obtain ⟨-, -, -, ht, hm⟩ := coolant_at h he hb
  unfold IsCoolant
  rw [ht]
  unfold Wet at hw
  cases hmm : ch.model <;> simp_all

theorem coolant_capacity (h : BuiltFrom d0 decl rs p g) {e : SElem K φ} (he : e ∈ p.elems) {ch : Channel K} (hb : e.body = .channel ch)
    {r c : Nat} (hw : Wet ch c) : capacity g p.dims (coolantLayer e ch) r c = coolantCapacity ch p.dims r c := by
  obtain ⟨-, hh, -, ht, hm⟩ := coolant_at h he hb
  obtain ⟨hch, -⟩ := channel_at h he hb
  unfold capacity coolantCapacity
  rw [ht, hh]
  unfold Wet at hw
  simp only [chan, hch, Option.map_some, Option.getD_some, areaZ]
  cases hmm : ch.model <;> simp only [hmm] at hw hm <;> simp
  · exact absurd rfl hm
  · rw [show isChannelCol c = true from by simp [isChannelCol, hw]]; simp; ring
  all_goals ring

/-! ## The theorems -/

/-- **C57 (coolant)** Along the flow (towards higher rows) a coolant cell is coupled to the next one by half the heat that the stream
carries per kelvin, with opposite signs in the two directions. In the columns of the matrix only the last row of the channel has,
besides the stored heat, a loss: the whole stream; in its rows only the first row has a gain: the whole stream. The stored heat is
that of the volume of coolant in the cell. (Channels of a single row: see C23.) -/
theorem C57_stream (h : BuiltFrom d0 decl rs p g) (hp : Physical g p.dims) (a : Ana K) {e : SElem K φ} (he : e ∈ p.elems)
    {ch : Channel K} (hb : e.body = .channel ch) {r c : Nat} (hr : r < p.dims.nRows) (hc : c < p.dims.nCols) (hw : Wet ch c) :
    (r + 1 < p.dims.nRows →
      (fillMatrix g a p.dims).entry (offInStack p.dims (coolantLayer e ch) (r + 1) c) (offInStack p.dims (coolantLayer e ch) r c) =
        - (stream ch p.dims c / 2) ∧
      (fillMatrix g a p.dims).entry (offInStack p.dims (coolantLayer e ch) r c) (offInStack p.dims (coolantLayer e ch) (r + 1) c) =
        stream ch p.dims c / 2) ∧
    (2 ≤ p.dims.nRows →
      ∑ i ∈ Finset.range p.dims.nCells, (fillMatrix g a p.dims).entry i (offInStack p.dims (coolantLayer e ch) r c) =
        storage a (coolantCapacity ch p.dims r c) + (if r + 1 = p.dims.nRows then stream ch p.dims c else 0) ∧
      ∑ j ∈ Finset.range p.dims.nCells, (fillMatrix g a p.dims).entry (offInStack p.dims (coolantLayer e ch) r c) j =
        storage a (coolantCapacity ch p.dims r c) + (if r = 0 then stream ch p.dims c else 0)) := by
  have wf := wf_of_built h.built
  obtain ⟨hl, hh, -, ht, hm⟩ := coolant_at h he hb
  obtain ⟨hch, -⟩ := channel_at h he hb
  have hco := coolant_wet h he hb hw
  have hcap := coolant_capacity h he hb (r := r) hw
  have hst := conv_stream (g := g) (d := p.dims) hch (c := c) hh
  generalize coolantLayer e ch = l at *
  have hk := (coolant_kind wf hl).mp hco
  have hN : ∀ r, gNorth g p.dims l r c = stream ch p.dims c / 2 ∧ gSouth g p.dims l r c = - (stream ch p.dims c / 2) := fun r => by
    rw [← hst]; exact gNorth_coolant wf hco
  constructor
  · intro hr'
    have hv : Valid g p.dims (.box l r c) := ⟨hl, hr, hc⟩
    have hv' : Valid g p.dims (.box l (r + 1) c) := ⟨hl, hr', hc⟩
    have hlr : r ≠ lastRow p.dims := by rw [wf.lastRow]; omega
    constructor
    · have := entry_of_ent wf hp a hv (e := flow (.box l (r + 1) c) (gSouth g p.dims l r c)) (by
        rcases hk with hk | hk <;> simp [hiOf, hk, liquid4Hi, liquid2Hi, mem_opt, hlr])
      rw [(hN r).2] at this; exact this
    · have := entry_of_ent wf hp a hv' (e := flow (.box l r c) (gNorth g p.dims l (r + 1) c)) (by
        rcases hk with hk | hk <;> simp [loOf, hk, liquid4Lo, liquid2Lo, mem_opt])
      rw [(hN (r + 1)).1] at this; exact this
  · intro h2
    have ham : ambientTerm g p.dims l r c = 0 := by
      unfold ambientTerm
      rcases hco with h | h | h | ⟨h, -⟩ <;> rw [h]
    have hv : Valid g p.dims (.box l r c) := ⟨hl, hr, hc⟩
    constructor
    · have := col_sum wf a hv
      simp only [offset, capOf, hcap, ham, outletG, hco, true_and, hst] at this
      rw [this, if_neg (show ¬ p.dims.nRows = 1 by omega), zero_add]
      congr 1
      by_cases hx : r + 1 = p.dims.nRows
      · rw [if_pos hx, if_pos (by omega)]; ring
      · rw [if_neg hx, if_neg (by omega)]
    · have := row_sum wf hp a hv
      simp only [offset, capOf, hcap, ham, inletG, hco, true_and, hst] at this
      rw [this, if_neg (show ¬ p.dims.nRows = 1 by omega), zero_add]
      congr 1
      by_cases hx : r = 0
      · rw [if_pos hx, if_pos hx]; ring
      · rw [if_neg hx, if_neg hx]

theorem series_self {x : K} (hx : 0 < x) : series x x = x / 2 := by
  unfold series; field_simp; norm_num

theorem half_eq (A : K) (k w : K) : k * A / (w / 2) / 2 = k * A / w := by
  by_cases hw : w = 0
  · simp [hw]
  · field_simp

/-- Area of the side walls of a cell of a channel, seen along x and along y. -/
def areaX (ch : Channel K) (d : Dims K) (r : Nat) : K := cellWidth d r * ch.height
def areaY (ch : Channel K) (d : Dims K) (c : Nat) : K := cellLength d c * ch.height

open Classical in
/-- Conductance of the solid layer under the channel, from the middle of its cell to the channel; `towards` is the half-cell
conductance except in an outermost layer without sink, see C48. -/
noncomputable def fromBelow (g : TGrid K) (d : Dims K) (l r c : Nat) : K := towards g d (l = 0 ∧ ¬ bottomSunk g) l r c
open Classical in
/-- The same for the solid layer over the channel. -/
noncomputable def fromAbove (g : TGrid K) (d : Dims K) (l r c : Nat) : K := towards g d (l = d.nLayers - 1 ∧ ¬ topSunk g d) l r c

open Classical in
/-- **C57 (4RM)** A coolant cell of the 4RM model exchanges heat with the walls at its two sides, with the layer below and with the
layer above, each time through the declared coefficient times the area in series with half the solid cell; and with nothing else. -/
theorem C57_film_4rm (h : BuiltFrom d0 decl rs p g) (hp : Physical g p.dims) (a : Ana K) {e : SElem K φ} (he : e ∈ p.elems)
    {ch : Channel K} (hb : e.body = .channel ch) (hm : ch.model = .mc4rm) {r c : Nat} (hr : r < p.dims.nRows) (hc : c < p.dims.nCols)
    (hodd : c % 2 = 1) :
    (∀ c', (c' = c + 1 ∨ c' + 1 = c) → c' < p.dims.nCols →
      (fillMatrix g a p.dims).entry (offInStack p.dims e.offset r c') (offInStack p.dims e.offset r c) =
        - series (ch.coolant.htcSide * areaX ch p.dims r) (ch.wallMat.kx * areaX ch p.dims r / (cellLength p.dims c' / 2))) ∧
    (solidish (typeAt g (e.offset - 1)) = true →
      (fillMatrix g a p.dims).entry (offInStack p.dims (e.offset - 1) r c) (offInStack p.dims e.offset r c) =
        - series (ch.coolant.htcBottom * areaZ p.dims r c) (fromBelow g p.dims (e.offset - 1) r c)) ∧
    (solidish (typeAt g (e.offset + 1)) = true →
      (fillMatrix g a p.dims).entry (offInStack p.dims (e.offset + 1) r c) (offInStack p.dims e.offset r c) =
        - series (ch.coolant.htcTop * areaZ p.dims r c) (fromAbove g p.dims (e.offset + 1) r c)) ∧
    (∀ l' r' c', l' < p.dims.nLayers → r' < p.dims.nRows → c' < p.dims.nCols →
      (fillMatrix g a p.dims).entry (offInStack p.dims l' r' c') (offInStack p.dims e.offset r c) ≠ 0 →
      (l' = e.offset ∧ r' = r ∧ (c' = c ∨ c' = c + 1 ∨ c' + 1 = c)) ∨
      (c' = c ∧ r' = r ∧ (l' = e.offset + 1 ∨ l' + 1 = e.offset)) ∨ (l' = e.offset ∧ c' = c ∧ (r' = r + 1 ∨ r' + 1 = r))) := by
  have wf := wf_of_built h.built
  obtain ⟨hch, h0, hlast, hat⟩ := channel_at h he hb
  obtain ⟨ht, hly, hh⟩ := hat 0 .ch4rm (by rw [hm]; rfl)
  rw [Nat.add_zero] at ht hly hh
  simp only [chLayers, hm, if_true] at hlast
  have hco := hp.chn ch hch
  simp only [CoolantOk, hm] at hco
  obtain ⟨p4, p5, p12, p1, p2, p3⟩ := hco
  generalize e.offset = l at *
  have hl : l < p.dims.nLayers := by omega
  have h1 := len_pos wf hp hc
  have h2 := wid_pos wf hp hr
  have h3 : 0 < ch.height := by rw [← hh]; exact height_pos wf hp hl
  have hcol : isChannelCol c = true := by simp [isChannelCol, hodd]
  have hk : kindOf (typeAt g l) c = .liquid4 := by rw [ht]; simp [kindOf, hcol]
  have hv : Valid g p.dims (.box l r c) := ⟨hl, hr, hc⟩
  have hX : 0 < areaX ch p.dims r := mul_pos h2 h3
  have hZ : 0 < areaZ p.dims r c := mul_pos h1 h2
  have hkx : 0 < ch.wallMat.kx := by have := condX_pos wf hp hl r c; rw [(wall_conds hly r c).1] at this; exact this
  have gside : gEast g p.dims l r c = ch.coolant.htcSide * areaX ch p.dims r ∧ gWest g p.dims l r c = ch.coolant.htcSide * areaX ch p.dims r := by
    unfold gEast gWest areaX
    rw [ht]; simp only [hcol, if_true, chan, hch, Option.map_some, Option.getD_some, hh]
    exact ⟨by ring, by ring⟩
  refine ⟨?_, ?_, ?_, ?_⟩
  · intro c' hc' hcn
    have hev : isChannelCol c' = false := by unfold isChannelCol; simp; omega
    have hlc := len_pos wf hp hcn
    have gw : gEast g p.dims l r c' = ch.wallMat.kx * areaX ch p.dims r / (cellLength p.dims c' / 2) ∧
        gWest g p.dims l r c' = ch.wallMat.kx * areaX ch p.dims r / (cellLength p.dims c' / 2) := by
      unfold gEast gWest areaX
      rw [ht]; simp only [hev, (wall_conds hly r c').1, hh, Bool.false_eq_true, if_false]
      exact ⟨by ring, by ring⟩
    rw [← par_series (by positivity) (by positivity)]
    rcases hc' with rfl | rfl
    · have := entry_of_ent wf hp a hv (e := link (.box l r (c + 1)) (par (gEast g p.dims l r c) (gWest g p.dims l r (c + 1)))) (by
        have : c ≠ lastColumn p.dims := by rw [wf.lastColumn]; omega
        simp [hiOf, hk, liquid4Hi, mem_opt, this])
      rw [gside.1, gw.2] at this; exact this
    · have := entry_of_ent wf hp a hv (e := link (.box l r c') (par (gWest g p.dims l r (c' + 1)) (gEast g p.dims l r c'))) (by
        simp [loOf, hk, liquid4Lo, mem_opt])
      rw [gside.2, gw.1] at this; exact this
  · intro hs
    obtain ⟨l, rfl⟩ : ∃ m, l = m + 1 := ⟨l - 1, by omega⟩
    rw [Nat.add_sub_cancel] at hs ⊢
    have gb : gBottom g p.dims (l + 1) r c = ch.coolant.htcBottom * areaZ p.dims r c := by
      unfold gBottom areaZ; rw [ht]; simp only [hcol, if_true, chan, hch, Option.map_some, Option.getD_some]; ring
    have up := up_pos wf hp (l := l) (by omega) hr hc (Or.inl (kind_of_solid hs c))
    have := entry_of_ent wf hp a hv (e := link (.box l r c) (par (gBottom g p.dims (l + 1) r c) (gTop g p.dims l r c))) (by
      simp [loOf, hk, liquid4Lo, mem_opt])
    rw [par_series (by rw [gb]; positivity) up, gb, top_towards wf (by omega) hs] at this
    exact this
  · intro hs
    have gt : gTop g p.dims l r c = ch.coolant.htcTop * areaZ p.dims r c := by
      unfold gTop areaZ; rw [ht]; simp only [hcol, if_true, chan, hch, Option.map_some, Option.getD_some]; ring
    have dn := down_pos wf hp (l := l) (by omega) hr hc (Or.inl (kind_of_solid hs c))
    have := entry_of_ent wf hp a hv (e := link (.box (l + 1) r c) (par (gTop g p.dims l r c) (gBottom g p.dims (l + 1) r c))) (by
      have : l ≠ lastLayer p.dims := by rw [wf.lastLayer]; omega
      simp [hiOf, hk, liquid4Hi, mem_opt, this])
    rw [par_series (by rw [gt]; positivity) dn, gt, bottom_towards wf (by omega) hs] at this
    exact this
  · intro l' r' c' hl' hr' hc' hne
    by_cases hx : (Cell.box l' r' c') = .box l r c
    · simp at hx; exact Or.inl ⟨hx.1, hx.2.1, Or.inl hx.2.2⟩
    · obtain ⟨x, hx1, hx2⟩ := entry_mem wf a (u := .box l' r' c') ⟨hl', hr', hc'⟩ hv hx hne
      rw [List.mem_append] at hx1
      simp only [loOf, hiOf, hk, liquid4Lo, liquid4Hi, List.mem_append, mem_opt] at hx1
      rcases hx1 with ((⟨hq, rfl⟩ | ⟨hq, rfl⟩) | ⟨hq, rfl⟩) | ((⟨hq, rfl⟩ | ⟨hq, rfl⟩) | ⟨hq, rfl⟩) <;>
        simp only [link, flow, Cell.box.injEq] at hx2 <;> omega

/-- **C57 (4RM walls)** A wall between two channels of the 4RM model is a piece of the wall material: heat capacity of its volume,
conduction along the channel, and conduction to the layers below and above in series with them. -/
theorem C57_wall_4rm (h : BuiltFrom d0 decl rs p g) (hp : Physical g p.dims) (a : Ana K) {e : SElem K φ} (he : e ∈ p.elems)
    {ch : Channel K} (hb : e.body = .channel ch) (hm : ch.model = .mc4rm) {r c : Nat} (hr : r < p.dims.nRows) (hc : c < p.dims.nCols)
    (heven : c % 2 = 0) :
    (r + 1 < p.dims.nRows → (fillMatrix g a p.dims).entry (offInStack p.dims e.offset (r + 1) c) (offInStack p.dims e.offset r c) =
        - (ch.wallMat.ky * areaY ch p.dims c / p.dims.width)) ∧
    (solidish (typeAt g (e.offset - 1)) = true →
      (fillMatrix g a p.dims).entry (offInStack p.dims (e.offset - 1) r c) (offInStack p.dims e.offset r c) =
        - series (ch.wallMat.kz * areaZ p.dims r c / (ch.height / 2)) (fromBelow g p.dims (e.offset - 1) r c)) ∧
    (solidish (typeAt g (e.offset + 1)) = true →
      (fillMatrix g a p.dims).entry (offInStack p.dims (e.offset + 1) r c) (offInStack p.dims e.offset r c) =
        - series (ch.wallMat.kz * areaZ p.dims r c / (ch.height / 2)) (fromAbove g p.dims (e.offset + 1) r c)) ∧
    ∑ i ∈ Finset.range p.dims.nCells, (fillMatrix g a p.dims).entry i (offInStack p.dims e.offset r c) =
      storage a (ch.wallMat.vhc * (areaZ p.dims r c * ch.height)) := by
  have wf := wf_of_built h.built
  obtain ⟨hch, h0, hlast, hat⟩ := channel_at h he hb
  obtain ⟨ht, hly, hh⟩ := hat 0 .ch4rm (by rw [hm]; rfl)
  rw [Nat.add_zero] at ht hly hh
  simp only [chLayers, hm, if_true] at hlast
  generalize e.offset = l at *
  have hl : l < p.dims.nLayers := by omega
  have h1 := len_pos wf hp hc
  have h2 := wid_pos wf hp hr
  have h3 : 0 < ch.height := by rw [← hh]; exact height_pos wf hp hl
  have hcol : isChannelCol c = false := by simp [isChannelCol, heven]
  have hk : kindOf (typeAt g l) c = .solid := by rw [ht]; simp [kindOf, hcol]
  have hv : Valid g p.dims (.box l r c) := ⟨hl, hr, hc⟩
  have hZ : 0 < areaZ p.dims r c := mul_pos h1 h2
  have hY : 0 < areaY ch p.dims c := mul_pos h1 h3
  have hky : 0 < ch.wallMat.ky := by have := condY_pos wf hp hl r c; rw [(wall_conds hly r c).2.1] at this; exact this
  have hkz : 0 < ch.wallMat.kz := by have := condZ_pos wf hp hl r c; rw [(wall_conds hly r c).2.2.1] at this; exact this
  refine ⟨?_, ?_, ?_, ?_⟩
  · intro hr'
    have hw : 0 < p.dims.width := hp.wid
    have gn : ∀ r, r < p.dims.nRows → gNorth g p.dims l r c = ch.wallMat.ky * areaY ch p.dims c / (p.dims.width / 2) ∧
        gSouth g p.dims l r c = ch.wallMat.ky * areaY ch p.dims c / (p.dims.width / 2) := by
      intro r hr
      unfold gNorth gSouth areaY
      rw [ht]; simp only [hcol, (wall_conds hly r c).2.1, hh, Bool.false_eq_true, if_false, width_row _ wf.sized hr]
      exact ⟨by ring, by ring⟩
    have := entry_of_ent wf hp a hv (e := link (.box l (r + 1) c) (par (gNorth g p.dims l r c) (gSouth g p.dims l (r + 1) c))) (by
      have : r ≠ lastRow p.dims := by rw [wf.lastRow]; omega
      simp [hiOf, hk, solidHi, mem_opt, this])
    rw [(gn r hr).1, (gn (r + 1) hr').2, par_series (by positivity) (by positivity), series_self (by positivity), half_eq] at this
    exact this
  · intro hs
    obtain ⟨l, rfl⟩ : ∃ m, l = m + 1 := ⟨l - 1, by omega⟩
    rw [Nat.add_sub_cancel] at hs ⊢
    have gb : gBottom g p.dims (l + 1) r c = ch.wallMat.kz * areaZ p.dims r c / (ch.height / 2) := by
      unfold gBottom areaZ; rw [ht]; simp only [hcol, (wall_conds hly r c).2.2.1, hh, Bool.false_eq_true, if_false]; ring
    have up := up_pos wf hp (l := l) (by omega) hr hc (Or.inl (kind_of_solid hs c))
    have := entry_of_ent wf hp a hv (e := link (.box l r c) (solidBottom g p.dims (l + 1) r c)) (by
      simp [loOf, hk, solidLo, mem_opt])
    rw [(vertical_eq wf hp (by omega) hr hc (Or.inl (kind_of_solid hs c)) (Or.inl hk)).2, par_comm,
      par_series (by rw [gb]; positivity) up, gb, top_towards wf (by omega) hs] at this
    exact this
  · intro hs
    have gt : gTop g p.dims l r c = ch.wallMat.kz * areaZ p.dims r c / (ch.height / 2) := by
      unfold gTop areaZ; rw [ht]; simp only [hcol, (wall_conds hly r c).2.2.1, hh, Bool.false_eq_true, if_false]; ring
    have dn := down_pos wf hp (l := l) (by omega) hr hc (Or.inl (kind_of_solid hs c))
    have := entry_of_ent wf hp a hv (e := link (.box (l + 1) r c) (solidTop g p.dims l r c)) (by
      have : l ≠ lastLayer p.dims := by rw [wf.lastLayer]; omega
      simp [hiOf, hk, solidHi, mem_opt, this])
    rw [(vertical_eq wf hp (by omega) hr hc (Or.inl hk) (Or.inl (kind_of_solid hs c))).1,
      par_series (by rw [gt]; positivity) dn, gt, bottom_towards wf (by omega) hs] at this
    exact this
  · have := col_sum wf a hv
    have hco : ¬ IsCoolant g l c := by unfold IsCoolant; rw [ht]; simp; omega
    have ham : ambientTerm g p.dims l r c = 0 := by unfold ambientTerm; rw [ht]
    have hcap : capacity g p.dims l r c = ch.wallMat.vhc * (areaZ p.dims r c * ch.height) := by
      unfold capacity areaZ; rw [ht]; simp only [hcol, (wall_conds hly r c).2.2.2, hh, Bool.false_eq_true, if_false]; ring
    simp only [offset, capOf, hcap, ham, outletG, hco, false_and, if_false, add_zero] at this
    exact this

/-- **C57 (2RM and pin fins)** The four layers of a channel of the other models. Coolant: declared coefficient (or pin fin
correlation) times area, to the wall below and to the wall above. Virtual wall: solid part of the layer (one minus the porosity),
half a height of wall material to the wall below and to the wall above; along the channel in the 2RM model only. Bottom and top
wall: no thickness of their own; coupled to the solid layer below (above) by the conductance of that layer alone. -/
theorem C57_film_2rm (h : BuiltFrom d0 decl rs p g) (hp : Physical g p.dims) (a : Ana K) {e : SElem K φ} (he : e ∈ p.elems)
    {ch : Channel K} (hb : e.body = .channel ch) (hm : ch.model ≠ .mc4rm) {r c : Nat} (hr : r < p.dims.nRows) (hc : c < p.dims.nCols) :
    (fillMatrix g a p.dims).entry (offInStack p.dims e.offset r c) (offInStack p.dims (e.offset + 2) r c) =
      - (htcDown ch * areaZ p.dims r c) ∧
    (fillMatrix g a p.dims).entry (offInStack p.dims (e.offset + 3) r c) (offInStack p.dims (e.offset + 2) r c) =
      - (htcUp ch * areaZ p.dims r c) ∧
    (fillMatrix g a p.dims).entry (offInStack p.dims e.offset r c) (offInStack p.dims (e.offset + 1) r c) =
      - ((1 - ch.porosity) * (ch.wallMat.kz * areaZ p.dims r c / (ch.height / 2))) ∧
    (fillMatrix g a p.dims).entry (offInStack p.dims (e.offset + 3) r c) (offInStack p.dims (e.offset + 1) r c) =
      - ((1 - ch.porosity) * (ch.wallMat.kz * areaZ p.dims r c / (ch.height / 2))) ∧
    (r + 1 < p.dims.nRows →
      (fillMatrix g a p.dims).entry (offInStack p.dims (e.offset + 1) (r + 1) c) (offInStack p.dims (e.offset + 1) r c) =
        - (if ch.model = .mc2rm then (1 - ch.porosity) * (ch.wallMat.ky * areaY ch p.dims c / p.dims.width) else 0)) ∧
    (solidish (typeAt g (e.offset - 1)) = true →
      (fillMatrix g a p.dims).entry (offInStack p.dims (e.offset - 1) r c) (offInStack p.dims e.offset r c) =
        - fromBelow g p.dims (e.offset - 1) r c) ∧
    (solidish (typeAt g (e.offset + 4)) = true →
      (fillMatrix g a p.dims).entry (offInStack p.dims (e.offset + 4) r c) (offInStack p.dims (e.offset + 3) r c) =
        - fromAbove g p.dims (e.offset + 4) r c) := by
  have wf := wf_of_built h.built
  obtain ⟨hch, h0, hlast, hat⟩ := channel_at h he hb
  have hnn := (coolant_at h he hb).2.2.2.2
  simp only [chLayers, hm, if_false] at hlast
  have hco := hp.chn ch hch
  have p8 : ch.porosity < 1 := by
    cases hmm : ch.model <;> simp only [CoolantOk, hmm] at hm hnn hco
    · exact absurd rfl hnn
    · exact absurd rfl hm
    · exact hco.2.2.2.2.2.2.2
    all_goals exact hco.2.2.2.2
  generalize e.offset = l at *
  have ⟨tb, tv, tc, tt⟩ : typeAt g l = .bottomWall ∧ (typeAt g (l + 1) = if ch.model = .mc2rm then .vwallCh else .vwallPf) ∧
      (typeAt g (l + 2) = match ch.model with | .mc2rm => LType.ch2rm | .pfInline => .pfInline | .pfStag => .pfStag | _ => .none) ∧
      typeAt g (l + 3) = .topWall := by
    cases hmm : ch.model <;> simp only [hmm] at hm hnn hat
    · exact absurd rfl hnn
    · exact absurd rfl hm
    all_goals exact ⟨(hat 0 _ rfl).1, (hat 1 _ rfl).1, (hat 2 _ rfl).1, (hat 3 _ rfl).1⟩
  have ⟨hly1, hh1⟩ : layerAt g (l + 1) = wallLayer ch ∧ height p.dims (l + 1) = ch.height := by
    cases hmm : ch.model <;> simp only [hmm] at hm hnn hat
    · exact absurd rfl hnn
    · exact absurd rfl hm
    all_goals exact (hat 1 _ rfl).2
  have kb : kindOf (typeAt g l) c = .bottom := by rw [tb]; rfl
  have kt : kindOf (typeAt g (l + 3)) c = .top := by rw [tt]; rfl
  have kv : kindOf (typeAt g (l + 1)) c = .vwall := by rw [tv]; split <;> rfl
  have kc : kindOf (typeAt g (l + 2)) c = .liquid2 := by
    rw [tc]
    cases hmm : ch.model <;> simp only [hmm] at hm hnn <;> simp [kindOf]
    · exact absurd rfl hnn
    · exact absurd rfl hm
  have hla := wf.lastLayer
  have vb : Valid g p.dims (.box l r c) := ⟨by omega, hr, hc⟩
  have vv : Valid g p.dims (.box (l + 1) r c) := ⟨by omega, hr, hc⟩
  have vc : Valid g p.dims (.box (l + 2) r c) := ⟨by omega, hr, hc⟩
  have vt : Valid g p.dims (.box (l + 3) r c) := ⟨by omega, hr, hc⟩
  have gc : gBottom g p.dims (l + 2) r c = htcDown ch * areaZ p.dims r c ∧ gTop g p.dims (l + 2) r c = htcUp ch * areaZ p.dims r c := by
    unfold gBottom gTop htcDown htcUp areaZ
    rw [tc]
    cases hmm : ch.model <;> simp only [hmm] at hm hnn <;> simp only [chan, hch, Option.map_some, Option.getD_some]
    · exact absurd rfl hnn
    · exact absurd rfl hm
    all_goals exact ⟨by ring, by ring⟩
  have gv : gBottom g p.dims (l + 1) r c = (1 - ch.porosity) * (ch.wallMat.kz * areaZ p.dims r c / (ch.height / 2)) ∧
      gTop g p.dims (l + 1) r c = (1 - ch.porosity) * (ch.wallMat.kz * areaZ p.dims r c / (ch.height / 2)) := by
    unfold gBottom gTop areaZ
    by_cases h2m : ch.model = .mc2rm
    · rw [tv, if_pos h2m]
      simp only [(wall_conds hly1 r c).2.2.1, hh1, chan, hch, Option.map_some, Option.getD_some]; exact ⟨by ring, by ring⟩
    · rw [tv, if_neg h2m]
      simp only [(wall_conds hly1 r c).2.2.1, hh1, chan, hch, Option.map_some, Option.getD_some]; exact ⟨by ring, by ring⟩
  refine ⟨?_, ?_, ?_, ?_, ?_, ?_, ?_⟩
  · have := entry_of_ent wf hp a vc (e := link (.box l r c) (gBottom g p.dims (l + 2) r c)) (by
      simp [loOf, kc, liquid2Lo, mem_opt])
    rw [gc.1] at this; exact this
  · have := entry_of_ent wf hp a vc (e := link (.box (l + 3) r c) (gTop g p.dims (l + 2) r c)) (by
      have : l + 2 ≠ lastLayer p.dims := by omega
      simp [hiOf, kc, liquid2Hi, mem_opt, this])
    rw [gc.2] at this; exact this
  · have := entry_of_ent wf hp a vv (e := link (.box l r c) (gBottom g p.dims (l + 1) r c)) (by
      simp [loOf, kv, vwallLo, mem_opt])
    rw [gv.1] at this; exact this
  · have := entry_of_ent wf hp a vv (e := link (.box (l + 3) r c) (gTop g p.dims (l + 1) r c)) (by
      have : l + 1 ≠ lastLayer p.dims := by omega
      simp [hiOf, kv, vwallHi, mem_opt, this])
    rw [gv.2] at this; exact this
  · intro hr'
    have hcm : chModel g = ch.model := by simp [chModel, hch]
    have hlr : r ≠ lastRow p.dims := by rw [wf.lastRow]; omega
    by_cases h2m : ch.model = .mc2rm
    · rw [if_pos h2m]
      rw [if_pos h2m] at tv
      have h1 := len_pos wf hp hc
      have hw : 0 < p.dims.width := hp.wid
      have h3 : 0 < ch.height := by rw [← hh1]; exact height_pos wf hp (by omega)
      have hky : 0 < ch.wallMat.ky := by
        have := condY_pos wf hp (show l + 1 < p.dims.nLayers by omega) r c; rw [(wall_conds hly1 r c).2.1] at this; exact this
      have hpo : 0 < 1 - ch.porosity := by linarith
      have hY : 0 < areaY ch p.dims c := mul_pos h1 h3
      have gn : gNorth g p.dims (l + 1) r c = (1 - ch.porosity) * (ch.wallMat.ky * areaY ch p.dims c / (p.dims.width / 2)) ∧
          gSouth g p.dims (l + 1) r c = (1 - ch.porosity) * (ch.wallMat.ky * areaY ch p.dims c / (p.dims.width / 2)) := by
        unfold gNorth gSouth areaY
        rw [tv]; simp only [(wall_conds hly1 r c).2.1, hh1, width_row _ wf.sized hr, chan, hch, Option.map_some, Option.getD_some]
        exact ⟨by ring, by ring⟩
      have := entry_of_ent wf hp a vv (e := link (.box (l + 1) (r + 1) c) (par (gNorth g p.dims (l + 1) r c) (gSouth g p.dims (l + 1) r c))) (by
        simp [hiOf, kv, vwallHi, mem_opt, hlr, hcm, h2m])
      rw [gn.1, gn.2, par_series (by positivity) (by positivity), series_self (by positivity), mul_div_assoc, half_eq] at this
      exact this
    · rw [if_neg h2m, neg_zero]
      by_contra hne
      obtain ⟨x, hx1, hx2⟩ := entry_mem wf a (u := .box (l + 1) (r + 1) c) ⟨by omega, hr', hc⟩ vv (by simp) hne
      simp only [loOf, hiOf, kv, vwallLo, vwallHi, List.mem_append, mem_opt, hcm, h2m, false_and, or_false, false_or] at hx1
      rcases hx1 with ⟨-, rfl⟩ | ⟨-, rfl⟩ <;> simp [link] at hx2
  · intro hs
    obtain ⟨l, rfl⟩ : ∃ m, l = m + 1 := ⟨l - 1, by omega⟩
    rw [Nat.add_sub_cancel] at hs ⊢
    have := entry_of_ent wf hp a vb (e := link (.box l r c) (gTop g p.dims l r c)) (by
      simp [loOf, kb, bottomWallLo, mem_opt])
    rw [top_towards wf (by omega) hs] at this
    exact this
  · intro hs
    have := entry_of_ent wf hp a vt (e := link (.box (l + 4) r c) (gBottom g p.dims (l + 4) r c)) (by
      have : l + 3 ≠ lastLayer p.dims := by omega
      simp [hiOf, kt, topWallHi, mem_opt, this])
    rw [bottom_towards wf (l := l + 3) (by omega) hs] at this
    exact this

/-- **C57 (2RM and pin fins, stored heat and absent couplings)** The solid part of the layer stores the heat of its volume, the bottom
and top walls store none; the columns of these layers sum to the stored heat, so they lose nothing; no cell of the four layers is coupled to
a cell of another column. -/
theorem C57_walls_2rm (h : BuiltFrom d0 decl rs p g) (hp : Physical g p.dims) (a : Ana K) {e : SElem K φ} (he : e ∈ p.elems)
    {ch : Channel K} (hb : e.body = .channel ch) (hm : ch.model ≠ .mc4rm) {r c : Nat} (hr : r < p.dims.nRows) (hc : c < p.dims.nCols) :
    ∑ i ∈ Finset.range p.dims.nCells, (fillMatrix g a p.dims).entry i (offInStack p.dims e.offset r c) = 0 ∧
    ∑ i ∈ Finset.range p.dims.nCells, (fillMatrix g a p.dims).entry i (offInStack p.dims (e.offset + 1) r c) =
      storage a (ch.wallMat.vhc * ((1 - ch.porosity) * (areaZ p.dims r c * ch.height))) ∧
    ∑ i ∈ Finset.range p.dims.nCells, (fillMatrix g a p.dims).entry i (offInStack p.dims (e.offset + 3) r c) = 0 ∧
    (∀ k l' r' c', k < 4 → l' < p.dims.nLayers → r' < p.dims.nRows → c' < p.dims.nCols → c' ≠ c →
      (fillMatrix g a p.dims).entry (offInStack p.dims l' r' c') (offInStack p.dims (e.offset + k) r c) = 0) := by
  have wf := wf_of_built h.built
  obtain ⟨hch, h0, hlast, hat⟩ := channel_at h he hb
  have hnn := (coolant_at h he hb).2.2.2.2
  simp only [chLayers, hm, if_false] at hlast
  generalize e.offset = l at *
  have ⟨tb, tv, tc, tt⟩ : typeAt g l = .bottomWall ∧ (typeAt g (l + 1) = if ch.model = .mc2rm then .vwallCh else .vwallPf) ∧
      (typeAt g (l + 2) = match ch.model with | .mc2rm => LType.ch2rm | .pfInline => .pfInline | .pfStag => .pfStag | _ => .none) ∧
      typeAt g (l + 3) = .topWall := by
    cases hmm : ch.model <;> simp only [hmm] at hm hnn hat
    · exact absurd rfl hnn
    · exact absurd rfl hm
    all_goals exact ⟨(hat 0 _ rfl).1, (hat 1 _ rfl).1, (hat 2 _ rfl).1, (hat 3 _ rfl).1⟩
  have ⟨hly1, hh1⟩ : layerAt g (l + 1) = wallLayer ch ∧ height p.dims (l + 1) = ch.height := by
    cases hmm : ch.model <;> simp only [hmm] at hm hnn hat
    · exact absurd rfl hnn
    · exact absurd rfl hm
    all_goals exact (hat 1 _ rfl).2
  have kb : kindOf (typeAt g l) c = .bottom := by rw [tb]; rfl
  have kt : kindOf (typeAt g (l + 3)) c = .top := by rw [tt]; rfl
  have kv : kindOf (typeAt g (l + 1)) c = .vwall := by rw [tv]; split <;> rfl
  have kc : kindOf (typeAt g (l + 2)) c = .liquid2 := by
    rw [tc]
    cases hmm : ch.model <;> simp only [hmm] at hm hnn <;> simp [kindOf]
    · exact absurd rfl hnn
    · exact absurd rfl hm
  have hs0 : storage a (0 : K) = 0 := by unfold storage; split <;> simp
  have col : ∀ k, k < 4 → k ≠ 2 → ∑ i ∈ Finset.range p.dims.nCells, (fillMatrix g a p.dims).entry i (offInStack p.dims (l + k) r c) =
      storage a (capacity g p.dims (l + k) r c) := by
    intro k hk hk2
    have hcol := col_sum wf a (show Valid g p.dims (.box (l + k) r c) from ⟨by omega, hr, hc⟩)
    have ht : typeAt g (l + k) = .bottomWall ∨ typeAt g (l + k) = .topWall ∨ typeAt g (l + k) = .vwallCh ∨ typeAt g (l + k) = .vwallPf := by
      have : k = 0 ∨ k = 1 ∨ k = 3 := by omega
      rcases this with rfl | rfl | rfl
      · exact Or.inl tb
      · rw [tv]; split <;> simp
      · exact Or.inr (Or.inl tt)
    have hco : ¬ IsCoolant g (l + k) c := by unfold IsCoolant; rcases ht with ht | ht | ht | ht <;> rw [ht] <;> simp
    have ham : ambientTerm g p.dims (l + k) r c = 0 := by unfold ambientTerm; rcases ht with ht | ht | ht | ht <;> rw [ht]
    simp only [offset, capOf, ham, outletG, hco, false_and, if_false, add_zero] at hcol
    exact hcol
  refine ⟨?_, ?_, ?_, ?_⟩
  · have := col 0 (by omega) (by omega)
    rw [Nat.add_zero] at this
    rw [this, show capacity g p.dims l r c = 0 by unfold capacity; rw [tb], hs0]
  · rw [col 1 (by omega) (by omega)]
    congr 1
    unfold capacity areaZ
    by_cases h2m : ch.model = .mc2rm
    · rw [tv, if_pos h2m]
      simp only [(wall_conds hly1 r c).2.2.2, hh1, chan, hch, Option.map_some, Option.getD_some]; ring
    · rw [tv, if_neg h2m]
      simp only [(wall_conds hly1 r c).2.2.2, hh1, chan, hch, Option.map_some, Option.getD_some]; ring
  · rw [col 3 (by omega) (by omega), show capacity g p.dims (l + 3) r c = 0 by unfold capacity; rw [tt], hs0]
  · intro k l' r' c' hk hl' hr' hc' hne
    by_contra hx
    obtain ⟨x, hx1, hx2⟩ := entry_mem wf a (u := .box l' r' c') (q := .box (l + k) r c) ⟨hl', hr', hc'⟩ ⟨by omega, hr, hc⟩
      (by simp; intro _ _; exact hne) hx
    have : k = 0 ∨ k = 1 ∨ k = 2 ∨ k = 3 := by omega
    rcases this with rfl | rfl | rfl | rfl
    · simp only [Nat.add_zero, loOf, hiOf, kb, bottomWallLo, bottomWallHi, List.mem_append, mem_opt] at hx1
      rcases hx1 with ⟨-, rfl⟩ | ⟨-, rfl⟩ | ⟨-, rfl⟩ <;> simp only [link, flow, Cell.box.injEq] at hx2 <;> omega
    · simp only [loOf, hiOf, kv, vwallLo, vwallHi, List.mem_append, mem_opt] at hx1
      rcases hx1 with (⟨-, rfl⟩ | ⟨-, rfl⟩) | ⟨-, rfl⟩ | ⟨-, rfl⟩ <;> simp only [link, flow, Cell.box.injEq] at hx2 <;> omega
    · simp only [loOf, hiOf, kc, liquid2Lo, liquid2Hi, List.mem_append, mem_opt] at hx1
      rcases hx1 with (⟨-, rfl⟩ | ⟨-, rfl⟩) | ⟨-, rfl⟩ | ⟨-, rfl⟩ <;> simp only [link, flow, Cell.box.injEq] at hx2 <;> omega
    · simp only [loOf, hiOf, kt, topWallLo, topWallHi, List.mem_append, mem_opt] at hx1
      rcases hx1 with (⟨-, rfl⟩ | ⟨-, rfl⟩) | ⟨-, rfl⟩ <;> simp only [link, flow, Cell.box.injEq] at hx2 <;> omega

end

/-! ## C48, heat spreader -/

/-- **C48 (spreader)** The heat spreader is a plate of its material cut in equal cells: side neighbours are coupled by the conduction
between their centres, a cell over the chip to the cell of the top layer below it by the series of half the spreader and of that
cell (which, in a stack of one layer, counts with its whole height: the same flaw as `C48_outermost_layer_violated`), and every
cell stores the heat of its volume. -/
theorem C48_spreader_series {g : TGrid K} {d : Dims K} (hb : Built φ g d) (hp : Physical g d) (a : Ana K) {s : Spreader K}
    {m : Material K} (ht : g.top = some (.pluggable s m)) {r c : Nat} (hr : r < s.nRows) (hc : c < s.nCols) :
    (c + 1 < s.nCols → (fillMatrix g a d).entry (spreaderOffset d s r (c + 1)) (spreaderOffset d s r c) =
      - (m.kx * (s.height * s.cellWidth) / s.cellLength)) ∧
    (r + 1 < s.nRows → (fillMatrix g a d).entry (spreaderOffset d s (r + 1) c) (spreaderOffset d s r c) =
      - (m.ky * (s.height * s.cellLength) / s.cellWidth)) ∧
    (∑ i ∈ Finset.range d.nCells, (fillMatrix g a d).entry i (spreaderOffset d s r c) =
      storage a (m.vhc * (s.cellLength * s.cellWidth * s.height))) ∧
    (∀ r' c', r' < d.nRows → c' < d.nCols →
      (fillMatrix g a d).entry (spreaderOffset d s (r' + s.rowsBorder) (c' + s.colsBorder)) (offInStack d (d.nLayers - 1) r' c') =
        - series (m.kz * (s.cellLength * s.cellWidth) / (s.height / 2))
          (if d.nLayers = 1 then halfZ g d (d.nLayers - 1) r' c' / 2 else halfZ g d (d.nLayers - 1) r' c')) := by
  have wf := wf_of_built hb
  have hso : spreaderOf g = some s := by simp [spreaderOf, ht]
  obtain ⟨q1, q2, q3, q4, q5, q6, q7⟩ := hp.spr s m ht
  have hv : Valid g d (.spr r c) := ⟨s, m, ht, hr, hc⟩
  have hgeo := wf.geo s hso
  have hoff : ∀ r c, offset d (spreaderOf g) (.spr r c) = spreaderOffset d s r c := fun r c => by rw [hso]; rfl
  obtain ⟨hRW, hCW⟩ : s.nRows < W ∧ s.nCols < W := by
    obtain ⟨-, hmx, hsp⟩ := accepted_bound wf.acc
    rw [hso] at hsp
    simp only [spreaderCells] at hsp
    have h1 : s.nRows ≤ s.nRows * s.nCols := Nat.le_mul_of_pos_right _ (by omega)
    have h2 : s.nCols ≤ s.nRows * s.nCols := Nat.le_mul_of_pos_left _ (by omega)
    unfold W; omega
  have hTB : 0 < sprTB s m := by unfold sprTB; positivity
  refine ⟨?_, ?_, ?_, ?_⟩
  · intro hc'
    have hpos : 0 < sprEW s m := by unfold sprEW; positivity
    have := entry_of_ent wf hp a hv (e := link (.spr r (c + 1)) (par (sprEW s m) (sprEW s m))) (by
      have : c ≠ sub32 s.nCols 1 := by rw [sub32_eq hCW (by omega)]; omega
      simp [hiOf, ht, sprHi, mem_opt, this])
    simp only [link, hoff] at this
    rw [this, par_series hpos hpos, series_self hpos]
    unfold sprEW
    rw [mul_assoc m.kx, half_eq]
  · intro hr'
    have hpos : 0 < sprNS s m := by unfold sprNS; positivity
    have := entry_of_ent wf hp a hv (e := link (.spr (r + 1) c) (par (sprNS s m) (sprNS s m))) (by
      have : r ≠ sub32 s.nRows 1 := by rw [sub32_eq hRW (by omega)]; omega
      simp [hiOf, ht, sprHi, mem_opt, this])
    simp only [link, hoff] at this
    rw [this, par_series hpos hpos, series_self hpos]
    unfold sprNS
    rw [mul_assoc m.ky, half_eq, mul_comm s.cellLength]
  · have := col_sum wf a hv
    rw [hoff] at this
    simp only [capOf, ht, add_zero] at this
    rw [this]
    unfold sprCapacity
    congr 1; ring
  · intro r' c' hr' hc'
    have hL := wf.L1
    have hv' : Valid g d (.box (d.nLayers - 1) r' c') := ⟨by omega, hr', hc'⟩
    have hsp : isSpr (typeAt g (d.nLayers - 1)) = true := (wf.spr _ (by omega)).mpr ⟨rfl, s, m, ht⟩
    have hk : kindOf (typeAt g (d.nLayers - 1)) c' = .solid := kind_of_solid wf.last c'
    have hab : aboveCell g r' c' = .spr (r' + s.rowsBorder) (c' + s.colsBorder) := by
      unfold aboveCell; rw [hso]
      simp only
      rw [Nat.mod_eq_of_lt (by omega), Nat.mod_eq_of_lt (by omega)]
    have := entry_of_ent wf hp a hv' (e := link (aboveCell g r' c') (spreaderLink g d (d.nLayers - 1) r' c')) (by
      simp [hiOf, hk, solidHi, mem_opt, hsp])
    simp only [link, hab, hoff] at this
    rw [show offInStack d (d.nLayers - 1) r' c' = offset d (spreaderOf g) (.box (d.nLayers - 1) r' c') from rfl, this]
    have gt : gTop g d (d.nLayers - 1) r' c' = (if d.nLayers = 1 then halfZ g d (d.nLayers - 1) r' c' / 2 else halfZ g d (d.nLayers - 1) r' c') := by
      have e0 : (d.nLayers - 1 = 0) ↔ d.nLayers = 1 := by omega
      unfold gTop halfZ
      revert hsp
      cases typeAt g (d.nLayers - 1) <;> simp only [isSpr, Bool.false_eq_true, false_implies, true_implies, e0]
      all_goals
        split
        · simp only [div_eq_mul_inv, mul_inv, inv_inv]; ring
        · simp only [div_eq_mul_inv, mul_inv, inv_inv]; ring
    have gp := solid_top_pos wf hp (show d.nLayers - 1 < d.nLayers by omega) hr' hc' wf.last (Or.inr (Or.inl hsp))
    rw [← gt]
    unfold spreaderLink
    rw [ht]
    simp only
    rw [par_series hTB gp]
    unfold sprTB
    rw [mul_assoc m.kz]

/-! ## Examples -/

/-- Two dies with a 4RM channel between them, ambient sink on top. -/
def ex4D : Dims ℚ := { exDims with nLayers := 9, nCells := 90, heights := [40, 30, 5, 20, 100, 40, 30, 5, 20] }
def ex4G : TGrid ℚ :=
  { nLayers := 9, types := [.solid, .solid, .source, .solid, .ch4rm, .solid, .solid, .source, .solidAmb],
    layers := [exLayer 40, exLayer 30, exLayer 5, exLayer 20, ⟨100, exMat, []⟩, exLayer 40, exLayer 30, exLayer 5, exLayer 20],
    channel := some (exChannel .mc4rm), top := some (.ambient ⟨1, 300⟩), bottom := none }
def ex4P : Parsed ℚ String :=
  ⟨((parseStack exDims (some (exChannel .mc4rm)) none exRaw).get rfl).elems, ex4D,
    ((parseStack exDims (some (exChannel .mc4rm)) none exRaw).get rfl).nConn⟩
theorem ex4From : BuiltFrom exDims (some (exChannel .mc4rm)) exRaw ex4P ex4G := by
  refine ⟨by decide, by decide, ?_, ?_, rfl, rfl⟩
  · intro s h; simp [spreaderOf, ex4G] at h
  · rintro ch h; simp only [Option.some.injEq] at h; subst h; simp [exChannel]
theorem ex4Physical : Physical ex4G ex4P.dims := by
  refine ⟨by norm_num [ex4P, ex4D, exDims], by norm_num [ex4P, ex4D, exDims], ?_, ?_, ?_, ?_, ?_, ?_⟩
  · intro h hh; simp [ex4P, ex4D] at hh; obtain rfl | rfl | rfl | rfl | rfl | rfl | rfl | rfl | rfl := hh <;> norm_num
  · intro ly hly
    simp only [ex4G, exLayer, List.mem_cons, List.not_mem_nil, or_false] at hly
    rcases hly with rfl | rfl | rfl | rfl | rfl | rfl | rfl | rfl | rfl <;> exact ⟨exMat_pos, by intro m hm; cases hm⟩
  · intro s h; simp [ex4G] at h; subst h; norm_num
  · intro s h; simp [ex4G] at h
  · intro s m h; simp [ex4G] at h
  · intro ch h; simp [ex4G] at h; subst h; norm_num [CoolantOk, exChannel, exCoolant]

/-- The channel element of the example: over the four layers of the lower die. -/
def exChElem (m : ChModel) : SElem ℚ String := ⟨"ch", .channel (exChannel m), 4⟩
theorem ex4_mem : exChElem .mc4rm ∈ ex4P.elems := by
  refine List.mem_of_getElem? (i := 1) ?_; rfl

/-- Non-vacuity: a coolant cell and a wall cell of the 4RM example, a column of the 2RM example, a corner of the spreader. -/
example (a : Ana ℚ) : (fillMatrix ex4G a ex4P.dims).entry (offInStack ex4P.dims 4 0 2) (offInStack ex4P.dims 4 0 1) =
    - series (1 * areaX (exChannel .mc4rm) ex4P.dims 0) (exMat.kx * areaX (exChannel .mc4rm) ex4P.dims 0 / (cellLength ex4P.dims 2 / 2)) :=
  (C57_film_4rm ex4From ex4Physical a ex4_mem rfl rfl (r := 0) (c := 1) (by decide) (by decide) rfl).1 2 (Or.inl rfl) (by decide)
example (a : Ana ℚ) := (C57_wall_4rm ex4From ex4Physical a ex4_mem rfl rfl (r := 0) (c := 2) (by decide) (by decide) rfl).2.1 rfl
example (a : Ana ℚ) := (C57_stream ex4From ex4Physical a ex4_mem rfl (r := 0) (c := 1) (by decide) (by decide) (fun _ => rfl)).2 (by decide)
theorem ex2_mem : exChElem .mc2rm ∈ ((parseStack exDims (some (exChannel .mc2rm)) none exRaw).get rfl).elems := by
  refine List.mem_of_getElem? (i := 1) ?_; rfl
example (a : Ana ℚ) := (C57_stream exFrom exPhysical a ex2_mem rfl (r := 0) (c := 2) (by decide) (by decide) (fun h => by cases h)).1 (by decide)
example (a : Ana ℚ) := C57_film_2rm exFrom exPhysical a ex2_mem rfl (by simp [exChannel]) (r := 0) (c := 2) (by decide) (by decide)
example (a : Ana ℚ) := C57_walls_2rm exFrom exPhysical a ex2_mem rfl (by simp [exChannel]) (r := 0) (c := 2) (by decide) (by decide)
example (a : Ana ℚ) := (C48_spreader_series exSolidBuilt exSolidPhysical a rfl (r := 3) (c := 2) (by decide) (by decide)).1 (by decide)
/-- The stream of the 2RM example column, in numbers: 4 · 5/4 · (1/2 · length/50). -/
example : stream (exChannel .mc2rm) exD 2 = 4 * (5 / 4) * (1 / 2 * cellLength exD 2 / 50) := by
  norm_num [stream, exChannel, exCoolant]

end Verif.SM
