import Verif.Lemmas.Grid
import Mathlib.Tactic.Positivity
import Mathlib.Tactic.FieldSimp

set_option linter.unusedSectionVars false
set_option linter.unusedSimpArgs false

/-! Positivity of capacities and conductances. -/

namespace Verif.SM
open Verif.Dim Verif.TG Verif.Stk

variable {K : Type} [Field K] [LinearOrder K] [IsStrictOrderedRing K]

/-- Positive material properties. -/
def PosMat (m : Material K) : Prop := 0 < m.kx ∧ 0 < m.ky ∧ 0 < m.kz ∧ 0 < m.vhc

/-- Meaningful values of the fields of a channel that its model uses; the parser leaves the others at zero
(channel.c:46-60, stack_description_parser.y:505-681). -/
def CoolantOk (ch : Channel K) : Prop :=
  match ch.model with
  | .none => True
  | .mc4rm => 0 < ch.coolant.vhc ∧ 0 ≤ ch.coolant.flowRate ∧ 0 < ch.nChannels ∧
      0 < ch.coolant.htcSide ∧ 0 < ch.coolant.htcTop ∧ 0 < ch.coolant.htcBottom
  | .mc2rm => 0 < ch.coolant.vhc ∧ 0 ≤ ch.coolant.flowRate ∧ 0 < ch.nChannels ∧
      0 < ch.coolant.htcTop ∧ 0 < ch.coolant.htcBottom ∧ 0 < ch.length ∧ 0 < ch.porosity ∧ ch.porosity < 1
  | .pfInline => 0 < ch.coolant.vhc ∧ 0 ≤ ch.coolant.darcy ∧ 0 < ch.effInline ch.coolant.darcy ∧ 0 < ch.porosity ∧ ch.porosity < 1
  | .pfStag => 0 < ch.coolant.vhc ∧ 0 ≤ ch.coolant.darcy ∧ 0 < ch.effStag ch.coolant.darcy ∧ 0 < ch.porosity ∧ ch.porosity < 1

/-- Positive sizes, materials and heat transfer coefficients; porosity between 0 and 1; non-negative flow. -/
structure Physical (g : TGrid K) (d : Dims K) : Prop where
  dim : 0 < d.firstWall ∧ 0 < d.wall ∧ 0 < d.channel ∧ 0 < d.lastWall
  wid : 0 < d.width
  hts : ∀ h ∈ d.heights, 0 < h
  mat : ∀ ly ∈ g.layers, PosMat ly.mat ∧ ∀ m ∈ ly.layout, PosMat m.1
  top : ∀ s, g.top = some (.ambient s) → 0 < s.htc
  bot : ∀ s, g.bottom = some s → 0 < s.htc
  spr : ∀ s m, g.top = some (.pluggable s m) → 0 < s.cellLength ∧ 0 < s.cellWidth ∧ 0 < s.height ∧ PosMat m
  chn : ∀ ch, g.channel = some ch → CoolantOk ch

theorem WF.sized {g : TGrid K} {d : Dims K} (h : WF g d) : Sized d := by
  obtain ⟨h1, h2, -⟩ := accepted_bound h.acc
  have hr := h.acc.rows
  have hc := h.acc.cols
  have hA : d.nRows * d.nCols ≤ d.nLayers * (d.nRows * d.nCols) := Nat.le_mul_of_pos_left _ h.L1
  have h3 : d.nRows ≤ d.nRows * d.nCols := Nat.le_mul_of_pos_right _ hc
  have h4 : d.nCols ≤ d.nRows * d.nCols := Nat.le_mul_of_pos_left _ hr
  constructor <;> (unfold W; omega)

theorem WF.layersW {g : TGrid K} {d : Dims K} (h : WF g d) : d.nLayers < W := by
  obtain ⟨h1, h2, -⟩ := accepted_bound h.acc
  have hp : 0 < d.nRows * d.nCols := Nat.mul_pos h.acc.rows h.acc.cols
  have : d.nLayers ≤ d.nLayers * (d.nRows * d.nCols) := Nat.le_mul_of_pos_right _ hp
  unfold W; omega

theorem WF.lastRow {g : TGrid K} {d : Dims K} (h : WF g d) : lastRow d = d.nRows - 1 := lastRow_eq h.sized.rows.1 h.sized.rows.2
theorem WF.lastColumn {g : TGrid K} {d : Dims K} (h : WF g d) : lastColumn d = d.nCols - 1 :=
  lastColumn_eq h.sized.cols.1 h.sized.cols.2
theorem WF.lastLayer {g : TGrid K} {d : Dims K} (h : WF g d) : lastLayer d = d.nLayers - 1 := sub32_eq h.layersW h.L1

section
variable {g : TGrid K} {d : Dims K} (wf : WF g d) (ph : Physical g d)
include wf ph

theorem len_pos {c : Nat} (hc : c < d.nCols) : 0 < cellLength d c := cellLength_pos wf.sized ph.dim hc

theorem wid_pos {r : Nat} (hr : r < d.nRows) : 0 < cellWidth d r := by
  unfold cellWidth
  rw [if_neg (by rw [wf.lastRow]; omega)]; exact ph.wid

theorem height_pos {l : Nat} (hl : l < d.nLayers) : 0 < height d l := by
  unfold height cellHeight
  have hl' : l < d.heights.length := by rw [wf.hlen]; exact hl
  rw [if_neg (by intro hx; rw [hx] at hl'; simp at hl'), if_neg (by omega), List.getElem?_eq_getElem hl']
  exact ph.hts _ (List.getElem_mem hl')

theorem cellMat_pos {l : Nat} (hl : l < d.nLayers) (r c : Nat) : PosMat (cellMaterial (layerAt g l) d r c) := by
  have hl' : l < g.layers.length := by rw [wf.llen]; exact hl
  have hm : layerAt g l ∈ g.layers := by
    unfold layerAt
    rw [List.getD_eq_getElem?_getD, List.getElem?_eq_getElem hl']; exact List.getElem_mem hl'
  obtain ⟨h1, h2⟩ := ph.mat _ hm
  unfold cellMaterial
  cases hx : (layerAt g l).layout.findSome? fun m => materialAt m d r c with
  | none => exact h1
  | some m =>
    obtain ⟨m', hm', he⟩ := List.exists_of_findSome?_eq_some hx
    unfold materialAt at he
    split at he
    · simp only [Option.some.injEq] at he; subst he; exact h2 m' hm'
    · cases he

theorem condX_pos {l : Nat} (hl : l < d.nLayers) (r c : Nat) : 0 < condX g d l r c := (cellMat_pos wf ph hl r c).1
theorem condY_pos {l : Nat} (hl : l < d.nLayers) (r c : Nat) : 0 < condY g d l r c := (cellMat_pos wf ph hl r c).2.1
theorem condZ_pos {l : Nat} (hl : l < d.nLayers) (r c : Nat) : 0 < condZ g d l r c := (cellMat_pos wf ph hl r c).2.2.1
theorem heatCap_pos {l : Nat} (hl : l < d.nLayers) (r c : Nat) : 0 < heatCap g d l r c := (cellMat_pos wf ph hl r c).2.2.2

omit ph in
/-- A layer of a channel model has a channel. -/
theorem channel_some {l : Nat} (hl : l < d.nLayers) (hs : solidish (typeAt g l) = false) :
    ∃ ch, g.channel = some ch ∧ modelOk ch.model (typeAt g l) := by
  have hm := wf.mdl l hl
  cases hc : g.channel with
  | none =>
    exfalso
    simp only [chModel, hc, Option.map_none, Option.getD_none] at hm
    have hnn : typeAt g l ≠ .none := by
      intro hx
      by_cases h0 : l + 1 < d.nLayers
      · have := wf.chain l h0; rw [hx] at this; simp [adj, solidish] at this
      · have := wf.last; rw [show d.nLayers - 1 = l by omega, hx] at this; simp [solidish] at this
    revert hm hs hnn
    generalize typeAt g l = t
    cases t <;> simp [modelOk, solidish]
  | some ch =>
    refine ⟨ch, rfl, ?_⟩
    simpa [chModel, hc] using hm

omit wf in
theorem par_pos {x y : K} (hx : 0 < x) (hy : 0 < y) : 0 < par x y := by unfold par; positivity

omit wf ph in
theorem par_comm (x y : K) : par x y = par y x := by unfold par; rw [mul_comm, add_comm]

theorem solid_pos {l r c : Nat} (hl : l < d.nLayers) (hr : r < d.nRows) (hc : c < d.nCols) (hs : solidish (typeAt g l) = true) :
    0 < capacity g d l r c ∧ 0 < gNorth g d l r c ∧ 0 < gSouth g d l r c ∧ 0 < gEast g d l r c ∧ 0 < gWest g d l r c := by
  have h1 := len_pos wf ph hc
  have h2 := wid_pos wf ph hr
  have h3 := height_pos wf ph hl
  have h4 := condX_pos wf ph hl r c
  have h5 := condY_pos wf ph hl r c
  have h6 := heatCap_pos wf ph hl r c
  unfold capacity gNorth gSouth gEast gWest
  revert hs
  cases typeAt g l <;> simp [solidish] <;> refine ⟨?_, ?_, ?_⟩ <;> positivity

theorem solid_top_pos {l r c : Nat} (hl : l < d.nLayers) (hr : r < d.nRows) (hc : c < d.nCols) (hs : solidish (typeAt g l) = true)
    (h : l ≠ d.nLayers - 1 ∨ isSpr (typeAt g l) = true ∨ typeAt g l = .solidAmb ∨ typeAt g l = .sourceAmb) : 0 < gTop g d l r c := by
  have h1 := len_pos wf ph hc
  have h2 := wid_pos wf ph hr
  have h3 := height_pos wf ph hl
  have h4 := condZ_pos wf ph hl r c
  have htop : typeAt g l = .solidAmb ∨ typeAt g l = .sourceAmb → 0 < topHtc g := by
    intro hx
    obtain ⟨-, s, hs⟩ := wf.amb l hl hx
    simp only [topHtc, hs]; exact ph.top s hs
  unfold gTop
  rw [wf.lastLayer]
  revert h hs htop
  cases typeAt g l <;> simp [solidish, isSpr]
  · intro h; rw [if_neg h]; split <;> positivity
  · intro h; rw [if_neg h]; split <;> positivity
  · intro h; positivity
  · intro h; positivity
  · split <;> positivity
  · split <;> positivity
  · intro h; positivity
  · intro h; positivity

theorem solid_bottom_pos {l r c : Nat} (hl : l < d.nLayers) (hr : r < d.nRows) (hc : c < d.nCols) (hs : solidish (typeAt g l) = true)
    (h : l ≠ 0 ∨ typeAt g l = .solidPcb ∨ typeAt g l = .sourcePcb) : 0 < gBottom g d l r c := by
  have h1 := len_pos wf ph hc
  have h2 := wid_pos wf ph hr
  have h3 := height_pos wf ph hl
  have h4 := condZ_pos wf ph hl r c
  have htop : typeAt g l = .solidPcb ∨ typeAt g l = .sourcePcb → 0 < bottomHtc g := by
    intro hx
    obtain ⟨-, s, hs⟩ := wf.pcb l hl hx
    simp only [bottomHtc, hs]; exact ph.bot s hs
  unfold gBottom
  revert h hs htop
  cases typeAt g l <;> simp [solidish]
  · intro h; rw [if_neg h]; split <;> positivity
  · intro h; rw [if_neg h]; split <;> positivity
  · intro h; positivity
  · intro h; positivity
  · intro h; positivity
  · intro h; positivity
  · intro h; positivity
  · intro h; positivity

/-- Coolant and walls of a 4RM layer. -/
theorem ch4_pos {l r c : Nat} (hl : l < d.nLayers) (hr : r < d.nRows) (hc : c < d.nCols) (ht : typeAt g l = .ch4rm) :
    0 < capacity g d l r c ∧ 0 < gTop g d l r c ∧ 0 < gBottom g d l r c ∧ 0 < gEast g d l r c ∧ 0 < gWest g d l r c ∧
    (isChannelCol c = false → 0 < gNorth g d l r c ∧ 0 < gSouth g d l r c) ∧
    (isChannelCol c = true → 0 ≤ gNorth g d l r c) := by
  have h1 := len_pos wf ph hc
  have h2 := wid_pos wf ph hr
  have h3 := height_pos wf ph hl
  have h4 := condX_pos wf ph hl r c
  have h5 := condY_pos wf ph hl r c
  have h6 := heatCap_pos wf ph hl r c
  have h7 := condZ_pos wf ph hl r c
  obtain ⟨ch, hch, hmo⟩ := channel_some wf hl (by rw [ht]; rfl)
  rw [ht] at hmo
  simp only [modelOk] at hmo
  have hco := ph.chn ch hch
  simp only [CoolantOk, hmo] at hco
  obtain ⟨p1, p2, p3, p4, p5, p6⟩ := hco
  have p3' : (0 : K) < ch.nChannels := by exact_mod_cast p3
  have hconv : 0 ≤ convective g d l c := by
    simp only [convective, hch, hmo]; positivity
  unfold capacity gTop gBottom gEast gWest gNorth gSouth
  simp only [ht, chan, hch, Option.map_some, Option.getD_some]
  cases hcol : isChannelCol c <;> simp [hconv] <;> refine ⟨?_, ?_, ?_, ?_⟩ <;> positivity

/-- Coolant of a 2RM or pin fin layer. -/
theorem liquid2_pos {l r c : Nat} (hl : l < d.nLayers) (hr : r < d.nRows) (hc : c < d.nCols)
    (ht : typeAt g l = .ch2rm ∨ typeAt g l = .pfInline ∨ typeAt g l = .pfStag) :
    0 < capacity g d l r c ∧ 0 < gTop g d l r c ∧ 0 < gBottom g d l r c ∧ 0 ≤ gNorth g d l r c := by
  have h1 := len_pos wf ph hc
  have h2 := wid_pos wf ph hr
  have h3 := height_pos wf ph hl
  obtain ⟨ch, hch, hmo⟩ := channel_some wf hl (by rcases ht with ht | ht | ht <;> rw [ht] <;> rfl)
  have hco := ph.chn ch hch
  rcases ht with ht | ht | ht <;> rw [ht] at hmo <;> simp only [modelOk] at hmo <;> simp only [CoolantOk, hmo] at hco
  · obtain ⟨p1, p2, p3, p4, p5, p6, p7, p8⟩ := hco
    have p3' : (0 : K) < ch.nChannels := by exact_mod_cast p3
    have hconv : 0 ≤ convective g d l c := by simp only [convective, hch, hmo]; positivity
    unfold capacity gTop gBottom gNorth
    simp only [ht, chan, hch, Option.map_some, Option.getD_some]
    refine ⟨?_, ?_, ?_, hconv⟩ <;> positivity
  all_goals
    obtain ⟨p1, p2, p3, p4, p5⟩ := hco
    have hconv : 0 ≤ convective g d l c := by simp only [convective, hch, hmo]; positivity
    unfold capacity gTop gBottom gNorth
    simp only [ht, chan, hch, Option.map_some, Option.getD_some]
    refine ⟨?_, ?_, ?_, hconv⟩ <;> positivity

/-- Virtual wall between the walls of a 2RM or pin fin channel. -/
theorem vwall_pos {l r c : Nat} (hl : l < d.nLayers) (hr : r < d.nRows) (hc : c < d.nCols)
    (ht : typeAt g l = .vwallCh ∨ typeAt g l = .vwallPf) :
    0 < capacity g d l r c ∧ 0 < gTop g d l r c ∧ 0 < gBottom g d l r c ∧
    (typeAt g l = .vwallCh → 0 < gNorth g d l r c ∧ 0 < gSouth g d l r c) := by
  have h1 := len_pos wf ph hc
  have h2 := wid_pos wf ph hr
  have h3 := height_pos wf ph hl
  have h5 := condY_pos wf ph hl r c
  have h6 := heatCap_pos wf ph hl r c
  have h7 := condZ_pos wf ph hl r c
  obtain ⟨ch, hch, hmo⟩ := channel_some wf hl (by rcases ht with ht | ht <;> rw [ht] <;> rfl)
  have hco := ph.chn ch hch
  have p8 : ch.porosity < 1 := by
    rcases ht with ht | ht <;> rw [ht] at hmo <;> simp only [modelOk] at hmo
    · simp only [CoolantOk, hmo] at hco; exact hco.2.2.2.2.2.2.2
    · rcases hmo with hmo | hmo <;> simp only [CoolantOk, hmo] at hco <;> exact hco.2.2.2.2
  have p8' : 0 < 1 - ch.porosity := by linarith
  unfold capacity gTop gBottom gNorth gSouth
  rcases ht with ht | ht <;> simp only [ht, chan, hch, Option.map_some, Option.getD_some] <;>
    refine ⟨?_, ?_, ?_, fun _ => ?_⟩
  · positivity
  · positivity
  · positivity
  · constructor <;> positivity
  · positivity
  · positivity
  · positivity
  · simp_all

end

end Verif.SM
