import Verif.Lemmas.Csc

/-! Concrete stacks that meet the hypotheses `Built` and `Physical`. -/

namespace Verif.SM
open Verif.Dim Verif.TG Verif.Stk

/-- Dimensions of the parsed example: two dies of four layers and a 2RM channel between them; 2 × 5 cells. -/
def exD : Dims ℚ :=
  { exDims with nLayers := 12, nCells := 120, heights := [40, 30, 5, 20, 100, 100, 100, 100, 40, 30, 5, 20] }

def exTypes (first last : LType) : List LType :=
  [first, .solid, .source, .solid, .bottomWall, .vwallCh, .ch2rm, .topWall, .solid, .solid, .source, last]

def exLayers : List (Layer ℚ) :=
  [exLayer 40, exLayer 30, exLayer 5, exLayer 20, ⟨100, exMat, []⟩, ⟨100, exMat, []⟩, ⟨100, exMat, []⟩, ⟨100, exMat, []⟩,
    exLayer 40, exLayer 30, exLayer 5, exLayer 20]

/-- Two dies, a 2RM channel, ambient sink on top, board at the bottom. -/
def exG : TGrid ℚ :=
  { nLayers := 12, types := exTypes .solidPcb .solidAmb, layers := exLayers, channel := some (exChannel .mc2rm),
    top := some (.ambient ⟨1, 300⟩), bottom := some ⟨2, 300⟩ }

theorem exDeclOk : DeclOk (some (exChannel .mc2rm)) := by
  rintro ch h; simp only [Option.some.injEq] at h; subst h; simp [exChannel]

theorem exBuilt : Built String exG exD := by
  refine ⟨by decide, by decide, ?_, exDims, some (exChannel .mc2rm), exRaw, ?_⟩
  · intro s h; simp [spreaderOf, exG] at h
  · refine ⟨_, exDeclOk, rfl, rfl, rfl⟩

theorem exMat_pos : PosMat exMat := by unfold PosMat exMat; norm_num

theorem exPhysical : Physical exG exD := by
  refine ⟨by norm_num [exD, exDims], by norm_num [exD, exDims], ?_, ?_, ?_, ?_, ?_, ?_⟩
  · intro h hh; simp [exD] at hh; obtain rfl | rfl | rfl | rfl | rfl | rfl | rfl | rfl | rfl := hh <;> norm_num
  · intro ly hly
    simp only [exG, exLayers, exLayer, List.mem_cons, List.not_mem_nil, or_false] at hly
    rcases hly with rfl | rfl | rfl | rfl | rfl | rfl | rfl | rfl | rfl | rfl | rfl | rfl <;>
      exact ⟨exMat_pos, by intro m hm; cases hm⟩
  · intro s h; simp [exG] at h; subst h; norm_num
  · intro s h; simp [exG] at h; subst h; norm_num
  · intro s m h; simp [exG] at h
  · intro ch h; simp [exG] at h; subst h; norm_num [CoolantOk, exChannel, exCoolant]

/-- One die of two layers under a heat spreader: 2 × 5 cells per layer, 4 × 7 spreader cells. -/
def exSolidRaw : List (Raw ℚ String) := [⟨"die", .die ⟨[exLayer 20], exLayer 5, [], "f"⟩⟩]
def exSolidD : Dims ℚ := { exDims with nLayers := 2, nCells := 48, heights := [5, 20] }
def exSolidG : TGrid ℚ :=
  { nLayers := 2, types := [.sourcePcb, .solidSpr], layers := [exLayer 5, exLayer 20], channel := none,
    top := some (.pluggable exSpreader exMat), bottom := some ⟨2, 300⟩ }

theorem exSolidBuilt : Built String exSolidG exSolidD := by
  refine ⟨by decide, by decide, ?_, exDims, none, exSolidRaw, ?_⟩
  · intro s h; simp [spreaderOf, exSolidG] at h; subst h; decide
  · refine ⟨_, ?_, rfl, rfl, rfl⟩
    rintro ch h; simp at h

theorem exSolidPhysical : Physical exSolidG exSolidD := by
  refine ⟨by norm_num [exSolidD, exDims], by norm_num [exSolidD, exDims], ?_, ?_, ?_, ?_, ?_, ?_⟩
  · intro h hh; simp [exSolidD] at hh; rcases hh with rfl | rfl <;> norm_num
  · intro ly hly
    simp only [exSolidG, exLayer, List.mem_cons, List.not_mem_nil, or_false] at hly
    rcases hly with rfl | rfl <;> exact ⟨exMat_pos, by intro m hm; cases hm⟩
  · intro s h; simp [exSolidG] at h
  · intro s h; simp [exSolidG] at h; subst h; norm_num
  · intro s m h; simp [exSolidG] at h; obtain ⟨rfl, rfl⟩ := h
    exact ⟨by norm_num [exSpreader], by norm_num [exSpreader], by norm_num [exSpreader], exMat_pos⟩
  · intro ch h; simp [exSolidG] at h

end Verif.SM
