import Verif.Props.NonUniform

set_option linter.unusedSimpArgs false
set_option linter.unusedVariables false

/-! Concrete non-uniform stacks. -/

namespace Verif.NU
open Verif.Dim Verif.TG Verif.Stk Verif.SM

/-- A chip of 20 × 10. -/
def nuD0 : Dims ℚ := { exDims with chipLength := 20, chipWidth := 10, nRows := 2, nCols := 2 }

/-- Two floorplan elements side by side, the first one cut in two; the second one has its own material. -/
def nuFlp (p q : ℚ) : List (FEl ℚ) :=
  [⟨⟨0, 0, 10, 10⟩, [], 2, 1, none, [p]⟩, ⟨⟨10, 0, 10, 10⟩, [], 0, 0, some ⟨2, 3, 4, 5⟩, [q]⟩]

/-- A layer over a die with a source layer under a plain one. -/
def nuRaw (p q : ℚ) : List (Raw ℚ (List (FEl ℚ))) :=
  [⟨"top", .layer (exLayer 7)⟩, ⟨"die", .die ⟨[exLayer 20], exLayer 5, [], nuFlp p q⟩⟩]

/-- The elements from the bottom with their discretization: the die 1 × 2 (for the element without its own), the layer 2 × 1. -/
def nuElems (p q : ℚ) : List (NElem ℚ) :=
  [⟨⟨"die", .die ⟨[exLayer 20, exLayer 5], 0, nuFlp p q⟩, 0⟩, 1, 2⟩, ⟨⟨"top", .layer (exLayer 7), 2⟩, 2, 1⟩]

def nuDims : Dims ℚ := { nuD0 with nLayers := 3, heights := [5, 20, 7], nCells := 12 }

def nuG (bottom : Option (Sink ℚ)) : TGrid ℚ :=
  { nLayers := 3, types := [if bottom.isSome then .sourcePcb else .source, .solid, .solidAmb],
    layers := [exLayer 5, exLayer 20, exLayer 7], channel := none, top := some (.ambient ⟨1, 300⟩), bottom := bottom }

/-- The cells of the three layers. -/
def nuGrid (bottom : Option (Sink ℚ)) (p q : ℚ) : Grid ℚ :=
  { d := nuDims, nCells := 10, g := nuG bottom
    ls := layersOf nuDims (some (.ambient ⟨1, 300⟩)) ((nuElems p q).map fixDiscr)
    flps := [some [⟨⟨0, 0, 10, 10⟩, [], 2, 1, none, [p]⟩, ⟨⟨10, 0, 10, 10⟩, [], 1, 2, some ⟨2, 3, 4, 5⟩, [q]⟩], none, none]
    ns := (nuElems p q).map fixDiscr }

theorem nuFrom (bottom : Option (Sink ℚ)) (p q : ℚ) : FromFile nuD0 (nuRaw p q) (nuElems p q) (nuGrid bottom p q) := by
  refine ⟨_, nuG bottom, ⟨?_, ?_, ?_, ?_, rfl, ?_⟩, rfl, ?_⟩
  · show 1 ≤ 2; decide
  · show 1 ≤ 2; decide
  · intro s h; simp [spreaderOf, nuG] at h
  · rintro ch h; simp at h
  · cases bottom <;> rfl
  · cases bottom <;> rfl

theorem nuCells (bottom : Option (Sink ℚ)) (p q : ℚ) : (nuGrid bottom p q).cells =
    [⟨0, 0, 0, 5, 10, exMat, false⟩, ⟨0, 5, 0, 10, 10, exMat, false⟩, ⟨0, 10, 0, 20, 5, ⟨2, 3, 4, 5⟩, false⟩, ⟨0, 10, 5, 20, 10, ⟨2, 3, 4, 5⟩, false⟩,
     ⟨1, 0, 0, 5, 10, exMat, false⟩, ⟨1, 5, 0, 10, 10, exMat, false⟩, ⟨1, 10, 0, 20, 5, exMat, false⟩, ⟨1, 10, 5, 20, 10, exMat, false⟩,
     ⟨2, 0, 0, 10, 10, noMat, false⟩, ⟨2, 10, 0, 20, 10, noMat, false⟩] := by
  simp only [Grid.cells, nuGrid, layersOf, stackLayers, elemLayers, spreaderLayer, nuElems, fixDiscr, List.map_cons, List.map_nil, nuFlp, fixEl,
    dieLayer, subCells, chipRect, nuDims, nuD0, exDims, exLayer, List.range_succ, List.range_zero]
  norm_num [exLayer, List.range_succ, dieLayer, subCells]

theorem nuPhysical (bottom : Option (Sink ℚ)) (p q : ℚ) : PhysicalNU (nuGrid bottom p q) := by
  refine ⟨?_, ?_, ?_, ?_, ?_⟩
  · intro h hh
    simp only [nuGrid, nuDims, List.mem_cons, List.not_mem_nil, or_false] at hh
    rcases hh with rfl | rfl | rfl <;> norm_num
  · intro c hc
    rw [nuCells] at hc
    simp only [List.mem_cons, List.not_mem_nil, or_false] at hc
    rcases hc with rfl | rfl | rfl | rfl | rfl | rfl | rfl | rfl | rfl | rfl <;> norm_num [Cell.length, Cell.width]
  · intro c hc _
    rw [nuCells] at hc
    simp only [List.mem_cons, List.not_mem_nil, or_false] at hc
    have h2 : PosMat (⟨2, 3, 4, 5⟩ : Material ℚ) := by unfold PosMat; norm_num
    have h0 : isSource (typeAt (nuGrid bottom p q).g 0) = true := by cases bottom <;> rfl
    have h1 : ∀ c : Cell ℚ, (c.layer = 1 ∨ c.layer = 2) → ownMat (nuGrid bottom p q) c = exMat := by
      rintro c (h | h) <;> (unfold ownMat; rw [h]; rfl)
    have h3 : ∀ c : Cell ℚ, c.layer = 0 → ownMat (nuGrid bottom p q) c = c.mat := by
      intro c h; unfold ownMat; rw [h, if_pos h0]
    rcases hc with rfl | rfl | rfl | rfl | rfl | rfl | rfl | rfl | rfl | rfl
    · rw [h3 _ rfl]; exact exMat_pos
    · rw [h3 _ rfl]; exact exMat_pos
    · rw [h3 _ rfl]; exact h2
    · rw [h3 _ rfl]; exact h2
    all_goals first | (rw [h1 _ (Or.inl rfl)]; exact exMat_pos) | (rw [h1 _ (Or.inr rfl)]; exact exMat_pos)
  · intro s h
    simp only [nuGrid, nuG, Option.some.injEq, TopSink.ambient.injEq] at h
    subst h; norm_num
  · intro s m h; simp [nuGrid, nuG] at h

end Verif.NU
