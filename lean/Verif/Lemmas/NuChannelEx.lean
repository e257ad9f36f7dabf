import Verif.Props.NonUniformContact
import Verif.Lemmas.NuFlow

set_option linter.unusedSimpArgs false
set_option linter.unusedVariables false

/-! # Examples of non-uniform grids with channels -/

namespace Verif.NU
open Verif.Dim Verif.TG Verif.Stk Verif.SM

deriving instance DecidableEq for Material
deriving instance DecidableEq for Cell

/-- A die of two elements over a channel and a solid layer; the chip is 90 × 20, with 5 columns and 2 rows. -/
def wetFlp : List (FEl ℚ) := [⟨⟨0, 0, 45, 20⟩, [], 1, 1, none, []⟩, ⟨⟨45, 0, 45, 20⟩, [], 1, 1, none, []⟩]
def wetRaw : List (Raw ℚ (List (FEl ℚ))) := [⟨"die", .die ⟨[], exLayer 5, [], wetFlp⟩⟩, ⟨"ch", .channel⟩, ⟨"base", .layer (exLayer 20)⟩]
def wetChannel (m : ChModel) : NElem ℚ := ⟨⟨"ch", .channel (exChannel m), 1⟩, 1, 1⟩
def wetElems (m : ChModel) (top : Nat) : List (NElem ℚ) :=
  [⟨⟨"base", .layer (exLayer 20), 0⟩, 1, 1⟩, wetChannel m, ⟨⟨"die", .die ⟨[exLayer 5], 0, wetFlp⟩, top⟩, 1, 1⟩]

/-- The ten cells of a layer of the channel. -/
def wetLayer (l : Nat) (f : Nat → Bool) : List (Cell ℚ) :=
  [⟨l, 0, 0, 10, 10, noMat, f 0⟩, ⟨l, 10, 0, 30, 10, noMat, f 1⟩, ⟨l, 30, 0, 40, 10, noMat, f 2⟩, ⟨l, 40, 0, 60, 10, noMat, f 3⟩, ⟨l, 60, 0, 90, 10, noMat, f 4⟩,
   ⟨l, 0, 10, 10, 20, noMat, f 0⟩, ⟨l, 10, 10, 30, 20, noMat, f 1⟩, ⟨l, 30, 10, 40, 20, noMat, f 2⟩, ⟨l, 40, 10, 60, 20, noMat, f 3⟩,
   ⟨l, 60, 10, 90, 20, noMat, f 4⟩]

def wet4Grid : Grid ℚ :=
  { d := { exDims with nLayers := 3, heights := [20, 100, 5], nCells := 30 }, nCells := 13
    g := { nLayers := 3, types := [.solid, .ch4rm, .sourceAmb], layers := [exLayer 20, ⟨100, exMat, []⟩, exLayer 5],
           channel := some (exChannel .mc4rm), top := some (.ambient ⟨1, 300⟩), bottom := none }
    ls := [[⟨0, 0, 0, 90, 20, noMat, false⟩], wetLayer 1 (fun c => c % 2 == 1), [⟨2, 0, 0, 45, 20, exMat, false⟩, ⟨2, 45, 0, 90, 20, exMat, false⟩]]
    flps := [none, none, some wetFlp]
    ns := (wetElems .mc4rm 2).map fixDiscr }

/-- The same with a 2RM channel: all the cells have the same length. -/
def wet2D0 : Dims ℚ := { exDims with firstWall := 18, wall := 18, channel := 18, lastWall := 18 }
def wet2Layer (l : Nat) (f : Bool) : List (Cell ℚ) :=
  [⟨l, 0, 0, 18, 10, noMat, f⟩, ⟨l, 18, 0, 36, 10, noMat, f⟩, ⟨l, 36, 0, 54, 10, noMat, f⟩, ⟨l, 54, 0, 72, 10, noMat, f⟩, ⟨l, 72, 0, 90, 10, noMat, f⟩,
   ⟨l, 0, 10, 18, 20, noMat, f⟩, ⟨l, 18, 10, 36, 20, noMat, f⟩, ⟨l, 36, 10, 54, 20, noMat, f⟩, ⟨l, 54, 10, 72, 20, noMat, f⟩,
   ⟨l, 72, 10, 90, 20, noMat, f⟩]
def wet2Grid : Grid ℚ :=
  { d := { wet2D0 with nLayers := 6, heights := [20, 100, 100, 100, 100, 5], nCells := 60 }, nCells := 43
    g := { nLayers := 6, types := [.solid, .bottomWall, .vwallCh, .ch2rm, .topWall, .sourceAmb],
           layers := [exLayer 20, ⟨100, exMat, []⟩, ⟨100, exMat, []⟩, ⟨100, exMat, []⟩, ⟨100, exMat, []⟩, exLayer 5],
           channel := some (exChannel .mc2rm), top := some (.ambient ⟨1, 300⟩), bottom := none }
    ls := [[⟨0, 0, 0, 90, 20, noMat, false⟩], wet2Layer 1 false, wet2Layer 2 false, wet2Layer 3 true, wet2Layer 4 false,
      [⟨5, 0, 0, 45, 20, exMat, false⟩, ⟨5, 45, 0, 90, 20, exMat, false⟩]]
    flps := [none, none, none, none, none, some wetFlp]
    ns := (wetElems .mc2rm 5).map fixDiscr }

theorem wet4From : FromStack exDims (some (exChannel .mc4rm)) wetRaw (wetElems .mc4rm 2) wet4Grid := by
  refine .fresh ⟨_, wet4Grid.g, ⟨?_, ?_, ?_, ?_, rfl, rfl⟩, rfl, ?_⟩
  · show 1 ≤ 2; decide
  · show 1 ≤ 5; decide
  · intro s h; simp [spreaderOf, wet4Grid] at h
  · rintro ch h; simp only [Option.some.injEq] at h; subst h; simp [exChannel]
  · have e : buildNU wet4Grid.d wet4Grid.g.top wet4Grid.g.bottom (wetElems .mc4rm 2) =
        some { wet4Grid with ls := layersOf wet4Grid.d wet4Grid.g.top ((wetElems .mc4rm 2).map fixDiscr) } := rfl
    refine e.trans ?_
    have hls : layersOf wet4Grid.d wet4Grid.g.top ((wetElems .mc4rm 2).map fixDiscr) = wet4Grid.ls := by decide +kernel
    rw [hls]

theorem wet2From : FromStack wet2D0 (some (exChannel .mc2rm)) wetRaw (wetElems .mc2rm 5) wet2Grid := by
  refine .fresh ⟨_, wet2Grid.g, ⟨?_, ?_, ?_, ?_, rfl, rfl⟩, rfl, ?_⟩
  · show 1 ≤ 2; decide
  · show 1 ≤ 5; decide
  · intro s h; simp [spreaderOf, wet2Grid] at h
  · rintro ch h; simp only [Option.some.injEq] at h; subst h; simp [exChannel]
  · have e : buildNU wet2Grid.d wet2Grid.g.top wet2Grid.g.bottom (wetElems .mc2rm 5) =
        some { wet2Grid with ls := layersOf wet2Grid.d wet2Grid.g.top ((wetElems .mc2rm 5).map fixDiscr) } := rfl
    refine e.trans ?_
    have hls : layersOf wet2Grid.d wet2Grid.g.top ((wetElems .mc2rm 5).map fixDiscr) = wet2Grid.ls := by decide +kernel
    rw [hls]

theorem wet4Fits : ChipFits wet4Grid.d := ⟨by decide +kernel, by decide +kernel, by decide +kernel⟩
theorem wet2Fits : ChipFits wet2Grid.d := ⟨by decide +kernel, by decide +kernel, by decide +kernel⟩

theorem wet4Sharp : Sharp wet4Grid := by
  show ∀ c ∈ wet4Grid.cells, ∀ c' ∈ wet4Grid.cells, Apart c c'
  decide +kernel
theorem wet2Sharp : Sharp wet2Grid := by
  show ∀ c ∈ wet2Grid.cells, ∀ c' ∈ wet2Grid.cells, Apart c c'
  decide +kernel

theorem wet4Physical : PhysicalNU wet4Grid := by
  refine ⟨by decide +kernel, by decide +kernel, ?_, ?_, ?_⟩
  · intro c hc _
    have h : ∀ c ∈ wet4Grid.cells, ownMat wet4Grid c = exMat := by decide +kernel
    rw [h c hc]; exact exMat_pos
  · intro s h; simp [wet4Grid] at h; subst h; norm_num
  · intro s m h; simp [wet4Grid] at h
theorem wet2Physical : PhysicalNU wet2Grid := by
  refine ⟨by decide +kernel, by decide +kernel, ?_, ?_, ?_⟩
  · intro c hc _
    have h : ∀ c ∈ wet2Grid.cells, ownMat wet2Grid c = exMat := by decide +kernel
    rw [h c hc]; exact exMat_pos
  · intro s h; simp [wet2Grid] at h; subst h; norm_num
  · intro s m h; simp [wet2Grid] at h

theorem wet4_mem : wetChannel .mc4rm ∈ wetElems .mc4rm 2 := by simp [wetElems]
theorem wet2_mem : wetChannel .mc2rm ∈ wetElems .mc2rm 5 := by simp [wetElems]

end Verif.NU
