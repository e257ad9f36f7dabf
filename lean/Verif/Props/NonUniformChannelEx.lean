import Verif.Props.NonUniformSide

set_option linter.unusedSimpArgs false
set_option linter.unusedVariables false

/-! # C58: concrete cases of the theorems on channels on non-uniform grids -/

namespace Verif.NU
open Verif.Dim Verif.TG Verif.Stk Verif.SM

theorem wet_outside {mo : ChModel} {t : Nat} {c : Cell ℚ} (h : c.layer < 1 ∨ 1 + chLayers (exChannel mo) ≤ c.layer) : ¬ InChannel (wetElems mo t) c := by
  rintro ⟨n, hn, ch, hb, h1, h2⟩
  simp only [wetElems, wetChannel, List.mem_cons, List.not_mem_nil, or_false] at hn
  rcases hn with rfl | rfl | rfl
  · cases hb
  · cases hb; simp only at h1 h2; omega
  · cases hb

/-- Matrices of the two examples exist. -/
example (a : Ana ℚ) : (∃ m, Assembled id wet4Grid a m) ∧ ∃ m, Assembled id wet2Grid a m := ⟨assembled_exists _ _ _, assembled_exists _ _ _⟩

section
variable {a : Ana ℚ} {m : Csc ℚ}

/-- C58_stream: the row before the last one and the last row of the fourth column of the 4RM example. -/
example (hm : Assembled id wet4Grid a m) :
    m.entry (wet4Grid.at 1 1 3) (wet4Grid.at 1 0 3) = - (stream (exChannel .mc4rm) wet4Grid.d 3 / 2) :=
  ((C58_stream wet4From wet4Fits wet4Physical wet4Sharp hm wet4_mem (ch := exChannel .mc4rm) rfl (r := 0) (c := 3) (by decide) (by decide)
    (fun _ => by decide)).1 (by decide)).1

/-- C58_stream: the coolant of the 2RM example leaves with the heat of its last row. -/
example (hm : Assembled id wet2Grid a m) :
    ∃ cell, wet2Grid.cells[wet2Grid.at 3 1 2]? = some cell ∧
      ∑ i ∈ Finset.range wet2Grid.cells.length, m.entry i (wet2Grid.at 3 1 2) = storage a (coolantHeat (exChannel .mc2rm) cell) + stream (exChannel .mc2rm) wet2Grid.d 2 := by
  obtain ⟨-, cell, h1, -, h2, -⟩ := C58_stream wet2From wet2Fits wet2Physical wet2Sharp hm wet2_mem (ch := exChannel .mc2rm) rfl (r := 1) (c := 2) (by decide) (by decide)
    (fun h => by cases h)
  exact ⟨cell, h1, h2⟩

/-- C58_solid: the second element of the die. -/
example (hm : Assembled id wet4Grid a m) :
    ∑ j ∈ Finset.range wet4Grid.cells.length, m.entry j 12 = storage a (heatCapacity wet4Grid wet4Grid.cells[12]) + toAmbient wet4Grid wet4Grid.cells[12] :=
  (C58_solid wet4From wet4Fits wet4Physical wet4Sharp hm (i := 12) (by decide) (wet_outside (Or.inr (by decide +kernel)))).1

/-- C58_walls: a wall of the 4RM example. -/
example (hm : Assembled id wet4Grid a m) :
    ∃ cell, wet4Grid.cells[wet4Grid.at 1 1 2]? = some cell ∧ ∑ i ∈ Finset.range wet4Grid.cells.length, m.entry i (wet4Grid.at 1 1 2) = storage a (wallHeat (exChannel .mc4rm) 0 cell) := by
  obtain ⟨cell, h1, -, h2, -⟩ := C58_walls wet4From wet4Fits wet4Physical wet4Sharp hm wet4_mem (ch := exChannel .mc4rm) rfl (k := 0) (r := 1) (c := 2) (by decide) (by decide) (by decide)
    (fun _ h => absurd (h rfl).1 (by decide))
  exact ⟨cell, h1, h2⟩

/-- C58_solid_pairs_partial: the two elements of the die. -/
example (hm : Assembled id wet4Grid a m) : Conducts m 11 12 (link wet4Grid wet4Grid.cells[11] wet4Grid.cells[12]) :=
  C58_solid_pairs_partial wet4From wet4Physical wet4Sharp hm (by decide) (by decide) (by decide) (wet_outside (Or.inr (by decide +kernel)))
    (wet_outside (Or.inr (by decide +kernel))) fun _ => ⟨by decide +kernel, by
      unfold NestedSide TouchX TouchY Nested; decide +kernel⟩

/-- C58_below: the base and the coolant of the fourth column. -/
example (hm : Assembled id wet4Grid a m) :
    Conducts m 0 (wet4Grid.at 1 1 3) (series (toFace wet4Grid wet4Grid.cells[0] 200) ((exChannel .mc4rm).coolant.htcBottom * 200)) := by
  obtain ⟨cell, h1, -, h2⟩ := C58_below wet4From wet4Fits wet4Physical wet4Sharp hm wet4_mem (ch := exChannel .mc4rm) rfl (i := 0) (r := 1) (c := 3) (by decide +kernel)
    (wet_outside (Or.inl (by decide +kernel))) rfl (by decide) (by decide)
  have e : wet4Grid.cells[wet4Grid.at 1 1 3]? = some ⟨1, 40, 10, 60, 20, noMat, true⟩ := by decide +kernel
  have hce : cell = ⟨1, 40, 10, 60, 20, noMat, true⟩ := Option.some.inj (h1.symm.trans e)
  subst hce
  exact (h2 (by show 0 < _ ∧ 0 < _; decide +kernel) 200 (by decide +kernel)).1 rfl (fun _ => by decide) (by decide +kernel)

/-- C58_above: the upper surface of the third column of the 2RM example lies under both elements; it touches the first one on 9 × 10. -/
example (hm : Assembled id wet2Grid a m) : Conducts m (wet2Grid.at 4 0 2) 41 (toFace wet2Grid wet2Grid.cells[41] 90) := by
  obtain ⟨cell, h1, -, h2⟩ := C58_above wet2From wet2Fits wet2Physical wet2Sharp hm wet2_mem (ch := exChannel .mc2rm) rfl (j := 41) (r := 0) (c := 2) (by decide +kernel)
    (wet_outside (Or.inr (by decide +kernel))) (by decide +kernel) (by decide) (by decide)
  have e : wet2Grid.cells[wet2Grid.at 4 0 2]? = some ⟨4, 36, 0, 54, 10, noMat, false⟩ := by decide +kernel
  have hce : cell = ⟨4, 36, 0, 54, 10, noMat, false⟩ := Option.some.inj (h1.symm.trans e)
  subst hce
  exact (h2 (by show 0 < _ ∧ 0 < _; decide +kernel) 90 (by decide +kernel)).2.2 (by decide)

/-- C58_inside_2rm: coolant and lower surface. -/
example (hm : Assembled id wet2Grid a m) : Conducts m (wet2Grid.at 1 1 4) (wet2Grid.at 3 1 4) (filmDown (exChannel .mc2rm) (chanArea wet2Grid 4)) :=
  (C58_inside_2rm wet2From wet2Fits wet2Physical wet2Sharp hm wet2_mem (ch := exChannel .mc2rm) rfl (by decide) (r := 1) (c := 4) (by decide) (by decide)).1

/-- C58_inside_4rm: the second column (coolant) and the third one (wall). -/
example (hm : Assembled id wet4Grid a m) :
    Conducts m (wet4Grid.at 1 0 1) (wet4Grid.at 1 0 2) (series (coolantSide wet4Grid (exChannel .mc4rm)) (wallSide wet4Grid (exChannel .mc4rm) 2)) :=
  (C58_inside_4rm wet4From wet4Fits wet4Physical wet4Sharp wet4Whole hm wet4_mem (ch := exChannel .mc4rm) rfl rfl (by decide +kernel) (r := 0) (c := 1)
    (by decide) (by decide)).1 (by decide) (fun _ => by decide)

/-- C58_inside_layer_2rm: the coolant does not conduct heat from column to column. -/
example (hm : Assembled id wet2Grid a m) : Conducts m (wet2Grid.at 3 0 1) (wet2Grid.at 3 0 2) 0 :=
  C58_inside_layer_2rm wet2From wet2Fits wet2Physical wet2Sharp wet2Whole hm wet2_mem (ch := exChannel .mc2rm) rfl (by decide) (k := 2) (by decide) (by decide) (by decide)
    (by decide) (by decide) (by decide) (Or.inr (Or.inr (Or.inr (by decide))))

end

end Verif.NU
