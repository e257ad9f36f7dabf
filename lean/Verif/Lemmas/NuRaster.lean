import Verif.Lemmas.NuPhysical
import Verif.Props.NonUniformContact

/-! Grids whose borders are multiples of a unit longer than a thousandth have borders that coincide or are apart. -/

set_option linter.unusedSectionVars false
set_option linter.unusedSimpArgs false
set_option linter.unusedVariables false

namespace Verif.NU
open Verif.Dim Verif.TG Verif.Stk Verif.SM

variable {K : Type} [Field K] [LinearOrder K] [IsStrictOrderedRing K]
variable {d0 : Dims K} {decl : Option (Channel K)} {rs : List (Raw K (List (FEl K)))} {ns : List (NElem K)} {G : Grid K}

/-- A whole number of units. -/
def Mult (u x : K) : Prop := ∃ k : ℤ, x = k * u

theorem Mult.zero (u : K) : Mult u 0 := ⟨0, by simp⟩
theorem Mult.add {u x y : K} (hx : Mult u x) (hy : Mult u y) : Mult u (x + y) := by
  obtain ⟨a, rfl⟩ := hx; obtain ⟨b, rfl⟩ := hy; exact ⟨a + b, by push_cast; ring⟩
theorem Mult.sub {u x y : K} (hx : Mult u x) (hy : Mult u y) : Mult u (x - y) := by
  obtain ⟨a, rfl⟩ := hx; obtain ⟨b, rfl⟩ := hy; exact ⟨a - b, by push_cast; ring⟩
theorem Mult.mulNat {u x : K} (hx : Mult u x) (n : Nat) : Mult u (x * n) := by
  obtain ⟨a, rfl⟩ := hx; exact ⟨a * n, by push_cast; ring⟩
theorem Mult.natMul {u x : K} (hx : Mult u x) (n : Nat) : Mult u (n * x) := by rw [mul_comm]; exact hx.mulNat n

theorem Mult.apart {u x : K} (hu : 1 / 1000 < u) (hx : Mult u x) : x = 0 ∨ 1 / 1000 < |x| := by
  obtain ⟨k, rfl⟩ := hx
  rcases eq_or_ne k 0 with rfl | hk
  · left; simp
  · right
    have hu0 : 0 < u := lt_trans (by norm_num) hu
    rw [abs_mul, abs_of_pos hu0]
    have h1 : (1 : K) ≤ |(k : K)| := by
      have := Int.one_le_abs hk
      exact_mod_cast this
    nlinarith

/-- The borders of a cell are multiples of the unit. -/
def OnUnit (u : K) (c : Cell K) : Prop := Mult u c.x0 ∧ Mult u c.x1 ∧ Mult u c.y0 ∧ Mult u c.y1

theorem sharp_of_units {u : K} (hu : 1 / 1000 < u) (h : ∀ c ∈ G.cells, OnUnit u c) : Sharp G := by
  intro a ha b hb
  obtain ⟨a1, a2, a3, a4⟩ := h a ha
  obtain ⟨b1, b2, b3, b4⟩ := h b hb
  exact ⟨(a1.sub b2).apart hu, (a3.sub b4).apart hu, (a2.sub b1).apart hu, (a4.sub b3).apart hu⟩

theorem subCells_unit {u : K} {r : Rect K} {nx ny l : Nat} {m : Material K} (h1 : Mult u r.x) (h2 : Mult u r.y) (h3 : Mult u (r.length / nx))
    (h4 : Mult u (r.width / ny)) {c : Cell K} (hc : c ∈ subCells r nx ny l m) : OnUnit u c := by
  obtain ⟨s, -, rfl⟩ := List.mem_map.mp hc
  exact ⟨h1.add (h3.mulNat _), h1.add (h3.mulNat _), h2.add (h4.mulNat _), h2.add (h4.mulNat _)⟩

/-- The division of a floorplan element: its own if it is given, else that of the die. -/
def partsEl (n : NElem K) (e : FEl K) : Nat × Nat := if e.dx ≠ 0 ∧ e.dy ≠ 0 then (e.dx, e.dy) else (n.dx, n.dy)

theorem dieLayer_parts {n : NElem K} {b : Die K (List (FEl K))} (hb : n.elem.body = .die b) {cur k : Nat} {c : Cell K}
    (hc : c ∈ dieLayer (fixDiscr n) { b with flp := b.flp.map (fixEl n) } cur k) :
    ∃ e ∈ b.flp, ∃ l m, c ∈ subCells e.rect (partsEl n e).1 (partsEl n e).2 l m := by
  unfold dieLayer at hc
  simp only [List.flatMap_map, List.mem_flatMap] at hc
  obtain ⟨e, he, hc⟩ := hc
  have hr : (fixEl n e).rect = e.rect := by unfold fixEl; split_ifs <;> rfl
  have hfx : (fixDiscr n).dx = n.dx ∧ (fixDiscr n).dy = n.dy := by rw [fixed_die hb]; exact ⟨rfl, rfl⟩
  have hp : (if (fixEl n e).dx = 0 ∨ (fixEl n e).dy = 0 then ((fixDiscr n).dx, (fixDiscr n).dy) else ((fixEl n e).dx, (fixEl n e).dy)) = partsEl n e := by
    rw [hfx.1, hfx.2]
    unfold fixEl partsEl
    by_cases hz : e.dx ≠ 0 ∧ e.dy ≠ 0
    · rw [if_pos hz, if_neg (by rw [not_or]; exact hz), if_pos hz]
    · rw [if_neg hz, if_neg hz]
      split_ifs <;> rfl
  rw [hr, hp] at hc
  exact ⟨e, he, _, _, hc⟩

/-- The borders that an element of the stack draws are multiples of the unit. -/
def UnitElem (u : K) (d : Dims K) (n : NElem K) : Prop :=
  match n.elem.body with
  | .die b => ∀ e ∈ b.flp, Mult u e.rect.x ∧ Mult u e.rect.y ∧ Mult u (e.rect.length / (partsEl n e).1) ∧ Mult u (e.rect.width / (partsEl n e).2)
  | .layer _ => Mult u (d.chipLength / n.dx) ∧ Mult u (d.chipWidth / n.dy)
  | .channel _ => Mult u d.firstWall ∧ Mult u d.wall ∧ Mult u d.channel ∧ Mult u d.lastWall ∧ Mult u d.chipLength ∧ Mult u (d.chipWidth / d.nRows)

theorem chan_unit {u : K} {d : Dims K} (h1 : Mult u d.firstWall) (h2 : Mult u d.wall) (h3 : Mult u d.channel) (h4 : Mult u d.lastWall)
    (h5 : Mult u d.chipLength) (c : Nat) : Mult u (chanX0 d c) ∧ Mult u (chanX1 d c) := by
  have k : Mult u (chanX0 d c) := by
    unfold chanX0
    split_ifs
    · exact .zero u
    · exact h5.sub h4
    · exact h1.add ((h2.add h3).natMul _)
    · exact (h1.add h3).add ((h2.add h3).natMul _)
  refine ⟨k, ?_⟩
  unfold chanX1
  split_ifs
  · exact h1
  · exact h5
  · exact k.add h3
  · exact k.add h2

theorem FromStack.sharp (hf : FromStack d0 decl rs ns G) {u : K} (hu : 1 / 1000 < u) (h : ∀ n ∈ ns, UnitElem u G.d n)
    (hs : ∀ sp m, G.g.top = some (.pluggable sp m) → Mult u (G.d.chipLength / G.d.nCols) ∧ Mult u (G.d.chipWidth / G.d.nRows)) : Sharp G := by
  refine sharp_of_units hu fun c hc => ?_
  obtain ⟨i, hi, rfl⟩ := List.mem_iff_getElem.mp hc
  obtain ⟨lc, h1, -, -, -, h2, h3⟩ := hf.pos_layer hi
  rcases hf.cell_cases hc with ⟨n, hn, k, hk, e, lc, h1, h2⟩ | ⟨e, h2⟩
  · have hdn := h n hn
    unfold UnitElem at hdn
    cases hb : n.elem.body with
    | die b =>
      rw [(fix_die_layers hb h1).1] at h2
      obtain ⟨x, hx, l, m, hc⟩ := dieLayer_parts hb h2
      rw [hb] at hdn
      obtain ⟨g1, g2, g3, g4⟩ := hdn x hx
      exact subCells_unit g1 g2 g3 g4 hc
    | layer ly =>
      rw [fix_layer_layers hb h1] at h2
      rw [hb] at hdn
      exact subCells_unit (r := chipRect G.d) (.zero u) (.zero u) hdn.1 hdn.2 h2
    | channel ch =>
      rw [fix_channel_layers hb h1] at h2
      rw [hb] at hdn
      obtain ⟨g1, g2, g3, g4, g5, g6⟩ := hdn
      obtain ⟨q, -, hq⟩ := List.mem_map.mp h2
      rw [← hq]
      obtain ⟨k1, k2⟩ := chan_unit g1 g2 g3 g4 g5 (q % G.d.nCols)
      exact ⟨k1, k2, g6.mulNat _, g6.mulNat _⟩
  · rcases h3 with h3 | ⟨h3, s, m, ht⟩
    · omega
    · obtain ⟨g1, g2⟩ := hs s m ht
      exact subCells_unit (r := chipRect G.d) (.zero u) (.zero u) g1 g2 h2

end Verif.NU
