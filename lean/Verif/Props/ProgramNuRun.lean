import Verif.Props.ProgramNu

/-! # C69: what the program writes for a non-uniform grid, in terms of the description files -/

set_option linter.unusedSectionVars false
set_option linter.unusedSimpArgs false
set_option linter.unusedVariables false

namespace Verif.Prog
open Verif.Gram Verif.Dim Verif.TG Verif.SM Verif.Stk Verif.FE Verif.Emu Verif.Flp

variable {π : Type}
variable {w : World π} {file : String} {s : StackD} {D : Desc NFlps} {an : Analysis ℚ} {G : NU.Grid ℚ} {s0 s' : NU.NSim ℚ π} {log : NLog}

/-! ### The simulation that begins -/

theorem zip_elem {α β γ δ : Type} (f : α → γ) (g : α → β → δ) (p : δ → γ) (h : ∀ a b, p (g a b) = f a) : ∀ (as : List α) (bs : List β), as.length = bs.length →
    (List.zipWith g as bs).map p = as.map f
  | [], [], _ => rfl
  | a :: as, b :: bs, e => by
    rw [List.zipWith_cons_cons, List.map_cons, List.map_cons, h, zip_elem f g p h as bs (by simpa using e)]
  | [], _ :: _, e => by simp at e
  | _ :: _, [], e => by simp at e

theorem assign_length {φ : Type} (es : List (SElem ℚ φ)) : ∀ n, (assignOffsets n es).length = es.length := by
  induction es with
  | nil => intro n; rfl
  | cons e es ih => intro n; rw [assignOffsets, List.length_cons, List.length_cons, ih]

theorem discr_length (M : Means nuReader w.eff (filesOf w.read) s D) : D.parsed.elems.length = D.discr.length := by
  obtain ⟨_, _, _, _, _, _, _, _, _, _, raws, he, hp⟩ := M.stack
  obtain ⟨es, n, h1, -, -, -, -, -, h2, -⟩ := parseStack_spec hp
  rw [h2, assign_length, List.length_reverse, ← h1.length_eq, ← he.length_eq]
  have := M.discr.length_eq
  rw [List.length_reverse] at this
  exact this

theorem nElems_elems (M : Means nuReader w.eff (filesOf w.read) s D) :
    (nElems D).map (·.elem) = (parsedMap (List.map (elOf D.mats)) D.parsed).elems :=
  zip_elem (elemMap (List.map (elOf D.mats))) (fun e (n : Nat × Nat) => (⟨elemMap (List.map (elOf D.mats)) e, n.1, n.2⟩ : NU.NElem ℚ)) (·.elem)
    (fun _ _ => rfl) _ _ (discr_length M)

theorem grid_fill (M : Means nuReader w.eff (filesOf w.read) s D) (h : gridNU D = some G) :
    fillGrid D.parsed.dims.nLayers D.parsed.elems D.top D.bottom = some G.g ∧ G.d = D.parsed.dims := by
  unfold gridNU NU.buildNU at h
  obtain ⟨n, -, h⟩ := Option.bind_eq_some_iff.mp h
  simp only at h
  rw [NU.fillGrid_fix, nElems_elems M] at h
  obtain ⟨g, hg, rfl⟩ := Option.map_eq_some_iff.mp h
  refine ⟨?_, rfl⟩
  rw [← fillGrid_map (List.map (elOf D.mats))]
  exact hg

/-- The part of a session that comes before the simulation. -/
structure StartedNU (w : World π) (s : StackD) (D : Desc NFlps) (an : Analysis ℚ) (G : NU.Grid ℚ) (s0 : NU.NSim ℚ π) : Prop where
  means : Means nuReader w.eff (filesOf w.read) s D
  grid : gridNU D = some G
  started : ∃ q L, initPlugin w D an = some q ∧ NU.Runs (NU.regions G.d.nLayers G.ty G.ls) L ∧ startNU w an G L q = some s0

theorem SessionNU.start (h : SessionNU w file s D an G s0 log s') : StartedNU w s D an G s0 := ⟨h.means, h.grid, h.started⟩

/-- The simulation of a sensible file begins with the grid of C54 to C64, and with a chip that is filled by rows and columns. -/
theorem StartedNU.begun (h : StartedNU w s D an G s0) (hs : Sensible w.eff (filesOf w.read) s) :
    ∃ d0 raws, List.Forall₂ (ElemIs nuReader (filesOf w.read) s d0) s.elems raws ∧
      NU.Begun (configNU w an) d0 D.chan (raws.map (rawMap (List.map (elOf D.mats)))) (nElems D) s0 ∧ s0.G = G ∧ G.d = D.parsed.dims ∧
      G.g.top = D.top ∧ G.g.bottom = D.bottom ∧
      Physical G.g G.d ∧ GoodGrid G.d ∧ gridLength G.d = s.dims.chipL ∧ gridWidth G.d = s.dims.chipW ∧
      ∃ n hs k, G.d = { d0 with nLayers := n, heights := hs, nCells := k } := by
  obtain ⟨hg, hd⟩ := grid_fill h.means h.grid
  obtain ⟨d0, raws, h1, h2, h3, h4, h5, h6, h7⟩ := grid_good hs h.means hg
  obtain ⟨q, L, -, hL, hst⟩ := h.started
  obtain ⟨-, t2, t3, -⟩ := C18_sinks_change_only_outermost_layers h2.ok h2.parse hg
  have hb : BuiltFrom d0 D.chan (raws.map (rawMap (List.map (elOf D.mats)))) (parsedMap (List.map (elOf D.mats)) D.parsed) G.g := by
    refine ⟨h2.rows, h2.cols, h2.geo, h2.ok, ?_, ?_⟩
    · rw [parseStack_map, h2.parse]; rfl
    · have := h2.fill
      rw [← fillGrid_map (List.map (elOf D.mats))] at this
      exact this
  have hG : s0.G = G ∧ s0.conns = L := by
    unfold startNU NU.buildSim at hst
    simp only at hst
    split_ifs at hst
    cases hst
    exact ⟨rfl, rfl⟩
  refine ⟨d0, raws, h1, ⟨⟨_, G.g, hb, nElems_elems h.means, ?_⟩, ?_, q, ?_⟩, hG.1, hd, t2, t3, by rw [hd]; exact h3, by rw [hd]; exact h4,
    by rw [hd]; exact h5, by rw [hd]; exact h6, by rw [hd]; exact h7⟩
  · rw [t2, t3, hG.1]
    exact h.grid
  · rw [hG.1, hG.2]; exact hL
  · rw [hG.1, hG.2]; exact hst

theorem SessionNU.begun (h : SessionNU w file s D an G s0 log s') (hs : Sensible w.eff (filesOf w.read) s) :
    ∃ d0 raws, List.Forall₂ (ElemIs nuReader (filesOf w.read) s d0) s.elems raws ∧
      NU.Begun (configNU w an) d0 D.chan (raws.map (rawMap (List.map (elOf D.mats)))) (nElems D) s0 ∧ s0.G = G ∧ G.d = D.parsed.dims ∧
      G.g.top = D.top ∧ G.g.bottom = D.bottom ∧
      Physical G.g G.d ∧ GoodGrid G.d ∧ gridLength G.d = s.dims.chipL ∧ gridWidth G.d = s.dims.chipW ∧
      ∃ n hs k, G.d = { d0 with nLayers := n, heights := hs, nCells := k } := h.start.begun hs

end Verif.Prog
