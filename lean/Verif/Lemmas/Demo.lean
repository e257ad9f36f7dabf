import Verif.Lemmas.State
import Verif.Props.Slots

/-! A liquid-cooled example that meets the hypotheses of the theorems on whole simulations: two dies of two layers with a 4RM channel
between them, an ambient sink on top, a board at the bottom; 2 × 5 cells per layer, 50 cells. -/

set_option linter.unusedSectionVars false
set_option linter.unusedSimpArgs false
set_option linter.unusedVariables false

namespace Verif.Emu
open Verif.Dim Verif.TG Verif.SM Verif.Flp Verif.Stk

variable {K : Type} [Field K] [LinearOrder K] [IsStrictOrderedRing K] {π : Type}

/-- A solver: the vector it returns has one entry per cell and solves the linear system. -/
def Correct (cfg : Cfg K π) : Prop := ∀ A b x, cfg.solve A b = some x →
  x.length = cfg.d.nCells ∧ Solves cfg.d.nCells A.entry (fun i => x.getD i 0) (fun i => b.getD i 0)

open Classical in
/-- The solver that returns some solution if there is one. -/
noncomputable def exactSolve (n : Nat) (A : Csc K) (b : List K) : Option (List K) :=
  if h : ∃ x : List K, x.length = n ∧ Solves n A.entry (fun i => x.getD i 0) (fun i => b.getD i 0) then some h.choose else none

theorem exactSolve_correct {n : Nat} {A : Csc K} {b x : List K} (h : exactSolve n A b = some x) :
    x.length = n ∧ Solves n A.entry (fun i => x.getD i 0) (fun i => b.getD i 0) := by
  unfold exactSolve at h
  split at h
  · next hx => rw [Option.some.injEq] at h; subst h; exact hx.choose_spec
  · cases h

theorem exactSolve_some {n : Nat} {A : Csc K} {b : List K} (h : OneSolution n A.entry (fun i => b.getD i 0)) :
    ∃ x, exactSolve n A b = some x := by
  obtain ⟨x, hx, -⟩ := h
  unfold exactSolve
  rw [dif_pos]
  · exact ⟨_, rfl⟩
  · refine ⟨(List.range n).map x, by simp, ?_⟩
    intro i hi
    have := hx i hi
    refine Eq.trans ?_ this
    refine Finset.sum_congr rfl fun j hj => ?_
    rw [Finset.mem_range] at hj
    simp [List.getD_eq_getElem?_getD, hj]

/-! ### The stack -/

def chipRaw (top bottom : List (FlpEl ℚ)) : List (Raw ℚ (List (FlpEl ℚ))) :=
  [⟨"top", .die ⟨[exLayer 20], exLayer 5, [], top⟩⟩, ⟨"ch", .channel⟩, ⟨"bottom", .die ⟨[exLayer 20], exLayer 5, [], bottom⟩⟩]
def chipD : Dims ℚ := { okDims with nLayers := 5, nCells := 50, heights := [5, 20, 100, 5, 20] }
def chipG : TGrid ℚ :=
  { nLayers := 5, types := [.sourcePcb, .solid, .ch4rm, .source, .solidAmb],
    layers := [exLayer 5, exLayer 20, ⟨100, exMat, []⟩, exLayer 5, exLayer 20], channel := some (exChannel .mc4rm),
    top := some (.ambient ⟨1, 300⟩), bottom := some ⟨2, 300⟩ }

noncomputable def chipCfg (t : AType) (L : Nat) : Cfg ℚ Unit :=
  { d := chipD, an := ⟨t, 1 / 100, L, 300⟩, solve := exactSolve 50, factor := fun _ => true, plugin := fun u _ _ => (u, some []) }
noncomputable def chipSim (t : AType) (L : Nat) (top bottom : List (FlpEl ℚ)) : Sim ℚ Unit :=
  { g := chipG, mat := fillMatrix chipG (chipCfg t L).an.ana chipD, temps := List.replicate chipD.nCells 300,
    sources := List.replicate chipD.nCells 0, caps := capList chipG chipD, topTcs := topList chipG chipD,
    botTcs := botList chipG chipD, flps := [some bottom, none, none, some top, none], time := 0, plug := () }

theorem chip_builtFrom (top bottom : List (FlpEl ℚ)) : ∃ p, BuiltFrom okDims (some (exChannel .mc4rm)) (chipRaw top bottom) p chipG ∧
    p.dims = chipD ∧ fillFloorplans p.dims.nLayers p.elems = [some bottom, none, none, some top, none] := by
  refine ⟨⟨[⟨"bottom", .die ⟨[exLayer 20, exLayer 5], 0, bottom⟩, 0⟩, ⟨"ch", .channel (exChannel .mc4rm), 2⟩,
    ⟨"top", .die ⟨[exLayer 20, exLayer 5], 0, top⟩, 3⟩], chipD,
    SM.numConnections { okDims with nLayers := 5, heights := [5, 20, 100, 5, 20] } .mc4rm 1 none⟩, ⟨?_, ?_, ?_, ?_, ?_, ?_⟩, rfl, rfl⟩
  · exact (by decide : 1 ≤ chipD.nRows)
  · exact (by decide : 1 ≤ chipD.nCols)
  · intro s h; simp [spreaderOf, chipG] at h
  · rintro ch h; simp only [Option.some.injEq] at h; subst h; simp [exChannel]
  · rfl
  · rfl

theorem chipBuilt : Built (List (FlpEl ℚ)) chipG chipD := by
  obtain ⟨p, h1, h2, -⟩ := chip_builtFrom [] []
  rw [← h2]; exact h1.built

theorem chipPhysical : Physical chipG chipD := by
  refine ⟨by norm_num [chipD, okDims, exDims], by norm_num [chipD, okDims, exDims], ?_, ?_, ?_, ?_, ?_, ?_⟩
  · intro h hh; simp [chipD] at hh; rcases hh with rfl | rfl | rfl | rfl | rfl <;> norm_num
  · intro ly hly
    simp only [chipG, exLayer, List.mem_cons, List.not_mem_nil, or_false] at hly
    rcases hly with rfl | rfl | rfl | rfl | rfl <;> exact ⟨exMat_pos, by intro m hm; cases hm⟩
  · intro s h; simp [chipG] at h; subst h; norm_num
  · intro s h; simp [chipG] at h; subst h; norm_num
  · intro s m h; simp [chipG] at h
  · intro ch h; simp [chipG] at h; subst h; norm_num [CoolantOk, exChannel, exCoolant]

theorem chip_started (t : AType) (L : Nat) (top bottom : List (FlpEl ℚ)) :
    Started (chipCfg t L) (chipRaw top bottom) (chipSim t L top bottom) := by
  obtain ⟨p, h1, h2, h3⟩ := chip_builtFrom top bottom
  refine ⟨okDims, _, p, (), h1, h2.symm, ?_⟩
  unfold build; rw [if_pos (by rfl), h3]; rfl

theorem chip_reachable (t : AType) (L : Nat) (top bottom : List (FlpEl ℚ)) : Reachable (chipCfg t L) (chipSim t L top bottom) :=
  ⟨_, _, [], chip_started t L top bottom, rfl⟩

theorem chip_correct (t : AType) (L : Nat) : Correct (chipCfg t L) := fun A b x h => exactSolve_correct h

theorem chip_elements (t : AType) (L : Nat) (top bottom : List (FlpEl ℚ)) : elements (chipSim t L top bottom) = bottom ++ top := by
  simp [elements, chipSim]

theorem chipGrid : GoodGrid chipD := by
  have hs : Sized chipD := ⟨by simp [chipD, okDims, exDims, W], by simp [chipD, okDims, exDims, W]⟩
  refine ⟨hs, by norm_num [chipD, okDims, exDims], by norm_num [chipD, okDims, exDims], ?_⟩
  exact (covers_4rm hs 1 rfl).mpr (by norm_num [chipD, okDims, exDims])

theorem chip_inGrid : ∀ raw ∈ [okRaw1, okRaw2], ∀ e ∈ raw.rects, InGrid chipD e := by
  have hl : gridLength chipD = 70 := by
    rw [gridLength_4rm chipGrid.sized 1 rfl]; norm_num [chipD, okDims, exDims]
  have hw : gridWidth chipD = 20 := by rw [gridWidth_eq chipGrid.sized]; norm_num [chipD, okDims, exDims]
  intro raw hr e he
  have := okIn raw hr e he
  have h0 := ok_length; have h1 := ok_width
  obtain ⟨a, b, c, d, e, f⟩ := this
  rw [h0] at *; rw [h1] at *
  constructor <;> first | assumption | (rw [hl]; assumption) | (rw [hw]; assumption)

/-- Elements read from the two rectangles of `okRaw1` and `okRaw2`, with any power values. -/
theorem chip_parse (p q : List ℚ) : ∃ e1 e2 : FlpEl ℚ, List.Forall₂ (From chipD) [okRaw1, okRaw2] [e1, e2] ∧ e1.powers = p ∧ e2.powers = q ∧
    e1.name = "cpu" ∧ e2.name = "gpu" := by
  have hin := chip_inGrid
  obtain ⟨e1, h1⟩ := parse_total chipGrid (raw := okRaw1) (by simp [okRaw1]) (hin _ (by simp)) (fun e he => okLoc okRaw1 (by simp) e he)
  obtain ⟨e2, h2⟩ := parse_total chipGrid (raw := okRaw2) (by simp [okRaw2]) (hin _ (by simp)) (fun e he => okLoc okRaw2 (by simp) e he)
  have n1 := (parse_el h1)
  have n2 := (parse_el h2)
  refine ⟨{ e1 with powers := p }, { e2 with powers := q }, .cons ⟨e1, h1, rfl, rfl⟩ (.cons ⟨e2, h2, rfl, rfl⟩ .nil), rfl, rfl, ?_, ?_⟩
  · exact n1.2.2.2.2.trans rfl
  · exact n2.2.2.2.2.trans rfl

/-- A transient step of the example does not fail: the matrix has exactly one solution (C22). -/
theorem chip_step {L : Nat} {s : Sim ℚ Unit} (h : Good (chipCfg .transient L) s) (hg : s.g = chipG)
    (hp : s.time % L = 0 → ∀ e ∈ elements s, e.powers ≠ []) : Succeeded (emulateStep (chipCfg .transient L) s).1 := by
  have hm : s.mat = fillMatrix chipG ⟨true, 1 / 100⟩ chipD := by rw [h.mat, hg]; rfl
  have hfin : ∀ s1 : Sim ℚ Unit, s1.g = chipG → s1.mat = fillMatrix chipG ⟨true, 1 / 100⟩ chipD →
      Succeeded (finishStep (chipCfg .transient L) s1).1 := by
    intro s1 hg1 hm1
    have hpl : pluggable (chipCfg .transient L) s1 = (s1, true) := by
      unfold pluggable; rw [hg1]; rfl
    obtain ⟨x, hx⟩ := exactSolve_some (n := 50) (A := s1.mat) (b := fillSystemVector (chipCfg .transient L) s1)
      (by rw [hm1]; exact C22_coolant_step_unique chipBuilt chipPhysical ⟨true, 1 / 100⟩ rfl (by norm_num) _)
    rw [finish_ok hpl hx]
    simp only
    generalize slotCompleted _ _ = b
    cases b
    · exact Or.inl rfl
    · exact Or.inr rfl
  by_cases hb : s.time % L = 0
  · rw [step_start (cfg := chipCfg .transient L) h.ready rfl hb (hp hb)]
    exact hfin _ hg hm
  · rw [step_inside (cfg := chipCfg .transient L) rfl hb]
    exact hfin _ hg hm

end Verif.Emu
