import Verif.Props.NonUniformRegular
import Verif.Props.NuMonotone

set_option linter.unusedSectionVars false
set_option linter.unusedSimpArgs false
set_option linter.unusedVariables false

/-! # C56, fourth part: a bottom sink

With a bottom sink the two modes do not build the same system (`C56_matrices`, `C56_sources`): the non-uniform one lacks the conductance
to the ambient of the bottom sink in the matrix and takes too large a conductance in the sources. Both errors have the same sign. -/

namespace Verif.NU
open Verif.Dim Verif.TG Verif.Stk Verif.SM

variable {K : Type} [Field K] [LinearOrder K] [IsStrictOrderedRing K]
variable {d0 : Dims K} {rs : List (Raw K (List (FEl K)))} {ns : List (NElem K)} {G : Grid K} {a : Ana K} {m : Csc K}

section
variable {L R C : Nat → Nat} (hf : FromFile d0 rs ns G) (ph : PhysicalNU G) (hc : SameCells G L R C)
  {s : Sink K} (ht : G.g.top = some (.ambient s)) {b : Sink K} (hb : G.g.bottom = some b) (hpos : 0 < b.htc)
include hf ph hc ht hb hpos

/-- The conductance used for the sources is larger than the conductance to the ambient. -/
theorem bottom_face {q : Cell K} (hq : q ∈ G.cells) (hl : q.layer = 0) : 0 < toBottom G q ∧ toBottom G q < toBottomFace G q := by
  have hk := (ph.mat q hq (by rw [hl]; exact hf.wf.L1)).2.2.1
  have hh := heightAt_pos hf.wf ph.hts hf.wf.L1
  have hA : 0 < area q := by
    obtain ⟨q1, q2⟩ := ph.cell q hq
    unfold area; positivity
  unfold toBottom toBottomFace
  rw [hb]
  simp only
  rw [if_pos hl, hl, ← series_top hk hh hpos hA]
  refine ⟨by positivity, ?_⟩
  rw [div_lt_div_iff₀ (by positivity) (by positivity)]
  have h1 : 0 < (ownMat G q).kz * (ownMat G q).kz * area q := by positivity
  have h2 : (ownMat G q).kz * area q * (height G.d 0 * b.htc + 2 * (ownMat G q).kz) - 2 * (ownMat G q).kz * b.htc * area q * (height G.d 0 / 2) =
      2 * ((ownMat G q).kz * (ownMat G q).kz * area q) := by ring
  linarith

/-- During a slot every cell of the lowest layer gets more heat in non-uniform mode than in uniform mode, if the ambient of the bottom
sink is above zero; all the others get the same. -/
theorem C56_bottom_sources_violated {π : Type} (htb : 0 < b.tAmb) (hfull : Full G) (hgf : GoodFloorplans G) {cfg : Emu.Cfg K π}
    {t : Emu.Sim K π} (hd : cfg.d = G.d) (hg : t.g = G.g)
    (hr : Emu.Reachable cfg t) (hsl : cfg.an.slotLength ∣ t.time) {raws : Nat → List (Flp.RawEl K)} (hrf : Emu.ReadFrom cfg.d raws t)
    (hsf : SameFloorplans G raws (Emu.floorplan t)) {S : List K} {fl' : List (Option (List (FEl K)))}
    (h : sourcesNU G.g G.d G.cells G.flps = some (S, fl'))
    (k : Nat) (hk1 : 1 ≤ k) (hk : k ≤ cfg.an.slotLength) (hW : t.time + k < 2 ^ 32) (hok : ∀ r ∈ (Emu.steps cfg k t).1, Emu.Succeeded r)
    {i : Nat} {q : Cell K} (hq : G.cells[i]? = some q) :
    ∃ v, S[i]? = some v ∧ (q.layer = 0 → Emu.sourceAt cfg.d (Emu.steps cfg k t).2 (L i) (R i) (C i) < v) ∧
      (q.layer ≠ 0 → Emu.sourceAt cfg.d (Emu.steps cfg k t).2 (L i) (R i) (C i) = v) := by
  refine ⟨_, C56_sources hf ph hc ht (fun b' h => by rw [hb] at h; cases h; exact hpos) hfull hgf hd hg hr hsl hrf hsf h k hk1 hk hW hok hq, ?_, ?_⟩
  · intro h0
    have := (bottom_face hf ph hc ht hb hpos (List.mem_of_getElem? hq) h0).2
    have e : 0 < b.tAmb * (toBottomFace G q - toBottom G q) := mul_pos htb (by linarith)
    rw [hb]; simp only; rw [if_pos h0]; linarith
  · intro h0
    rw [hb]; simp only; rw [if_neg h0, add_zero]

/-- A time step with at least the same heat leaves the cells of the non-uniform grid at least as warm as those of the uniform grid
(temperatures counted from absolute zero): the bottom sink cools nothing. -/
theorem C56_bottom_warmer (hs : Sharp G) (hm : Assembled id G a m) (hat : a.transient = true) (ha : 0 < a.stepTime) {x y bN bU : Nat → K}
    (hx : Solves G.cells.length m.entry x bN) (hy : Solves G.d.nCells (fillMatrix G.g a G.d).entry y bU) (hy0 : ∀ k, k < G.d.nCells → 0 ≤ y k)
    (hle : ∀ i, i < G.cells.length → bU (offInStack G.d (L i) (R i) (C i)) ≤ bN i) :
    ∀ i, i < G.cells.length → y (offInStack G.d (L i) (R i) (C i)) ≤ x i := by
  obtain ⟨h1, h2, h3⟩ := renumber hf hc ht
  obtain ⟨-, -, hent⟩ := C56_matrices hf ph hc ht (fun b' h => by rw [hb] at h; cases h; exact hpos) hs hm
  have hz : ∀ (i : Nat) q, G.cells[i]? = some q → 0 ≤ toBottom G q := by
    intro i q hq
    by_cases h0 : q.layer = 0
    · exact (bottom_face hf ph hc ht hb hpos (List.mem_of_getElem? hq) h0).1.le
    · unfold toBottom; rw [hb]; simp only; rw [if_neg h0]
  have hsol : Solves G.cells.length m.entry (fun i => x i - y (offInStack G.d (L i) (R i) (C i)))
      (fun i => bN i - bU (offInStack G.d (L i) (R i) (C i)) + ((G.cells[i]?).map (toBottom G)).getD 0 * y (offInStack G.d (L i) (R i) (C i))) := by
    intro i hi
    have e1 := hx i hi
    have e2 := hy _ (h1 i hi)
    rw [← sum_renumber hf hc ht] at e2
    have e3 : ∀ j ∈ Finset.range G.cells.length,
        (fillMatrix G.g a G.d).entry (offInStack G.d (L i) (R i) (C i)) (offInStack G.d (L j) (R j) (C j)) * y (offInStack G.d (L j) (R j) (C j)) =
        m.entry i j * y (offInStack G.d (L j) (R j) (C j)) + (if i = j then toBottom G G.cells[i] * y (offInStack G.d (L i) (R i) (C i)) else 0) := by
      intro j hj
      rw [← hent i j _ (List.getElem?_eq_getElem hi) (Finset.mem_range.mp hj)]
      by_cases hij : i = j
      · subst hij; rw [if_pos rfl, if_pos rfl]; ring
      · rw [if_neg hij, if_neg hij]; ring
    rw [Finset.sum_congr rfl e3, Finset.sum_add_distrib, Finset.sum_ite_eq, if_pos (Finset.mem_range.mpr hi)] at e2
    rw [Finset.sum_congr rfl fun j _ => mul_sub (m.entry i j) (x j) _, Finset.sum_sub_distrib, e1]
    simp only [List.getElem?_eq_getElem hi, Option.map_some, Option.getD_some]
    linarith
  intro i hi
  have := solid_step hf.stack ph hm hat ha hsol (fun i hi => by
    have q1 := hle i hi
    have q2 := hy0 _ (h1 i hi)
    simp only [List.getElem?_eq_getElem hi, Option.map_some, Option.getD_some]
    have q3 := mul_nonneg (hz i _ (List.getElem?_eq_getElem hi)) q2
    linarith) i hi
  linarith

end

/-! ## Example: the stack of the third part on a bottom sink -/

def botG : TGrid ℚ := { regG with types := [.sourcePcb, .solidAmb], bottom := some ⟨2, 310⟩ }
def botGrid (p q : ℚ) : Grid ℚ := { regGrid p q with g := botG }

theorem botFrom (p q : ℚ) : FromFile regD0 (regRaw p q) (regElems p q) (botGrid p q) := by
  refine ⟨_, botG, ⟨?_, ?_, ?_, ?_, rfl, rfl⟩, rfl, rfl⟩
  · show 1 ≤ 2; decide
  · show 1 ≤ 2; decide
  · intro s h; simp [spreaderOf, botG, regG] at h
  · rintro ch h; simp at h

theorem botOwn (p q : ℚ) : ∀ c ∈ (botGrid p q).cells, ownMat (botGrid p q) c = exMat ∧ ∀ r k, cellMaterial (layerAt (botGrid p q).g c.layer) (botGrid p q).d r k = exMat := by
  intro c hc
  rw [show (botGrid p q).cells = (regGrid p q).cells from rfl, regCells] at hc
  simp only [List.mem_cons, List.not_mem_nil, or_false] at hc
  rcases hc with rfl | rfl | rfl | rfl | rfl | rfl | rfl | rfl <;> exact ⟨rfl, fun _ _ => rfl⟩

theorem botPhysical (p q : ℚ) : PhysicalNU (botGrid p q) := by
  have h := regPhysical p q
  refine ⟨h.hts, h.cell, ?_, h.htc, h.spr⟩
  intro c hc _
  rw [(botOwn p q c hc).1]; exact exMat_pos

theorem botSame (p q : ℚ) : ∃ L R C, SameCells (botGrid p q) L R C := by
  obtain ⟨L, R, C, h, -⟩ := regSame p q
  refine ⟨L, R, C, ⟨fun i c hc => ?_, h.once⟩⟩
  obtain ⟨h1, h2, h3, h4⟩ := h.is i c hc
  refine ⟨h1, h2, h3, ⟨h4.layer, h4.x0, h4.x1, h4.y0, h4.y1, ?_⟩⟩
  have e := botOwn p q c (List.mem_of_getElem? hc)
  rw [e.1, ← h4.layer, e.2]

/-- The two matrices of the example differ. -/
example (p q : ℚ) (a : Ana ℚ) : ∃ m L R C, Assembled id (botGrid p q) a m ∧ SameCells (botGrid p q) L R C ∧
    ∀ i, i < 4 → m.entry i i < (fillMatrix botG a regD).entry (offInStack regD (L i) (R i) (C i)) (offInStack regD (L i) (R i) (C i)) := by
  obtain ⟨m, hm⟩ := assembled_exists id (botGrid p q) a
  obtain ⟨L, R, C, h⟩ := botSame p q
  refine ⟨m, L, R, C, hm, h, fun i hi => ?_⟩
  have := (C56_bottom_sink_violated (botFrom p q) (botPhysical p q) h (s := ⟨1, 300⟩) rfl (b := ⟨2, 310⟩) rfl (by norm_num) (regSharp p q) hm).2
  have hc : (botGrid p q).cells = _ := regCells p q
  interval_cases i
  · exact this 0 _ (by rw [hc]; rfl) rfl
  · exact this 1 _ (by rw [hc]; rfl) rfl
  · exact this 2 _ (by rw [hc]; rfl) rfl
  · exact this 3 _ (by rw [hc]; rfl) rfl

/-- From the same temperature of 300 in all cells of the uniform grid: the non-uniform grid needs no more heat to stay above it. -/
example (p q : ℚ) : ∃ (m : Csc ℚ) (L R C : Nat → Nat) (x : Nat → ℚ), Assembled id (botGrid p q) ⟨true, 1⟩ m ∧ SameCells (botGrid p q) L R C ∧
    Solves 8 m.entry x (fun i => ∑ k ∈ Finset.range 8, (fillMatrix botG ⟨true, 1⟩ regD).entry (offInStack regD (L i) (R i) (C i)) k * 300) ∧
    ∀ i, i < 8 → 300 ≤ x i := by
  obtain ⟨m, hm⟩ := assembled_exists id (botGrid p q) ⟨true, 1⟩
  obtain ⟨L, R, C, h⟩ := botSame p q
  have hlen : (botGrid p q).cells.length = 8 := by
    rw [show (botGrid p q).cells = (regGrid p q).cells from rfl, regCells]; rfl
  obtain ⟨x, hx, -⟩ := (C44_dominant_unique (botFrom p q) (botPhysical p q) hm rfl (by norm_num)).2.2
    (fun i => ∑ k ∈ Finset.range 8, (fillMatrix botG ⟨true, 1⟩ regD).entry (offInStack regD (L i) (R i) (C i)) k * 300)
  have hw := C56_bottom_warmer (botFrom p q) (botPhysical p q) h (s := ⟨1, 300⟩) rfl (b := ⟨2, 310⟩) rfl (by norm_num) (regSharp p q) hm rfl (by norm_num)
    hx (y := fun _ => 300) (bU := fun j => ∑ k ∈ Finset.range 8, (fillMatrix botG ⟨true, 1⟩ regD).entry j k * 300) (fun i _ => rfl)
    (fun _ _ => by norm_num) (fun i _ => le_refl _)
  rw [hlen] at hx hw
  exact ⟨m, L, R, C, x, hm, h, hx, hw⟩

/-! The same stack in uniform mode. -/

def botSim (els : List (Flp.FlpEl ℚ)) : Emu.Sim ℚ Unit :=
  { g := botG, mat := fillMatrix botG regCfg.an.ana regD, temps := List.replicate regD.nCells 300,
    sources := List.replicate regD.nCells 0, caps := Emu.capList botG regD, topTcs := Emu.topList botG regD,
    botTcs := Emu.botList botG regD, flps := [some els, none], time := 0, plug := () }

theorem botReachable (els : List (Flp.FlpEl ℚ)) : Emu.Reachable regCfg (botSim els) := by
  refine ⟨[⟨"top", .layer (exLayer 7)⟩, ⟨"die", .die ⟨[], exLayer 5, [], els⟩⟩], botSim els, [], ?_, rfl⟩
  refine ⟨regD0, none, ⟨[⟨"die", .die ⟨[exLayer 5], 0, els⟩, 0⟩, ⟨"top", .layer (exLayer 7), 1⟩], regD, _⟩, (), ⟨?_, ?_, ?_, ?_, rfl, rfl⟩, rfl, ?_⟩
  · show 1 ≤ 2; decide
  · show 1 ≤ 2; decide
  · intro s h; simp [spreaderOf, botG, regG, botSim] at h
  · rintro ch h; simp at h
  · unfold Emu.build; rw [if_pos (by rfl)]; rfl

/-- After the first step of the simulation in uniform mode, the cells of the die get less heat than in non-uniform mode. -/
example (p q : ℚ) : ∃ els L R C S fl', SameCells (botGrid p q) L R C ∧
    sourcesNU (botGrid p q).g (botGrid p q).d (botGrid p q).cells (botGrid p q).flps = some (S, fl') ∧
    ∀ (i : Nat) c, (botGrid p q).cells[i]? = some c → ∃ v, S[i]? = some v ∧
      (c.layer = 0 → Emu.sourceAt regD (Emu.steps regCfg 1 (botSim els)).2 (L i) (R i) (C i) < v) ∧
      (c.layer ≠ 0 → Emu.sourceAt regD (Emu.steps regCfg 1 (botSim els)).2 (L i) (R i) (C i) = v) := by
  obtain ⟨e1, h1⟩ := Flp.parse_total regGood (raw := regRaw1 p) (by simp [regRaw1]) (regIn p q _ (by simp)) (by
    intro e he; simp only [regRaw1, List.mem_singleton] at he; subst he; norm_num [Flp.checkLocation, Flp.epsilon, regD, regD0, exDims])
  obtain ⟨e2, h2⟩ := Flp.parse_total regGood (raw := regRaw2 q) (by simp [regRaw2]) (regIn p q _ (by simp)) (by
    intro e he; simp only [regRaw2, List.mem_singleton] at he; subst he; norm_num [Flp.checkLocation, Flp.epsilon, regD, regD0, exDims])
  have p1 := (Flp.parse_el h1).2.2.2.1
  have p2 := (Flp.parse_el h2).2.2.2.1
  obtain ⟨L, R, C, h⟩ := botSame p q
  obtain ⟨S, hS⟩ := (C53_one_value_each (botFrom p q) (regFull p q)).2 (by
    intro l es h e he
    match l, h with
    | 0, h =>
      simp only [botGrid, regGrid, List.getElem?_cons_zero, Option.some.injEq] at h
      subst h
      simp only [List.mem_cons, List.not_mem_nil, or_false] at he
      rcases he with rfl | rfl <;> simp
    | 1, h => simp [botGrid, regGrid] at h
    | l + 2, h => simp [botGrid, regGrid] at h)
  have hre := botReachable [e1, e2]
  refine ⟨[e1, e2], L, R, C, S.1, S.2, h, hS, fun i c hi => ?_⟩
  refine C56_bottom_sources_violated (botFrom p q) (botPhysical p q) h (s := ⟨1, 300⟩) rfl (b := ⟨2, 310⟩) rfl (by norm_num) (by norm_num) (regFull p q) ?_ (cfg := regCfg) (t := botSim [e1, e2]) rfl rfl
    hre (Nat.dvd_zero 1) (raws := regRaws p q) ?_ ?_ hS 1 (le_refl _) (le_refl _) (by simp [botSim]) ?_ hi
  · intro l es hes
    match l, hes with
    | 0, hes =>
      simp only [botGrid, regGrid, List.getElem?_cons_zero, Option.some.injEq] at hes
      subst hes
      refine ⟨?_, ?_⟩
      · intro x y
        simp only [List.map_cons, List.map_nil, List.countP_cons, List.countP_nil, inRect, decide_eq_true_eq, Nat.zero_add]
        split_ifs with h1 h2 h2 <;> first | omega | skip
        all_goals (exfalso; linarith [h1.1, h2.2.1])
      · intro e he
        simp only [List.mem_cons, List.not_mem_nil, or_false] at he
        rcases he with rfl | rfl <;> norm_num
    | 1, hes => simp [botGrid, regGrid] at hes
    | l + 2, hes => simp [botGrid, regGrid] at hes
  · refine ⟨regGood, ?_, ?_⟩
    · intro l hl
      have hl : l < 2 := hl
      interval_cases l
      · exact .cons ⟨e1, h1, rfl, rfl⟩ (.cons ⟨e2, h2, rfl, rfl⟩ .nil)
      · exact .nil
    · intro l hl raw hr e he
      cases l with
      | zero => exact regIn p q raw hr e he
      | succ l => simp [regRaws] at hr
  · refine ⟨?_, ?_⟩
    · intro l es hes
      match l, hes with
      | 0, hes =>
        simp only [botGrid, regGrid, List.getElem?_cons_zero, Option.some.injEq] at hes
        subst hes
        refine .cons ⟨rfl, ?_⟩ (.cons ⟨rfl, ?_⟩ .nil)
        · unfold Flp.next; rw [p1]; rfl
        · unfold Flp.next; rw [p2]; rfl
      | 1, hes => simp [botGrid, regGrid] at hes
      | l + 2, hes => simp [botGrid, regGrid] at hes
    · intro l hl
      cases l with
      | zero => exact absurd rfl (hl _)
      | succ l => rfl
  · have hg := Emu.reachable_good hre
    intro r hr
    have e0 : Emu.steps regCfg 1 (botSim [e1, e2]) = ([(Emu.emulateStep regCfg (botSim [e1, e2])).1], (Emu.emulateStep regCfg (botSim [e1, e2])).2) := rfl
    rw [e0, List.mem_singleton] at hr
    subst hr
    rw [Emu.step_start hg.ready rfl rfl (by
      intro e he
      simp only [Emu.elements, botSim] at he
      simp at he
      rcases he with rfl | rfl
      · rw [p1]; simp [regRaw1]
      · rw [p2]; simp [regRaw2])]
    rw [Emu.finish_ok (by unfold Emu.pluggable; rfl) (x := _) rfl]
    simp only
    generalize Emu.slotCompleted _ _ = b
    cases b
    · exact Or.inl rfl
    · exact Or.inr rfl

end Verif.NU
