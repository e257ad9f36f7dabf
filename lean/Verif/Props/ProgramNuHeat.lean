import Verif.Props.ProgramNuOut
import Verif.Props.ProgramAccept
import Verif.Props.ProgramHeat
import Verif.Lemmas.NuPhysical
import Verif.Props.NuPlug

/-! # C70: the temperatures that the program computes on a non-uniform grid, in terms of the description files -/

set_option linter.unusedSectionVars false
set_option linter.unusedSimpArgs false
set_option linter.unusedVariables false

namespace Verif.Prog
open Verif.Gram Verif.Dim Verif.TG Verif.SM Verif.Stk Verif.FE Verif.Emu Verif.Flp

variable {π : Type}

/-! ### Specification -/

/-- A division into cells that makes sense: at least one column and one row in every layer and die (given, or as many as cells of the chip), and
the materials that the floorplan elements name are declared in the stack file. -/
structure GoodDivision (files : Files) (s : StackD) : Prop where
  cell : s.dims.cellL ≤ s.dims.chipL ∧ s.dims.cellW ≤ s.dims.chipW
  layers : ∀ id ref n, .layer id ref (some n) ∈ s.elems → 1 ≤ n.1 ∧ 1 ≤ n.2
  dies : ∀ id ref p n, .die id ref p (some n) ∈ s.elems → 1 ≤ n.1 ∧ 1 ≤ n.2
  mats : ∀ id ref p o f, .die id ref p o ∈ s.elems → files.flp p = some f → ∀ e ∈ f, ∀ x y l w m n, e.area = .one x y l w (some m) n → ∃ q ∈ s.mats, q.id = m

/-! ### Proofs -/

variable {w : World π} {file : String} {s : StackD} {D : Desc NFlps} {an : Analysis ℚ} {G : NU.Grid ℚ} {s0 s' : NU.NSim ℚ π} {log : NLog}

theorem forall₂_comp {α β γ : Type} {r : α → β → Prop} {q : β → γ → Prop} {as : List α} {bs : List β} {cs : List γ} (h : List.Forall₂ r as bs)
    (h' : List.Forall₂ q bs cs) : List.Forall₂ (fun a c => ∃ b, r a b ∧ q b c) as cs := by
  induction h generalizing cs with
  | nil => cases h'; exact .nil
  | cons hr _ ih =>
    cases h' with
    | cons hq hrest => exact .cons ⟨_, hr, hq⟩ (ih hrest)

/-- What an element of the stack is in the files. -/
theorem nElem_of (M : Means nuReader w.eff (filesOf w.read) s D) {n : NU.NElem ℚ} (hn : n ∈ nElems D) :
    ∃ d, ∃ x ∈ s.elems, ∃ raw e, ElemIs nuReader (filesOf w.read) s d x raw ∧ resolve D.chan raw = some e ∧
      n.elem.body = bodyMap (List.map (elOf D.mats)) e.body ∧ DiscrIs s.dims x (n.dx, n.dy) := by
  obtain ⟨walls, d, spr, -, -, -, -, -, -, -, raws, he, hp⟩ := M.stack
  obtain ⟨es, m, h1, -, -, -, -, -, h2, -⟩ := parseStack_spec hp
  have hx := forall₂_comp he h1
  have hx := forall₂_reverse hx
  have hd := forall₂_reverse M.discr
  rw [List.reverse_reverse] at hd
  obtain ⟨i, hi, rfl⟩ := List.mem_iff_getElem.mp hn
  unfold nElems at hi ⊢
  simp only [List.length_zipWith, lt_min_iff] at hi
  have i1 : i < es.reverse.length := by
    have := hi.1
    rw [h2, assign_length] at this
    exact this
  have i2 : i < s.elems.reverse.length := by rw [hx.length_eq]; exact i1
  have a1 := hx.get i2 i1
  have a2 := hd.get i2 hi.2
  simp only [List.get_eq_getElem] at a1 a2
  obtain ⟨raw, b1, b2⟩ := a1
  refine ⟨d, _, List.mem_reverse.mp (List.getElem_mem i2), raw, _, b1, b2, ?_, ?_⟩
  · rw [List.getElem_zipWith]
    have hb : (D.parsed.elems[i]'hi.1).body = (es.reverse[i]).body := by
      have h3 := assignOffsets_get es.reverse 0 i i1
      rw [← h2, List.getElem?_eq_getElem hi.1] at h3
      simp only [Option.some.injEq] at h3
      rw [h3]
    show bodyMap _ (D.parsed.elems[i]'hi.1).body = _
    rw [hb]
  · rw [List.getElem_zipWith]
    exact a2

/-- The cells of a layer are at least one. -/
theorem discr_pos {x y : ℚ} (hx : 1 ≤ x) : 0 < ⌊x⌋₊ := Nat.floor_pos.mpr hx

theorem discr_good (hs : Sensible w.eff (filesOf w.read) s) (hg : GoodDivision (filesOf w.read) s) {x : ElD} (hx : x ∈ s.elems) {a b : Nat}
    (h : DiscrIs s.dims x (a, b)) (hc : ∀ id, x ≠ .channel id) : 0 < a ∧ 0 < b := by
  obtain ⟨c1, c2, c3, c4⟩ := hs.chip
  have d1 : 1 ≤ s.dims.chipL / s.dims.cellL := by rw [le_div_iff₀ c3]; linarith [hg.cell.1]
  have d2 : 1 ≤ s.dims.chipW / s.dims.cellW := by rw [le_div_iff₀ c4]; linarith [hg.cell.2]
  cases x with
  | channel id => exact absurd rfl (hc id)
  | layer id ref o =>
    have h : (a, b) = _ := h
    simp only [Prod.mk.injEq] at h
    rw [h.1, h.2, Nat.floor_pos, Nat.floor_pos]
    cases o with
    | none => exact ⟨d1, d2⟩
    | some n => exact hg.layers id ref n hx
  | die id ref p o =>
    have h : (a, b) = _ := h
    simp only [Prod.mk.injEq] at h
    rw [h.1, h.2, Nat.floor_pos, Nat.floor_pos]
    cases o with
    | none => exact ⟨d1, d2⟩
    | some n => exact hg.dies id ref p n hx

theorem elOf_rect {ms : Table (Material ℚ)} {f : FlpD} (h : f.area.Ok) : (elOf ms f).rect ∈ areaRects f.area := by
  unfold elOf
  cases ha : f.area with
  | one x y l w m o => simp [areaRects]
  | many rs =>
    rw [ha] at h
    cases rs with
    | nil => exact absurd rfl h
    | cons r rs => simp [areaRects]

/-- The elements of a grid with a sensible division. -/
theorem elems_good (M : Means nuReader w.eff (filesOf w.read) s D) (hs : Sensible w.eff (filesOf w.read) s) (hg : GoodDivision (filesOf w.read) s)
    {n : NU.NElem ℚ} (hn : n ∈ nElems D) : NU.Divided n ∧ NU.GoodMats n ∧ ∀ b, n.elem.body = .die b → b.flp ≠ [] := by
  obtain ⟨d, x, hx, raw, e, h1, h2, h3, h4⟩ := nElem_of M hn
  cases x with
  | channel id =>
    have h1 : raw = _ := h1
    subst h1
    obtain ⟨ch, -, rfl⟩ := Option.map_eq_some_iff.mp h2
    have hb : n.elem.body = .channel ch := h3
    refine ⟨?_, ?_, ?_⟩
    · unfold NU.Divided; rw [hb]; trivial
    · intro b hb'; rw [hb] at hb'; cases hb'
    · intro b hb'; rw [hb] at hb'; cases hb'
  | layer id ref o =>
    obtain ⟨l, -, h1⟩ := h1
    subst h1
    cases h2
    have hb : n.elem.body = .layer l := h3
    refine ⟨?_, ?_, ?_⟩
    · unfold NU.Divided; rw [hb]; exact discr_good hs hg hx h4 (by simp)
    · intro b hb'; rw [hb] at hb'; cases hb'
    · intro b hb'; rw [hb] at hb'; cases hb'
  | die id ref p o =>
    obtain ⟨q, f, g, -, hf, hr, h1⟩ := h1
    subst h1
    cases h2
    have hgf : g = f := by
      obtain ⟨_, -, e⟩ := Option.map_eq_some_iff.mp hr
      exact e.symm
    subst hgf
    obtain ⟨k1, k2⟩ := files_ok w.read p g hf
    have hb : ∃ ls so, n.elem.body = .die ⟨ls, so, g.map (elOf D.mats)⟩ := ⟨_, _, h3⟩
    obtain ⟨ls, so, hb⟩ := hb
    refine ⟨?_, ?_, ?_⟩
    · unfold NU.Divided; rw [hb]
      intro e he
      obtain ⟨y, hy, rfl⟩ := List.mem_map.mp he
      obtain ⟨g1, g2, -⟩ := hs.flps id ref p o g hx hf y hy _ (elOf_rect (ms := D.mats) (k2 y hy))
      exact ⟨g1, g2, .inr (discr_good hs hg hx h4 (by simp))⟩
    · intro b hb'
      rw [hb] at hb'
      cases hb'
      intro e he m hm
      obtain ⟨y, hy, rfl⟩ := List.mem_map.mp he
      unfold elOf at hm
      cases ha : y.area with
      | many rs => rw [ha] at hm; cases rs <;> simp at hm
      | one a b l w' mt o' =>
        rw [ha] at hm
        simp only at hm
        cases mt with
        | none => simp at hm
        | some name =>
          simp only [Option.map_some, Option.some.injEq] at hm
          obtain ⟨qm, q1, q2⟩ := hg.mats id ref p o g hx hf y hy _ _ _ _ _ _ ha
          obtain ⟨y2, -, y3, y4⟩ := forall₂_mem_left M.mats q1
          have hl : lookup D.mats name = some y2.2 := by
            rw [declared_iff.mp M.mats, matIs_iff M.matNames]
            exact ⟨qm, q1, q2, y4⟩
          rw [hl] at hm
          rw [← hm]
          exact posMat_of y4 (hs.mats qm q1)
    · intro b hb'
      rw [hb] at hb'
      cases hb'
      intro hnil
      exact k1 (List.map_eq_nil_iff.mp hnil)

theorem posChannel_of (hs : Sensible w.eff (filesOf w.read) s) {d : Dims ℚ} (hL : d.chipLength = s.dims.chipL)
    (hn : (∃ n, d.nCols = 2 * n + 3) ∨ ∀ h c w f l m fl t v i, s.chan ≠ some (.rm4 h c w f l m fl t v i)) {x : ChanD} (hx : s.chan = some x)
    {c : Channel ℚ} (h : ChanIs w.eff s.mats d x c) : NU.PosChannel c := by
  obtain ⟨g1, g2, g3, g4⟩ := chan_good hs hL hn hx h
  have hg := hs.chan x hx
  obtain ⟨i1, i2, h⟩ := h
  cases x with
  | rm4 h' ch w' f l m fl t v i =>
    obtain ⟨h1, h2, h3, h4, h5, h6, h7, -, h9, h10, h11⟩ := h
    unfold CoolantOk at g4
    rw [h1] at g4
    obtain ⟨k1, k2, k3, k4, k5, k6⟩ := g4
    refine ⟨k4.le, k5.le, k6.le, k1, k2, h10.ge, ⟨h4.ge, by rw [h4]; norm_num⟩, fun e => absurd h1 e, ⟨fun e => ?_, fun e => ?_⟩, h3.ge, g2, g3⟩ <;>
      rw [h1] at e <;> cases e
  | rm2 h' l w' m fl t v i =>
    obtain ⟨h1, h2, h3, h4, h5, h6, h7, -, h9, h10, h11, h12⟩ := h
    unfold CoolantOk at g4
    rw [h1] at g4
    obtain ⟨k1, k2, k3, k4, k5, k6, k7, k8⟩ := g4
    refine ⟨h11.ge, k4.le, k5.le, k1, k2, h10.ge, ⟨k7.le, k8⟩, fun _ => k7, ⟨fun e => ?_, fun e => ?_⟩, k6.le, g2, g3⟩ <;>
      rw [h1] at e <;> cases e
  | pin h' di p st m u v i =>
    obtain ⟨h1, h2, h3, h4, h5, h6, h7, -, h9, h10, h11, h12, h13⟩ := h
    unfold CoolantOk at g4
    cases st with
    | false =>
      have h1 : c.model = .pfInline := h1
      rw [h1] at g4
      obtain ⟨k1, k2, k3, k4, k5⟩ := g4
      exact ⟨h11.ge, h12.ge, h13.ge, k1, h9.ge, k2, ⟨k4.le, k5⟩, fun _ => k4, ⟨fun _ => k3.le, fun e => by rw [h1] at e; cases e⟩, h3.ge, g2, g3⟩
    | true =>
      have h1 : c.model = .pfStag := h1
      rw [h1] at g4
      obtain ⟨k1, k2, k3, k4, k5⟩ := g4
      exact ⟨h11.ge, h12.ge, h13.ge, k1, h9.ge, k2, ⟨k4.le, k5⟩, fun _ => k4, ⟨fun e => (by rw [h1] at e; cases e), fun _ => k3.le⟩, h3.ge, g2, g3⟩

/-- What C54 to C64 assume about a grid. -/
structure GoodNU (G : NU.Grid ℚ) : Prop where
  fit : NU.ChipFits G.d
  phys : NU.PhysicalNU G
  full : NU.Full G
  odd : NU.OddColumns G
  chan : ∀ ch, G.g.channel = some ch → NU.PosChannel ch

/-- The grid of sensible files is as C54 to C64 assume. -/
theorem StartedNU.good (h : StartedNU w s D an G s0) (hs : Sensible w.eff (filesOf w.read) s) (hg : GoodDivision (filesOf w.read) s) :
    ∃ d0 rs, NU.Begun (configNU w an) d0 D.chan rs (nElems D) s0 ∧ s0.G = G ∧ G.g.top = D.top ∧ G.g.bottom = D.bottom ∧ GoodNU G ∧
      (∀ e ∈ NU.elements s0, e.dx * e.dy ≠ 0) := by
  obtain ⟨d0, raws, h1, h2, h3, h4, h5, h6, h7, h8, h9, h10, h11⟩ := h.begun hs
  have hf : NU.FromStack d0 D.chan (raws.map (rawMap (List.map (elOf D.mats)))) (nElems D) G := by rw [← h3]; exact .fresh h2.grid
  have hdv : ∀ n ∈ nElems D, NU.Divided n := fun n hn => (elems_good h.means hs hg hn).1
  obtain ⟨walls, d, spr, hw, hd, -, hch, -, -, -, raws', -, hp⟩ := h.means.stack
  obtain ⟨w1, w2, w3, w4, w5, w6, w7, w8, w9, w10⟩ := dims_good hs hw hd
  obtain ⟨es, m, -, -, -, -, -, -, -, hdim, -⟩ := parseStack_spec hp
  have hfit : NU.ChipFits G.d := by
    refine ⟨h7.dim, ?_, ?_⟩
    · rw [h4, hdim]; show 0 < d.chipWidth; rw [w6]; exact hs.chip.2.1
    · rw [h9, h4, hdim]; show _ ≤ d.chipLength; rw [w5]
  obtain ⟨hfg, -⟩ := grid_fill h.means h.grid
  have hdecl : ∀ c, D.chan = some c → ∃ x, s.chan = some x ∧ ChanIs w.eff s.mats d x c := by
    intro c hc
    cases hx : s.chan with
    | none => rw [hx, hc] at hch; exact hch.elim
    | some x => rw [hx, hc] at hch; exact ⟨x, rfl, hch⟩
  have hw10 : (∃ n, d.nCols = 2 * n + 3) ∨ ∀ h c w f l m fl t v i, s.chan ≠ some (.rm4 h c w f l m fl t v i) :=
    w10.imp (fun ⟨n, h, _⟩ => ⟨n, h⟩) fun h => h.2.2.2.2.2
  have hok : DeclOk D.chan := by
    intro c hc
    obtain ⟨x, hx, hci⟩ := hdecl c hc
    exact (chan_good hs w5 hw10 hx hci).1
  obtain ⟨-, b2, -⟩ := grid_parts hok hp hfg
  have hdc : ∀ c, G.g.channel = some c → D.chan = some c := by
    intro c hc
    rcases b2 with b2 | b2
    · rw [b2] at hc; cases hc
    · rw [← b2]; exact hc
  refine ⟨d0, _, h2, h3, h5, h6, ⟨hfit, hf.physical h7 hfit hdv fun n hn => (elems_good h.means hs hg hn).2.1,
    hf.full hdv fun n hn => (elems_good h.means hs hg hn).2.2, ?_, ?_⟩, NU.begun_divided h2 hdv⟩
  · intro c hc hm
    obtain ⟨x, hx, hci⟩ := hdecl c (hdc c hc)
    rw [h4, hdim]
    show d.nCols % 2 = 1
    rcases hw10 with ⟨n, e⟩ | hno
    · omega
    · exfalso
      cases x with
      | rm4 => exact hno _ _ _ _ _ _ _ _ _ _ hx
      | rm2 => rw [hci.2.2.1] at hm; cases hm
      | pin h' di p st =>
        have := hci.2.2.1
        rw [this] at hm
        cases st <;> cases hm
  · intro c hc
    obtain ⟨x, hx, hci⟩ := hdecl c (hdc c hc)
    exact posChannel_of hs w5 hw10 hx hci

theorem GoodNU.flps (h : GoodNU G) (fl : List (Option (List (NU.FEl ℚ)))) : GoodNU { G with flps := fl } :=
  ⟨h.fit, ⟨h.phys.hts, h.phys.cell, h.phys.mat, h.phys.htc, h.phys.spr⟩, h.full, h.odd, h.chan⟩

/-- Steps made from the beginning of a slot use the power values of that slot. -/
theorem fed_along {cfg : NU.NCfg ℚ π} {x : NU.NSim ℚ π} {a b : Nat} (ht : ∀ k, k ≤ a + b → (NU.afterSteps cfg x k).time = k) (hd : cfg.an.slotLength ∣ a)
    (hb : b < cfg.an.slotLength) (hok : ∀ k, k < a + b → Succeeded (NU.stepNU cfg (NU.afterSteps cfg x k)).1) :
    NU.FedBy cfg (NU.afterSteps cfg x a) (NU.afterSteps cfg x (a + b)) := by
  have hnd : ∀ b', 0 < b' → b' < cfg.an.slotLength → ¬ cfg.an.slotLength ∣ a + b' := by
    intro b' h1 h2 h3
    have := (Nat.dvd_add_right hd).mp h3
    exact absurd (Nat.le_of_dvd h1 this) (by omega)
  rcases Nat.eq_zero_or_pos b with rfl | hpos
  · exact .inl ⟨by rw [Nat.add_zero, ht a (by omega)]; exact hd, rfl⟩
  · refine .inr ⟨by rw [ht _ le_rfl]; exact hnd b hpos hb, ?_⟩
    obtain ⟨c, rfl⟩ : ∃ c, b = c + 1 := ⟨b - 1, by omega⟩
    clear hpos
    induction c with
    | zero => exact .first (by rw [ht a (by omega)]; exact hd) (hok a (by omega))
    | succ c ih =>
      refine .step (ih (fun k hk => ht k (by omega)) (by omega) fun k hk => hok k (by omega)) ?_
      have e : (NU.afterSteps cfg x (a + (c + 1))).time = a + (c + 1) := ht _ (by omega)
      have e' : ¬ cfg.an.slotLength ∣ (NU.afterSteps cfg x (a + (c + 1))).time := by rw [e]; exact hnd _ (by omega) (by omega)
      exact e'

theorem after_reach {cfg : NU.NCfg ℚ π} {d0 : Dims ℚ} {decl : Option (Channel ℚ)} {rs : List (Raw ℚ (List (NU.FEl ℚ)))} {ns : List (NU.NElem ℚ)}
    {x : NU.NSim ℚ π} (h : NU.ReachableNU cfg d0 decl rs ns x) : ∀ k, NU.ReachableNU cfg d0 decl rs ns (NU.afterSteps cfg x k)
  | 0 => h
  | k + 1 => (after_reach h k).exec .step

theorem transient_of (h : StartedNU w s D an G s0) (htm : Analysed w.mul10 D.init D.times an) (hm : ∀ x, w.mul10 x = x * 10) {step slot : ℚ}
    (ht : s.solver.kind = some (step, slot)) : an.type = .transient ∧ an.stepTime = step ∧ 0 < step ∧ 0 < an.slotLength := by
  obtain ⟨t1, t2, t3, t4⟩ := times_nu hm htm
  rcases t4 with ⟨t4, -⟩ | ⟨sl, t4, t5⟩
  · rw [h.means.times.1, ht] at t4; cases t4
  · rw [h.means.times.1, ht] at t4
    simp only [Option.some.injEq, Prod.mk.injEq] at t4
    exact ⟨t5, t4.1.symm, t4.1 ▸ t2, t3⟩

/-- The power values that are next in slot number `j`. -/
theorem next_powers {x : NU.NSim ℚ π} {P : List (List ℚ)} {j : Nat} (h : NU.traces x = P.map (List.drop j)) :
    (NU.elements x).map NU.nextPower = P.map fun t => t.getD j 0 := by
  have e : (NU.elements x).map NU.nextPower = (NU.traces x).map fun t => t.headD 0 := by
    unfold NU.traces; rw [List.map_map]; rfl
  rw [e, h, List.map_map]
  congr 1
  funext t
  simp [List.headD_eq_head?_getD, List.head?_drop, List.getD_eq_getElem?_getD]

theorem slot_start {L k : Nat} (hL : 0 < L) : (L * (k / L) + L - 1) / L = k / L := by
  have : L * (k / L) + L - 1 = L * (k / L) + (L - 1) := by omega
  rw [this, Nat.mul_add_div hL, Nat.div_eq_of_lt (show L - 1 < L by omega), Nat.add_zero]

/-- What holds when step number `k` of a simulation is made: the state at the beginning of the slot, the grid, the power values. -/
theorem step_along (h : StartedNU w s D an G s0) (htm : Analysed w.mul10 D.init D.times an) (hs : Sensible w.eff (filesOf w.read) s)
    (hg : GoodDivision (filesOf w.read) s) (hm : ∀ x, w.mul10 x = x * 10)
    {step slot : ℚ} (ht : s.solver.kind = some (step, slot)) {n : Nat} (hn : n < 2 ^ 32)
    (hok : ∀ k, k < n → Succeeded (NU.stepNU (configNU w an) (NU.afterSteps (configNU w an) s0 k)).1) {k : Nat} (hk : k ≤ n) :
    ∃ d0 rs, ∃ x : NU.NSim ℚ π, NU.ReachableNU (configNU w an) d0 D.chan rs (nElems D) x ∧ NU.FedBy (configNU w an) x (NU.afterSteps (configNU w an) s0 k) ∧
      NU.ReachableNU (configNU w an) d0 D.chan rs (nElems D) (NU.afterSteps (configNU w an) s0 k) ∧
      (∃ fl, x.G = { G with flps := fl }) ∧ (∃ fl, (NU.afterSteps (configNU w an) s0 k).G = { G with flps := fl }) ∧
      (NU.afterSteps (configNU w an) s0 k).time = k ∧
      NU.traces (NU.afterSteps (configNU w an) s0 k) = (filePowers (filesOf w.read) s).map (List.drop ((k + an.slotLength - 1) / an.slotLength)) ∧
      ((NU.elements x).map NU.nextPower = (filePowers (filesOf w.read) s).map fun t => t.getD (k / an.slotLength) 0) ∧
      (∀ e ∈ NU.elements x, e.dx * e.dy ≠ 0) ∧ GoodNU G ∧ G.g.top = D.top ∧ G.g.bottom = D.bottom := by
  obtain ⟨d0, rs, h1, h2, h3, h4, h5, h6⟩ := h.good hs hg
  obtain ⟨t1, t2, t3, t4⟩ := transient_of h htm hm ht
  obtain ⟨hv, h0, -⟩ := NU.begun_valid h1
  have hW : n < Dim.W := by unfold Dim.W; omega
  have along : ∀ i, i ≤ n → _ := fun i (hi : i ≤ n) =>
    NU.steps_along (cfg := configNU w an) t1 t4 hv h0 i (by omega) (fun k hk => hok k (by omega))
  have hdm := Nat.div_add_mod k an.slotLength
  have hlt := Nat.mod_lt k t4
  set j := k / an.slotLength with hj
  have hfed := fed_along (cfg := configNU w an) (x := s0) (a := an.slotLength * j) (b := k % an.slotLength)
    (fun i hi => (along i (by omega)).2.1) ⟨j, rfl⟩ hlt (fun i hi => hok i (by omega))
  rw [hdm] at hfed
  obtain ⟨-, -, -, a4, fl, a5, a6⟩ := along (an.slotLength * j) (by omega)
  obtain ⟨-, b2, -, b4, fl', b5, b6⟩ := along k hk
  rw [begun_traces h hs] at a4 b4
  have hsl : (an.slotLength * j + (configNU w an).an.slotLength - 1) / (configNU w an).an.slotLength = j := slot_start t4
  rw [hsl] at a4
  refine ⟨d0, rs, _, after_reach (.begun h1) _, hfed, after_reach (.begun h1) _, ⟨fl, by rw [a6, h2]⟩, ⟨fl', by rw [b6, h2]⟩, b2, b4, next_powers a4, ?_, h5, h3, h4⟩
  intro e he
  unfold NU.elements at he
  rw [a6] at he
  obtain ⟨o, ho, he⟩ := List.mem_flatMap.mp he
  cases o with
  | none => cases he
  | some es =>
    obtain ⟨l, hl⟩ := List.mem_iff_getElem?.mp ho
    obtain ⟨es', q1, q2⟩ := NU.bare_get a5 hl
    have he : e ∈ es := he
    have hmem : ({ e with powers := [] } : NU.FEl ℚ) ∈ es'.map fun e => { e with powers := [] } := by
      rw [← q2]; exact List.mem_map_of_mem he
    obtain ⟨e', r1, r2⟩ := List.mem_map.mp hmem
    have r3 := h6 e' (List.mem_flatMap.mpr ⟨some es', List.mem_of_getElem? q1, r1⟩)
    have c1 : e'.dx = e.dx := (by injection r2)
    have c2 : e'.dy = e.dy := (by injection r2)
    rw [← c1, ← c2]; exact r3

theorem top_ambient (M : Means nuReader w.eff (filesOf w.read) s D) {x : SinkD} (h : s.top = some (.conv x)) : D.top = some (.ambient ⟨x.htc, x.temp⟩) := by
  obtain ⟨walls, d, spr, -, -, -, -, ht, -⟩ := M.stack
  rw [h] at ht
  cases hx : D.top with
  | none => rw [hx] at ht; exact ht.elim
  | some y =>
    rw [hx] at ht
    have ht : y = _ := ht
    rw [ht]

theorem top_pluggable (M : Means nuReader w.eff (filesOf w.read) s D) {p : PlugD} (h : s.top = some (.plug p)) : ∃ sp m, D.top = some (.pluggable sp m) := by
  obtain ⟨walls, d, spr, -, -, -, -, ht, -⟩ := M.stack
  rw [h] at ht
  cases hx : D.top with
  | none => rw [hx] at ht; exact ht.elim
  | some y =>
    rw [hx] at ht
    obtain ⟨sp, m, -, -, e⟩ := ht
    exact ⟨sp, m, by rw [e]⟩

/-! ### Theorems -/

/-- **C70 (steps)** Files whose numbers and division into cells make sense, an exact solver that finds unique solutions and a plug-in that does not
fail: a step made while power values are left does not fail. -/
theorem C70_steps_succeed (h : SessionNU w file s D an G s0 log s') (hs : Sensible w.eff (filesOf w.read) s) (hg : GoodDivision (filesOf w.read) s)
    (hm : ∀ x, w.mul10 x = x * 10) {step slot : ℚ} (ht : s.solver.kind = some (step, slot)) (hsh : NU.Sharp G) (hc : NU.CompleteNU (configNU w an))
    (hpl : ∀ p T prev, (w.plugin p T prev).2 ≠ none) {n : Nat} (hn : n < 2 ^ 32)
    (hleft : ∀ t ∈ filePowers (filesOf w.read) s, n < t.length * an.slotLength) :
    ∀ k, k ≤ n → Succeeded (NU.stepNU (configNU w an) (NU.afterSteps (configNU w an) s0 k)).1 := by
  intro k
  induction k using Nat.strong_induction_on with
  | _ k ih =>
    intro hk
    obtain ⟨d0, rs, x, -, -, r2, -, ⟨fl, hG⟩, r4, r5, -, -, hgood, -⟩ := step_along h.start h.times hs hg hm ht (n := k) (by omega)
      (fun i hi => ih i hi (by omega)) le_rfl
    obtain ⟨t1, t2, t3, t4⟩ := transient_of h.start h.times hm ht
    have gg := hgood.flps fl
    refine NU.C63_steps_succeed r2 ?_ ?_ ?_ ?_ t1 (by show 0 < an.stepTime; rw [t2]; exact t3) hc hpl ?_
    · rw [hG]; exact gg.fit
    · rw [hG]; exact gg.phys
    · rw [hG]; exact hsh
    · rw [hG]; exact gg.chan
    · intro hd e he hnil
      rw [r4] at hd
      obtain ⟨j, hj⟩ := hd
      have hj : k = an.slotLength * j := hj
      have hmem : ([] : List ℚ) ∈ NU.traces (NU.afterSteps (configNU w an) s0 k) := List.mem_map.mpr ⟨e, he, hnil⟩
      have e1 : (k + an.slotLength - 1) / an.slotLength = j := by
        rw [hj]
        have : an.slotLength * j + an.slotLength - 1 = an.slotLength * j + (an.slotLength - 1) := by omega
        rw [this, Nat.mul_add_div t4, Nat.div_eq_of_lt (show an.slotLength - 1 < an.slotLength by omega), Nat.add_zero]
      rw [r5, e1] at hmem
      obtain ⟨t, ht1, ht2⟩ := List.mem_map.mp hmem
      have h1 := hleft t ht1
      have h2 : t.length ≤ j := by simpa using ht2
      have h3 : t.length * an.slotLength ≤ j * an.slotLength := Nat.mul_le_mul_right _ h2
      rw [Nat.mul_comm j] at h3
      omega

/-- **C70 (whole run)** Under the same conditions the simulation goes on until the shortest list of power values of the files is used up, and
ends there without an error. -/
theorem C70_whole_run (h : SessionNU w file s D an G s0 log s') (hs : Sensible w.eff (filesOf w.read) s) (hg : GoodDivision (filesOf w.read) s)
    (hm : ∀ x, w.mul10 x = x * 10) {step slot : ℚ} (ht : s.solver.kind = some (step, slot)) (hsh : NU.Sharp G) (hc : NU.CompleteNU (configNU w an))
    (hpl : ∀ p T prev, (w.plugin p T prev).2 ≠ none) (hW : ∃ t ∈ filePowers (filesOf w.read) s, t.length * an.slotLength < 2 ^ 32) :
    ∃ n, (∀ k, k < n → Succeeded (NU.stepNU (configNU w an) (NU.afterSteps (configNU w an) s0 k)).1) ∧
      (NU.stepNU (configNU w an) (NU.afterSteps (configNU w an) s0 n)).1 = .endOfSimulation ∧ s' = NU.afterSteps (configNU w an) s0 (n + 1) ∧
      (∃ t ∈ filePowers (filesOf w.read) s, n = t.length * an.slotLength) ∧ ∀ t ∈ filePowers (filesOf w.read) s, n ≤ t.length * an.slotLength := by
  obtain ⟨n, h1, h2, h3, -⟩ := C69_transient_outputs h hs hm ht hW
  have hend : (NU.stepNU (configNU w an) (NU.afterSteps (configNU w an) s0 n)).1 = .endOfSimulation := by
    rcases h2 with h2 | h2
    · exact h2
    · exfalso
      obtain ⟨d0, rs, hb, -⟩ := h.start.good hs hg
      obtain ⟨hv, h0, -⟩ := NU.begun_valid hb
      obtain ⟨t1, t2, t3, t4⟩ := transient_of h.start h.times hm ht
      obtain ⟨t0, ht0, hW0⟩ := hW
      have hle : n ≤ t0.length * an.slotLength := by
        refine NU.run_bound (cfg := configNU w an) t1 t4 hv h0 h1 (t := t0) ?_ ?_
        · rw [begun_traces h.start hs]; exact ht0
        · show _ * an.slotLength < Dim.W
          unfold Dim.W; omega
      obtain ⟨d0, rs, x, -, -, r2, -, ⟨fl, hG⟩, r4, r5, -, -, hgood, -⟩ := step_along h.start h.times hs hg hm ht (n := n) (by omega) h1 le_rfl
      have gg := hgood.flps fl
      have hpow : (configNU w an).an.slotLength ∣ (NU.afterSteps (configNU w an) s0 n).time → ∀ e ∈ NU.elements (NU.afterSteps (configNU w an) s0 n), e.powers ≠ [] := by
        intro hd
        obtain ⟨-, -, -, hcs⟩ := NU.step_spec (cfg := configNU w an) (NU.reachable_valid r2)
        rcases hcs with ⟨c1, -⟩ | ⟨c1, -⟩ | ⟨-, c1, -⟩
        · rw [c1] at h2; cases h2
        · rw [c1] at h2; cases h2
        · exact c1 (Nat.dvd_iff_mod_eq_zero.mp hd)
      have := NU.C63_steps_succeed r2 (by rw [hG]; exact gg.fit) (by rw [hG]; exact gg.phys) (by rw [hG]; exact hsh) (by rw [hG]; exact gg.chan) t1
        (by show 0 < an.stepTime; rw [t2]; exact t3) hc hpl hpow
      rw [h2] at this
      simp [Succeeded] at this
  obtain ⟨c1, c2⟩ := C69_run_length h hs hm ht hW h1 hend
  exact ⟨n, h1, hend, h3, c1, c2⟩

/-- **C70 (heat balance)** In step number `k` of the simulation the heat stored by the cells is the sum of the power values number `k / L` of the files,
plus what is exchanged with the ambient of the files, plus what the coolant carries from the inlet to the outlet. -/
theorem C70_heat_balance (h : SessionNU w file s D an G s0 log s') (hs : Sensible w.eff (filesOf w.read) s) (hg : GoodDivision (filesOf w.read) s)
    (hm : ∀ x, w.mul10 x = x * 10) {step slot : ℚ} (ht : s.solver.kind = some (step, slot)) {x : SinkD} (hx : s.top = some (.conv x)) (hsh : NU.Sharp G)
    (hc : NU.CorrectNU (configNU w an)) {n : Nat} (hn : n < 2 ^ 32)
    (hok : ∀ k, k < n → Succeeded (NU.stepNU (configNU w an) (NU.afterSteps (configNU w an) s0 k)).1) {k : Nat} (hk : k < n)
    {C : Nat → ℚ} (hC : ∀ i, NU.IsCapacity G (nElems D) i (C i)) {T T' : Nat → ℚ}
    (hT : ∀ i, T i = (NU.afterSteps (configNU w an) s0 k).temps.getD i 0) (hT' : ∀ i, T' i = (NU.afterSteps (configNU w an) s0 (k + 1)).temps.getD i 0) :
    ∑ i ∈ Finset.range G.cells.length, C i / step * (T' i - T i) =
      ((filePowers (filesOf w.read) s).map fun t => t.getD (k / an.slotLength) 0).sum +
      ((G.cells.map (NU.fromSinks G)).sum - ∑ i ∈ Finset.range G.cells.length, (G.cells[i]?).elim 0 (NU.toAmbient G) * T' i) +
      NU.overColumns G (nElems D) fun n ch c => SM.stream ch G.d c * (ch.coolant.tIn - T' (G.at (SM.coolantLayer n.elem ch) (G.d.nRows - 1) c)) := by
  obtain ⟨d0, rs, y, r1, rf, r2, ⟨fl, hG⟩, -, -, -, r6, r7, hgood, r8, -⟩ := step_along h.start h.times hs hg hm ht hn hok hk.le
  obtain ⟨t1, t2, t3, t4⟩ := transient_of h.start h.times hm ht
  have gg := hgood.flps fl
  have key := NU.C60_heat_balance (C := C) r1 (t := ⟨x.htc, x.temp⟩) (by rw [hG]; exact r8.trans (top_ambient h.means hx)) (by rw [hG]; exact gg.fit)
    (by rw [hG]; exact gg.phys) (by rw [hG]; exact hsh) (by rw [hG]; exact gg.odd) (by rw [hG]; exact gg.full) r7 (by rw [hG]; exact hC) rf (hok k hk) hc hT hT'
  rw [hG, r6] at key
  have hst : (configNU w an).an.stepTime = step := t2
  rw [hst] at key
  exact key

/-- **C70 (heat balance with a plug-in)** The same with a pluggable heat sink whose spreader is as large as the chip: what the plug-in takes is
subtracted. -/
theorem C70_heat_balance_plug (h : SessionNU w file s D an G s0 log s') (hs : Sensible w.eff (filesOf w.read) s) (hg : GoodDivision (filesOf w.read) s)
    (hm : ∀ x, w.mul10 x = x * 10) {step slot : ℚ} (ht : s.solver.kind = some (step, slot)) {sp : Spreader ℚ} {m : Material ℚ}
    (hx : D.top = some (.pluggable sp m)) (hb : NU.NoBorder sp) (hcells : G.nCells < 2 ^ 32) (hsh : NU.Sharp G)
    (hc : NU.CorrectNU (configNU w an)) {n : Nat} (hn : n < 2 ^ 32)
    (hok : ∀ k, k < n → Succeeded (NU.stepNU (configNU w an) (NU.afterSteps (configNU w an) s0 k)).1) {k : Nat} (hk : k < n)
    {C : Nat → ℚ} (hC : ∀ i, NU.IsCapacity G (nElems D) i (C i)) {T T' : Nat → ℚ}
    (hT : ∀ i, T i = (NU.afterSteps (configNU w an) s0 k).temps.getD i 0) (hT' : ∀ i, T' i = (NU.afterSteps (configNU w an) s0 (k + 1)).temps.getD i 0) :
    ∃ prev q, w.plugin (NU.afterSteps (configNU w an) s0 k).plug (NU.spreaderTemps G T) prev = ((NU.afterSteps (configNU w an) s0 (k + 1)).plug, some q) ∧
      ∑ i ∈ Finset.range G.cells.length, C i / step * (T' i - T i) =
        ((filePowers (filesOf w.read) s).map fun t => t.getD (k / an.slotLength) 0).sum + (G.cells.map (NU.fromSinks G)).sum +
        NU.overColumns G (nElems D) (fun n ch c => SM.stream ch G.d c * (ch.coolant.tIn - T' (G.at (SM.coolantLayer n.elem ch) (G.d.nRows - 1) c))) -
        NU.taken_by G q := by
  obtain ⟨d0, rs, y, r1, rf, r2, ⟨fl, hG⟩, -, -, -, r6, r7, hgood, r8, -⟩ := step_along h.start h.times hs hg hm ht hn hok hk.le
  obtain ⟨t1, t2, t3, t4⟩ := transient_of h.start h.times hm ht
  have gg := hgood.flps fl
  obtain ⟨prev, q, k1, k2⟩ := NU.C63_heat_balance (C := C) r1 (by rw [hG]; exact r8.trans hx) hb (by rw [hG]; exact hcells) (by rw [hG]; exact gg.fit)
    (by rw [hG]; exact gg.phys) (by rw [hG]; exact hsh) (by rw [hG]; exact gg.odd) (by rw [hG]; exact gg.full) r7 (by rw [hG]; exact hC)
    (by show 0 < an.stepTime; rw [t2]; exact t3) rf (hok k hk) hc hT hT'
  rw [hG, r6] at k2
  rw [hG] at k1
  have hst : (configNU w an).an.stepTime = step := t2
  rw [hst] at k2
  exact ⟨prev, q, k1, k2⟩

/-- **C70 (steady state)** The steady temperatures of sensible files: the first power values of the files, the exchange with the ambient and what the
coolant carries away are in balance. -/
theorem C70_steady (h : SessionNU w file s D an G s0 log s') (hs : Sensible w.eff (filesOf w.read) s) (hg : GoodDivision (filesOf w.read) s)
    (hm : ∀ x, w.mul10 x = x * 10) (ht : s.solver.kind = none) {x : SinkD} (hx : s.top = some (.conv x)) (hsh : NU.Sharp G)
    (hc : NU.CorrectNU (configNU w an)) (hp : ∀ t ∈ filePowers (filesOf w.read) s, t ≠ [])
    (hend : (NU.steadyNU (configNU w an) s0).1 = .endOfSimulation) :
    ((filePowers (filesOf w.read) s).map fun t => t.getD 0 0).sum +
      ((G.cells.map (NU.fromSinks G)).sum - ∑ i ∈ Finset.range G.cells.length, (G.cells[i]?).elim 0 (NU.toAmbient G) * s'.temps.getD i 0) +
      NU.overColumns G (nElems D) (fun n ch c => SM.stream ch G.d c * (ch.coolant.tIn - s'.temps.getD (G.at (SM.coolantLayer n.elem ch) (G.d.nRows - 1) c) 0)) = 0 := by
  obtain ⟨d0, rs, h1, h2, h3, h4, gg, h6⟩ := h.start.good hs hg
  obtain ⟨e1, -⟩ := C69_steady_outputs h hs hm ht
  have hty : (configNU w an).an.type = .steady := by
    obtain ⟨-, -, -, t4⟩ := times_nu hm h.times
    rcases t4 with ⟨-, t4⟩ | ⟨sl, t4, t5⟩
    · exact t4
    · rw [h.means.times.1, ht] at t4; cases t4
  have htr := begun_traces h.start hs
  have hpw : ∀ e ∈ NU.elements s0, e.powers ≠ [] := by
    intro e he
    refine hp _ ?_
    rw [← htr]
    exact List.mem_map_of_mem he
  obtain ⟨-, k2⟩ := NU.C60_steady (.begun h1) (t := ⟨x.htc, x.temp⟩) (by rw [h2]; exact h3.trans (top_ambient h.means hx)) hty hpw hend hc
  have key := k2 (by rw [h2]; exact gg.fit) (by rw [h2]; exact gg.phys) (by rw [h2]; exact hsh) (by rw [h2]; exact gg.odd) (by rw [h2]; exact gg.full) h6
    (fun i => s'.temps.getD i 0) (fun i => by rw [e1])
  rw [h2, next_powers (P := filePowers (filesOf w.read) s) (j := 0) (by rw [htr, show (List.drop 0 : List ℚ → List ℚ) = id from rfl, List.map_id])] at key
  exact key

theorem StartedNU.chan (h : StartedNU w s D an G s0) (hs : Sensible w.eff (filesOf w.read) s) {c : Channel ℚ} (hc : G.g.channel = some c) :
    ∃ x, s.chan = some x ∧ c.coolant.tIn = inletOf x := by
  obtain ⟨walls, d, spr, hw, hd, -, hch, -, -, -, raws', -, hp⟩ := h.means.stack
  obtain ⟨w1, w2, w3, w4, w5, w6, w7, w8, w9, w10⟩ := dims_good hs hw hd
  obtain ⟨hfg, -⟩ := grid_fill h.means h.grid
  have hdecl : ∀ c, D.chan = some c → ∃ x, s.chan = some x ∧ ChanIs w.eff s.mats d x c := by
    intro c hc
    cases hx : s.chan with
    | none => rw [hx, hc] at hch; exact hch.elim
    | some x => rw [hx, hc] at hch; exact ⟨x, rfl, hch⟩
  have hok : DeclOk D.chan := by
    intro c hc
    obtain ⟨x, hx, hci⟩ := hdecl c hc
    exact (chan_good hs w5 (w10.imp (fun ⟨n, h, _⟩ => ⟨n, h⟩) fun h => h.2.2.2.2.2) hx hci).1
  obtain ⟨-, b2, -⟩ := grid_parts hok hp hfg
  rcases b2 with b2 | b2
  · rw [b2] at hc; cases hc
  · rw [b2] at hc
    obtain ⟨y, hy, -, -, hci⟩ := hdecl c hc
    refine ⟨y, hy, ?_⟩
    cases y with
    | rm4 => exact hci.2.2.2.2.2.2.2.1
    | rm2 => exact hci.2.2.2.2.2.2.2.1
    | pin => exact hci.2.2.2.2.2.2.2.1

/-- **C70 (capacities)** Every cell of the grid of sensible files has a heat capacity. -/
theorem C70_capacities (h : StartedNU w s D an G s0) (hs : Sensible w.eff (filesOf w.read) s) (hg : GoodDivision (filesOf w.read) s) (hsh : NU.Sharp G) :
    ∃ C : Nat → ℚ, ∀ i, NU.IsCapacity G (nElems D) i (C i) := by
  obtain ⟨d0, rs, h1, h2, -, -, gg, -⟩ := h.good hs hg
  have hf : NU.FromStack d0 D.chan rs (nElems D) G := by rw [← h2]; exact .fresh h1.grid
  refine ⟨fun i => (G.cells[i]?).elim 0 (NU.capacityNU G.g G.d), fun i => ?_⟩
  cases hcc : G.cells[i]? with
  | none => intro cell h'; rw [hcc] at h'; cases h'
  | some c =>
    show NU.IsCapacity G (nElems D) i ((G.cells[i]?).elim 0 (NU.capacityNU G.g G.d))
    rw [hcc]
    exact NU.C59_capacities hf gg.fit gg.phys hsh i c hcc

/-- **C70 (equilibrium)** No power in the files, and the initial temperature, the ambient and the inlet all equal: the temperatures never change,
whatever the materials, the channels and the division into cells. -/
theorem C70_equilibrium (h : SessionNU w file s D an G s0 log s') (hs : Sensible w.eff (filesOf w.read) s) (hg : GoodDivision (filesOf w.read) s)
    (hm : ∀ x, w.mul10 x = x * 10) {step slot : ℚ} (ht : s.solver.kind = some (step, slot)) {x : SinkD} (hx : s.top = some (.conv x))
    (hamb : x.temp = s.solver.init) (hbot : s.bottom = none) (hin : ∀ y, s.chan = some y → inletOf y = s.solver.init) (hsh : NU.Sharp G)
    (hc : NU.CorrectNU (configNU w an)) (hpow : ∀ t ∈ filePowers (filesOf w.read) s, ∀ v ∈ t, v = 0) {n : Nat} (hn : n < 2 ^ 32)
    (hok : ∀ k, k < n → Succeeded (NU.stepNU (configNU w an) (NU.afterSteps (configNU w an) s0 k)).1) :
    ∀ k, k ≤ n → ∀ i, i < G.cells.length → (NU.afterSteps (configNU w an) s0 k).temps.getD i 0 = s.solver.init := by
  intro k
  induction k with
  | zero =>
    intro _ i hi
    obtain ⟨d0, rs, h1, h2, -⟩ := h.start.good hs hg
    obtain ⟨-, -, h3, -⟩ := NU.begun_valid h1
    obtain ⟨t1, -⟩ := times_nu hm h.times
    show s0.temps.getD i 0 = _
    rw [h3, h2, List.getD_eq_getElem?_getD, List.getElem?_replicate, if_pos hi]
    show an.initTemp = _
    rw [t1, h.means.init]
  | succ k ih =>
    intro hk
    obtain ⟨d0, rs, y, r1, rf, r2, ⟨fl, hG⟩, -, -, -, r6, r7, hgood, r8, r9⟩ := step_along h.start h.times hs hg hm ht hn hok (show k ≤ n by omega)
    obtain ⟨t1, t2, t3, t4⟩ := transient_of h.start h.times hm ht
    have gg := hgood.flps fl
    have hz : ∀ e ∈ NU.elements y, NU.nextPower e = 0 := by
      intro e he
      have : NU.nextPower e ∈ (NU.elements y).map NU.nextPower := List.mem_map_of_mem he
      rw [r6] at this
      obtain ⟨t, q1, q2⟩ := List.mem_map.mp this
      rw [← q2, List.getD_eq_getElem?_getD]
      cases hq : t[k / an.slotLength]? with
      | none => rfl
      | some v => exact hpow t q1 v (List.mem_of_getElem? hq)
    have key := NU.C60_equilibrium_partial r1 (t := ⟨x.htc, x.temp⟩) (by rw [hG]; exact r8.trans (top_ambient h.means hx)) (by rw [hG]; exact gg.fit)
      (by rw [hG]; exact gg.phys) (by rw [hG]; exact hsh) (by rw [hG]; exact gg.odd) (by rw [hG]; exact gg.full) (by rw [hG]; exact gg.chan)
      (by show 0 < an.stepTime; rw [t2]; exact t3) hz (by rw [hG]; show G.g.bottom = none; rw [r9, h.means.bottom, hbot]; rfl)
      (by
        intro ch hch
        rw [hG] at hch
        obtain ⟨c, c1, c2⟩ := h.start.chan hs hch
        rw [c2, hin c c1, hamb]) rf (hok k (by omega)) hc
      (by intro i hi; rw [hG] at hi; show _ = x.temp; rw [hamb]; exact ih (by omega) i hi)
    intro i hi
    rw [hG] at key
    have := key i hi
    show (NU.stepNU (configNU w an) (NU.afterSteps (configNU w an) s0 k)).2.temps.getD i 0 = _
    rw [this]; exact hamb

end Verif.Prog
