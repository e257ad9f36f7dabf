import Verif.Lemmas.NuPlug

/-! # C63: a pluggable heat sink on a non-uniform grid -/

set_option linter.unusedSectionVars false
set_option linter.unusedSimpArgs false
set_option linter.unusedVariables false

namespace Verif.NU
open Verif.Dim Verif.TG Verif.Stk Verif.SM
open Verif.Emu (SimResult Succeeded)

variable {K : Type} [Field K] [LinearOrder K] [IsStrictOrderedRing K] {π : Type}
variable {d0 : Dims K} {decl : Option (Channel K)} {rs : List (Raw K (List (FEl K)))} {ns : List (NElem K)} {G : Grid K}

/-! ## Specification -/

/-- The spreader has the cells of the chip: no borders around it. -/
def NoBorder (sp : Spreader K) : Prop := sp.rowsBorder = 0 ∧ sp.colsBorder = 0

/-- The temperatures of the cells of the spreader, row by row. -/
def spreaderTemps (G : Grid K) (T : Nat → K) : List K :=
  (List.range G.d.nRows).flatMap fun r => (List.range G.d.nCols).map fun c => T (G.at G.d.nLayers r c)

/-- The heat that the plugin takes, over all the cells of the spreader. -/
def taken_by (G : Grid K) (q : List K) : K :=
  ∑ r ∈ Finset.range G.d.nRows, ∑ c ∈ Finset.range G.d.nCols, q.getD (r * G.d.nCols + c) 0

/-! ## Proofs -/

theorem noBorder_cells (hf : FromStack d0 decl rs ns G) {sp : Spreader K} {m : Material K} (ht : G.g.top = some (.pluggable sp m)) (hb : NoBorder sp) :
    sp.nCols * sp.nRows = G.d.nRows * G.d.nCols := by
  obtain ⟨g1, g2, -⟩ := spr_geo hf.wf ht
  rw [g1, g2, hb.1, hb.2]; ring

theorem noBorder_offset (hf : FromStack d0 decl rs ns G) {sp : Spreader K} {m : Material K} (ht : G.g.top = some (.pluggable sp m)) (hb : NoBorder sp)
    (hW : G.nCells < 2 ^ 32) : sprOffset G sp = stackCells G := by
  have h1 := spr_len hf ht
  have h2 := (C54_cells_fit_arrays hf).1
  have h3 := noBorder_cells hf ht hb
  rw [sprOffset_eq (by omega) (by rw [NU_W]; norm_num at hW; exact hW)]
  omega

theorem rows_cols {α : Type} (C : Nat) (f : Nat → α) : ∀ R : Nat, (List.range (R * C)).map f = (List.range R).flatMap fun r => (List.range C).map fun c => f (r * C + c)
  | 0 => by simp
  | R + 1 => by
    rw [Nat.succ_mul, List.range_add, List.map_append, rows_cols C f R, List.range_succ, List.flatMap_append]
    simp [List.map_map, Function.comp_def]

theorem sum_rows_cols (C : Nat) (f : Nat → K) : ∀ R : Nat, ∑ k ∈ Finset.range (R * C), f k = ∑ r ∈ Finset.range R, ∑ c ∈ Finset.range C, f (r * C + c)
  | 0 => by simp
  | R + 1 => by rw [Nat.succ_mul, Finset.sum_range_add, sum_rows_cols C f R, Finset.sum_range_succ]

theorem drop_temps (hf : FromStack d0 decl rs ns G) {sp : Spreader K} {m : Material K} (ht : G.g.top = some (.pluggable sp m)) {t : List K}
    (hl : t.length = G.cells.length) : t.drop (stackCells G) = spreaderTemps G fun i => t.getD i 0 := by
  unfold spreaderTemps Grid.at
  rw [← rows_cols G.d.nCols (fun k => t.getD (firstCell G G.d.nLayers + k) 0)]
  have h1 := spr_len hf ht
  apply List.ext_getElem
  · rw [List.length_drop, List.length_map, List.length_range, hl, h1]; omega
  · intro i h2 h3
    rw [List.getElem_drop, List.getElem_map, List.getElem_range, List.getD_eq_getElem?_getD]
    rw [List.length_drop] at h2
    have : stackCells G + i < t.length := by omega
    show t[stackCells G + i] = (t[stackCells G + i]?).getD 0
    rw [List.getElem?_eq_getElem this]; rfl

theorem sources_len (hf : FromStack d0 decl rs ns G) (hfull : Full G) {S : List K} {fl' : List (Option (List (FEl K)))}
    (h : sourcesNU G.g G.d G.cells G.flps = some (S, fl')) : S.length = G.cells.length := by
  obtain ⟨hS, -⟩ := sources_eq hf.laid hfull h
  rw [hS, List.length_append, expected_length hf.laid (le_refl _), List.length_replicate]
  have := start_le G.ls G.d.nLayers
  unfold Grid.cells; omega

/-- The spreader has no sources of its own. -/
theorem sources_above (hf : FromStack d0 decl rs ns G) (hfull : Full G) {S : List K} {fl' : List (Option (List (FEl K)))}
    (h : sourcesNU G.g G.d G.cells G.flps = some (S, fl')) {i : Nat} (hi : stackCells G ≤ i) : S.getD i 0 = 0 := by
  obtain ⟨hS, -⟩ := sources_eq hf.laid hfull h
  have he : (expected G G.d.nLayers).length = stackCells G := expected_length hf.laid (le_refl _)
  rw [hS, List.getD_eq_getElem?_getD, List.getElem?_append_right (by omega), List.getElem?_replicate]
  split <;> rfl

/-- The sources during a slot. -/
theorem inSlot_plug {cfg : NCfg K π} {s0 s : NSim K π} (h : Valid cfg d0 decl rs ns s0) {sp : Spreader K} {m : Material K}
    (ht : s0.G.g.top = some (.pluggable sp m)) (hb : NoBorder sp) (hW : s0.G.nCells < 2 ^ 32) (hfull : Full s0.G) (hin : InSlot cfg s0 s) :
    Valid cfg d0 decl rs ns s ∧ (∃ fl, s.G = { s0.G with flps := fl }) ∧
      ∃ S fl, sourcesNU s0.G.g s0.G.d s0.G.cells s0.G.flps = some (S, fl) ∧ s.sources.length = s0.G.cells.length ∧
        s.sources.take (stackCells s0.G) = S.take (stackCells s0.G) := by
  have hlen := spr_len h.grid ht
  have hnb := noBorder_cells h.grid ht hb
  have hfin : ∀ s1 : NSim K π, (∃ fl, s1.G = { s0.G with flps := fl }) → s1.sources.length = s0.G.cells.length →
      (finishNU cfg s1).2.sources.length = s0.G.cells.length ∧
      (finishNU cfg s1).2.sources.take (stackCells s0.G) = s1.sources.take (stackCells s0.G) := by
    rintro s1 ⟨fl, hG⟩ hl
    have ho : sprOffset s1.G sp = stackCells s0.G := by rw [hG]; exact noBorder_offset h.grid ht hb hW
    rcases finish_plug_sources (cfg := cfg) (s := s1) (sp := sp) (m := m) (by rw [hG]; exact ht) ho with e | ⟨q, e⟩
    · rw [e]; exact ⟨hl, rfl⟩
    · rw [e]
      refine ⟨?_, ?_⟩
      · rw [List.length_append, List.length_take, List.length_map, List.length_range, hnb, hl, hlen]; omega
      · rw [List.take_append_of_le_length (by rw [List.length_take]; omega), List.take_take, Nat.min_self]
  induction hin with
  | first hb' hs =>
    obtain ⟨a1, -, ⟨fl, -, a3⟩, -⟩ := step_spec (cfg := cfg) h
    obtain ⟨S, fl', e1, e2⟩ := first_step h hb' hs
    have hS := (sources_len h.grid hfull e1)
    obtain ⟨f1, f2⟩ := hfin { s0 with sources := S, G := { s0.G with flps := fl' } } ⟨fl', rfl⟩ hS
    rw [← e2] at f1 f2
    exact ⟨a1, ⟨fl, a3⟩, S, fl', e1, f1, f2⟩
  | @step s hin hb' ih =>
    obtain ⟨i1, ⟨fl, i2⟩, S, fl', i3, i4, i5⟩ := ih
    obtain ⟨a1, -, ⟨fl2, -, a3⟩, -⟩ := step_spec (cfg := cfg) i1
    refine ⟨a1, ⟨fl2, by rw [a3, i2]⟩, S, fl', i3, ?_⟩
    by_cases htr : cfg.an.type = .transient
    · rw [inner_step htr hb']
      obtain ⟨f1, f2⟩ := hfin s ⟨fl, i2⟩ i4
      exact ⟨f1, f2.trans i5⟩
    · have : stepNU cfg s = (.wrongConfig, s) := by simp [stepNU, htr]
      rw [this]; exact ⟨i4, i5⟩
  | @insert s vs hin ih =>
    obtain ⟨i1, ⟨fl, i2⟩, S, fl', i3, i4, i5⟩ := ih
    obtain ⟨f, e1, -⟩ := insert_spec i1 vs
    have := valid_exec i1 (.insert vs)
    simp only [exec] at this
    refine ⟨this, ⟨f, by rw [e1, i2]⟩, S, fl', i3, ?_⟩
    rw [e1]; exact ⟨i4, i5⟩
  | @reset s hin ih =>
    obtain ⟨i1, ⟨fl, i2⟩, S, fl', i3, i4, i5⟩ := ih
    exact ⟨valid_exec i1 .reset, ⟨fl, i2⟩, S, fl', i3, i4, i5⟩

/-- Every cell has its capacity in the array. -/
theorem caps_get (hf : FromStack d0 decl rs ns G) {sp : Spreader K} {m : Material K} (ht : G.g.top = some (.pluggable sp m)) (hb : NoBorder sp)
    {i : Nat} (hi : i < G.cells.length) : (capsNU G).getD i 0 = (G.cells[i]?).elim 0 (capacityNU G.g G.d) := by
  have hlen := spr_len hf ht
  have hnb := noBorder_cells hf ht hb
  have hl : (G.cells.take (stackCells G)).length = stackCells G := by rw [List.length_take]; omega
  rw [caps_plug hf ht, List.getD_eq_getElem?_getD]
  by_cases h : i < stackCells G
  · rw [List.getElem?_append_left (by rw [List.length_map, hl]; exact h), List.getElem?_map, List.getElem?_take, if_pos h]
    cases G.cells[i]? <;> rfl
  · obtain ⟨c, hc, hcl, -⟩ := spr_at hf ht (k := i - stackCells G) (by omega)
    rw [show stackCells G + (i - stackCells G) = i by omega] at hc
    rw [List.getElem?_append_right (by rw [List.length_map, hl]; omega), List.length_map, hl, List.getElem?_replicate,
      if_pos (by rw [Nat.mul_comm] at hnb; omega), hc]
    simp only [Option.getD_some, Option.elim_some]
    unfold capacityNU
    rw [if_pos (by rw [hcl, hf.wf.nl]), sprTerm, ht]

/-- The linear system behind a step. -/
theorem plug_system {cfg : NCfg K π} {s0 s : NSim K π} (h : ReachableNU cfg d0 decl rs ns s0) {sp : Spreader K} {m : Material K}
    (ht : s0.G.g.top = some (.pluggable sp m)) (hb : NoBorder sp) (hW : s0.G.nCells < 2 ^ 32) (hfull : Full s0.G)
    (hfed : FedBy cfg s0 s) (hs : Succeeded (stepNU cfg s).1) (hc : CorrectNU cfg) :
    ∃ S fl prev q, sourcesNU s0.G.g s0.G.d s0.G.cells s0.G.flps = some (S, fl) ∧
      cfg.plugin s.plug (spreaderTemps s0.G fun i => s.temps.getD i 0) prev = ((stepNU cfg s).2.plug, some q) ∧
      Assembled id s0.G cfg.an.ana s.mat ∧ (stepNU cfg s).2.temps.length = s0.G.cells.length ∧
      (∀ i, i < s0.G.cells.length → (stepNU cfg s).2.sources.getD i 0 =
        S.getD i 0 - if stackCells s0.G ≤ i then q.getD (i - stackCells s0.G) 0 else 0) ∧
      Solves s0.G.cells.length s.mat.entry (fun i => (stepNU cfg s).2.temps.getD i 0) fun i =>
        storage cfg.an.ana ((s0.G.cells[i]?).elim 0 (capacityNU s0.G.g s0.G.d)) * s.temps.getD i 0 +
          (S.getD i 0 - if stackCells s0.G ≤ i then q.getD (i - stackCells s0.G) 0 else 0) := by
  have h0 := reachable_valid h
  have hlen := spr_len h0.grid ht
  have hnb := noBorder_cells h0.grid ht hb
  have key : ∀ (s1 : NSim K π) (S : List K) (fl0 : List (Option (List (FEl K)))), sourcesNU s0.G.g s0.G.d s0.G.cells s0.G.flps = some (S, fl0) →
      (∃ fl, s1.G = { s0.G with flps := fl }) → Valid cfg d0 decl rs ns s1 → s1.sources.length = s0.G.cells.length →
      s1.sources.take (stackCells s0.G) = S.take (stackCells s0.G) → s1.temps.length = s0.G.cells.length →
      cfg.an.type = .transient → Succeeded (finishNU cfg s1).1 →
      ∃ prev q, cfg.plugin s1.plug (spreaderTemps s0.G fun i => s1.temps.getD i 0) prev = ((finishNU cfg s1).2.plug, some q) ∧
      Assembled id s0.G cfg.an.ana s1.mat ∧ (finishNU cfg s1).2.temps.length = s0.G.cells.length ∧
      (∀ i, i < s0.G.cells.length → (finishNU cfg s1).2.sources.getD i 0 =
        S.getD i 0 - if stackCells s0.G ≤ i then q.getD (i - stackCells s0.G) 0 else 0) ∧
      Solves s0.G.cells.length s1.mat.entry (fun i => (finishNU cfg s1).2.temps.getD i 0) fun i =>
        storage cfg.an.ana ((s0.G.cells[i]?).elim 0 (capacityNU s0.G.g s0.G.d)) * s1.temps.getD i 0 +
          (S.getD i 0 - if stackCells s0.G ≤ i then q.getD (i - stackCells s0.G) 0 else 0) := by
    rintro s1 S fl0 hS ⟨fl, hG⟩ hv hsl hst htl htr hs
    obtain ⟨s2, x, e1, e2, e3, e4⟩ := finish_succeeded hs
    have ho : sprOffset s1.G sp = stackCells s0.G := by rw [hG]; exact noBorder_offset h0.grid ht hb hW
    have hp2 : (finishNU cfg s1).2.plug = s2.plug := by rw [finish_ok e1 e2]
    obtain ⟨p, q, f1, f2, f3, f4, f5, f6, -, f7⟩ := pluggable_call (m := m) (by rw [hG]; exact ht) ho e1
    rw [drop_temps h0.grid ht htl] at f1
    obtain ⟨hl, hsol⟩ := hc _ _ _ e2
    have hvl : (vectorNU cfg s2).length = s0.G.cells.length := by
      unfold vectorNU; rw [List.length_map, List.length_range, f6, hG]; rfl
    rw [hvl] at hl hsol
    have hm := hv.mat
    have hr := hv.conns
    rw [hG] at hm hr
    have hsrc : ∀ i, i < s0.G.cells.length → s2.sources.getD i 0 = S.getD i 0 - if stackCells s0.G ≤ i then q.getD (i - stackCells s0.G) 0 else 0 := by
      intro i hi
      have hl1 : (s1.sources.take (stackCells s0.G)).length = stackCells s0.G := by rw [List.length_take]; omega
      rw [f2, List.getD_eq_getElem?_getD]
      by_cases hlt : i < stackCells s0.G
      · rw [List.getElem?_append_left (by omega), hst, List.getElem?_take, if_pos hlt, if_neg (by omega), sub_zero, List.getD_eq_getElem?_getD]
      · rw [List.getElem?_append_right (by omega), hl1, List.getElem?_map, List.getElem?_range (by omega), if_pos (by omega),
          sources_above h0.grid hfull hS (by omega)]
        simp
    refine ⟨_, q, by rw [hp2, f7]; exact f1, ⟨s1.conns, hr, hm⟩, by rw [e3, hl], fun i hi => by rw [e4]; exact hsrc i hi, ?_⟩
    rw [e3]
    intro i hi
    have := hsol i hi
    rw [f4] at this
    rw [this]
    have hcap : s2.caps.getD i 0 = (s0.G.cells[i]?).elim 0 (capacityNU s0.G.g s0.G.d) := by
      rw [f5, hv.caps, hG]; exact caps_get h0.grid ht hb hi
    have hvec : (vectorNU cfg s2).getD i 0 = s2.sources.getD i 0 + (s2.caps.getD i 0 / cfg.an.stepTime) * s2.temps.getD i 0 := by
      have hi' : i < s2.G.ls.flatten.length := by rw [f6, hG]; exact hi
      unfold vectorNU
      rw [List.getD_eq_getElem?_getD, List.getElem?_map, List.getElem?_range hi']; rfl
    have hat : cfg.an.ana.transient = true := by simp [Emu.Analysis.ana, htr]
    have hst' : (cfg.an.ana : Ana K).stepTime = cfg.an.stepTime := rfl
    beta_reduce
    rw [hvec, hcap, hsrc i hi, f3, Emu.storage_transient hat, hst', add_comm]
  have htr : cfg.an.type = .transient := by
    by_contra hh
    have : stepNU cfg s = (.wrongConfig, s) := by simp [stepNU, hh]
    rw [this] at hs; simp [Succeeded] at hs
  rcases hfed with ⟨hbd, rfl⟩ | ⟨hbd, hin⟩
  · have htl := temps_length hc h
    obtain ⟨S, fl, e1, e2⟩ := first_step h0 hbd hs
    rw [e2] at hs ⊢
    obtain ⟨S', fl', u1, u2, u3, u4⟩ := updateSources_spec h0
    have hall : ∀ e ∈ elements s, e.powers ≠ [] := by
      obtain ⟨-, -, -, hc⟩ := step_spec (cfg := cfg) h0
      rw [e2] at hc
      rcases hc with ⟨h2, -⟩ | ⟨h2, -⟩ | ⟨-, hp, -⟩
      · rw [h2] at hs; simp [Succeeded] at hs
      · rw [h2] at hs; simp [Succeeded] at hs
      · exact hp (Nat.dvd_iff_mod_eq_zero.mp hbd)
    have hfl : bare fl = bare s.G.flps := by
      have := u4 hall
      rw [e1] at this
      simp only [Option.some.injEq, Prod.mk.injEq] at this
      rw [this.2]; exact u2
    obtain ⟨prev, q, r⟩ := key { s with sources := S, G := { s.G with flps := fl } } S fl e1 ⟨fl, rfl⟩ (valid_congr h0 hfl rfl rfl rfl rfl h0.time)
      (sources_len h0.grid hfull e1) rfl htl htr hs
    exact ⟨S, fl, prev, q, e1, r⟩
  · have htl := temps_length hc (hin.reachable h)
    obtain ⟨i1, ⟨fl2, i2⟩, S, fl, i3, i4, i5⟩ := inSlot_plug h0 ht hb hW hfull hin
    rw [inner_step htr hbd] at hs ⊢
    obtain ⟨prev, q, r⟩ := key s S fl i3 ⟨fl2, i2⟩ i1 i4 i5 (by rw [htl, i2]; rfl) htr hs
    exact ⟨S, fl, prev, q, i3, r⟩

theorem totalPower_elements (s : NSim K π) : totalPower s.G = ((elements s).map nextPower).sum := by
  unfold totalPower elements
  generalize s.G.flps = fl
  induction fl with
  | nil => rfl
  | cons o fl ih => rw [List.map_cons, List.sum_cons, List.flatMap_cons, List.map_append, List.sum_append, ← ih]; cases o <;> rfl

/-- The flows, cell by cell and in total. -/
theorem taken_sum (hf : FromStack d0 decl rs ns G) {sp : Spreader K} {m : Material K} (ht : G.g.top = some (.pluggable sp m)) (q : List K) :
    ∑ i ∈ Finset.range G.cells.length, (if stackCells G ≤ i then q.getD (i - stackCells G) 0 else 0) = taken_by G q := by
  rw [spr_len hf ht, Finset.sum_range_add, taken_by, ← sum_rows_cols G.d.nCols (fun k => q.getD k 0)]
  have h1 : ∑ i ∈ Finset.range (stackCells G), (if stackCells G ≤ i then q.getD (i - stackCells G) 0 else 0) = 0 :=
    Finset.sum_eq_zero fun i hi => if_neg (by have := Finset.mem_range.mp hi; omega)
  rw [h1, zero_add]
  refine Finset.sum_congr rfl fun i _ => ?_
  rw [if_pos (by omega), Nat.add_sub_cancel_left]

/-! ## Theorems -/

/-- **C63 (cells)** The cells of the spreader are the last ones: one for each row and column of the chip, above the stack, with the
capacity of a cell of the spreader. The array of the capacities has one value for each cell, and no more. -/
theorem C63_spreader_cells (hf : FromStack d0 decl rs ns G) {sp : Spreader K} {m : Material K} (ht : G.g.top = some (.pluggable sp m)) (hb : NoBorder sp) :
    G.cells.length = firstCell G G.d.nLayers + G.d.nRows * G.d.nCols ∧ (capsNU G).length = G.nCells ∧
    (∀ i c, G.cells[i]? = some c → (c.layer < G.d.nLayers ↔ i < firstCell G G.d.nLayers) ∧ (capsNU G)[i]? = some (capacityNU G.g G.d c)) ∧
    ∀ r c, r < G.d.nRows → c < G.d.nCols → ∃ cell, G.cells[G.at G.d.nLayers r c]? = some cell ∧ cell.layer = G.d.nLayers ∧
      cell.x0 = G.d.chipLength / (G.d.nCols : K) * (c : K) ∧ cell.x1 = G.d.chipLength / (G.d.nCols : K) * (c + 1 : K) ∧
      cell.y0 = G.d.chipWidth / (G.d.nRows : K) * (r : K) ∧ cell.y1 = G.d.chipWidth / (G.d.nRows : K) * (r + 1 : K) ∧
      capacityNU G.g G.d cell = m.vhc * (sp.cellLength * sp.cellWidth * sp.height) := by
  have hlen := spr_len hf ht
  have hnb := noBorder_cells hf ht hb
  have hn := (C54_cells_fit_arrays hf).1
  have hcl : (capsNU G).length = G.cells.length := by
    rw [caps_plug hf ht, List.length_append, List.length_map, List.length_take, List.length_replicate]
    rw [Nat.mul_comm] at hnb; omega
  refine ⟨hlen, by rw [hcl, hn], ?_, ?_⟩
  · intro i c hc
    have hi := (List.getElem?_eq_some_iff.mp hc).1
    refine ⟨⟨fun h => ?_, fun h => spr_below hf h hc⟩, ?_⟩
    · by_contra hge
      have hge' : stackCells G ≤ i := by unfold stackCells; omega
      obtain ⟨c', h1, h2, -⟩ := spr_at hf ht (k := i - stackCells G) (by omega)
      rw [show stackCells G + (i - stackCells G) = i by omega, hc, Option.some.injEq] at h1
      subst h1; omega
    · have := caps_get hf ht hb hi
      rw [hc, List.getD_eq_getElem?_getD, List.getElem?_eq_getElem (by omega)] at this
      rw [List.getElem?_eq_getElem (by omega)]
      exact congrArg some this
  · intro r c hr hc
    have hk : r * G.d.nCols + c < G.d.nRows * G.d.nCols := by
      calc r * G.d.nCols + c < r * G.d.nCols + G.d.nCols := by omega
        _ = (r + 1) * G.d.nCols := by ring
        _ ≤ _ := Nat.mul_le_mul_right _ hr
    obtain ⟨cell, h1, h2, h3, h4, h5, h6⟩ := spr_at hf ht hk
    have e1 : (r * G.d.nCols + c) % G.d.nCols = c := by rw [Nat.mul_comm, Nat.mul_add_mod, Nat.mod_eq_of_lt hc]
    have e2 : (r * G.d.nCols + c) / G.d.nCols = r := by
      rw [Nat.mul_comm, Nat.mul_add_div (by omega), Nat.div_eq_of_lt hc, Nat.add_zero]
    rw [e1] at h3 h4
    rw [e2] at h5 h6
    refine ⟨cell, h1, h2, h3, by rw [h4]; push_cast; ring, h5, by rw [h6]; push_cast; ring, ?_⟩
    unfold capacityNU
    rw [if_pos (by rw [h2, hf.wf.nl]), sprTerm, ht]
    simp only [sprCapacity]; ring

/-- **C63 (exchange)** In each successful step the plugin is called once, with the temperatures of the cells of the spreader before the step,
row by row. What it returns leaves the cells of the spreader; the sources of the cells of the stack are those of the slot, in each step
of the slot. -/
theorem C63_exchange {cfg : NCfg K π} {s0 s : NSim K π} (h : ReachableNU cfg d0 decl rs ns s0) {sp : Spreader K} {m : Material K}
    (ht : s0.G.g.top = some (.pluggable sp m)) (hb : NoBorder sp) (hW : s0.G.nCells < 2 ^ 32) (hfull : Full s0.G)
    (hfed : FedBy cfg s0 s) (hs : Succeeded (stepNU cfg s).1) (hc : CorrectNU cfg) :
    ∃ prev q, cfg.plugin s.plug (spreaderTemps s0.G fun i => s.temps.getD i 0) prev = ((stepNU cfg s).2.plug, some q) ∧
      (∀ r c, r < s0.G.d.nRows → c < s0.G.d.nCols →
        (stepNU cfg s).2.sources.getD (s0.G.at s0.G.d.nLayers r c) 0 = - q.getD (r * s0.G.d.nCols + c) 0) ∧
      ∃ S fl, sourcesNU s0.G.g s0.G.d s0.G.cells s0.G.flps = some (S, fl) ∧
        ∀ i, i < firstCell s0.G s0.G.d.nLayers → (stepNU cfg s).2.sources.getD i 0 = S.getD i 0 := by
  have h0 := reachable_valid h
  have hlen := spr_len h0.grid ht
  obtain ⟨S, fl, prev, q, e1, e2, -, -, e3, -⟩ := plug_system h ht hb hW hfull hfed hs hc
  refine ⟨prev, q, e2, ?_, S, fl, e1, ?_⟩
  · intro r c hr hcc
    have hk : r * s0.G.d.nCols + c < s0.G.d.nRows * s0.G.d.nCols := by
      calc r * s0.G.d.nCols + c < r * s0.G.d.nCols + s0.G.d.nCols := by omega
        _ = (r + 1) * s0.G.d.nCols := by ring
        _ ≤ _ := Nat.mul_le_mul_right _ hr
    have hA : s0.G.at s0.G.d.nLayers r c = stackCells s0.G + (r * s0.G.d.nCols + c) := rfl
    rw [hA, e3 _ (by omega), sources_above h0.grid hfull e1 (by omega), if_pos (by omega), Nat.add_sub_cancel_left, zero_sub]
  · intro i hi
    have hi' : i < stackCells s0.G := hi
    rw [e3 i (by omega), if_neg (by omega), sub_zero]

/-- **C63 (heat balance)** In each successful step the heat stored by the cells, those of the spreader included, is the power of the slot, plus
what the bottom sink gives, plus what the coolant carries from the inlet to the outlet, minus what the plugin takes. -/
theorem C63_heat_balance {cfg : NCfg K π} {s0 s : NSim K π} (h : ReachableNU cfg d0 decl rs ns s0) {sp : Spreader K} {m : Material K}
    (ht : s0.G.g.top = some (.pluggable sp m)) (hb : NoBorder sp) (hW : s0.G.nCells < 2 ^ 32)
    (fit : ChipFits s0.G.d) (ph : PhysicalNU s0.G) (hsh : Sharp s0.G) (hodd : OddColumns s0.G)
    (hfull : Full s0.G) (hd : ∀ e ∈ elements s0, e.dx * e.dy ≠ 0) {C : Nat → K} (hC : ∀ i, IsCapacity s0.G ns i (C i))
    (ha : 0 < cfg.an.stepTime) (hfed : FedBy cfg s0 s) (hs : Succeeded (stepNU cfg s).1) (hc : CorrectNU cfg) {T T' : Nat → K}
    (hT : ∀ i, T i = s.temps.getD i 0) (hT' : ∀ i, T' i = (stepNU cfg s).2.temps.getD i 0) :
    ∃ prev q, cfg.plugin s.plug (spreaderTemps s0.G T) prev = ((stepNU cfg s).2.plug, some q) ∧
      ∑ i ∈ Finset.range s0.G.cells.length, C i / cfg.an.stepTime * (T' i - T i) =
        ((elements s0).map nextPower).sum + (s0.G.cells.map (fromSinks s0.G)).sum +
        overColumns s0.G ns (fun n ch c => stream ch s0.G.d c * (ch.coolant.tIn - T' (s0.G.at (coolantLayer n.elem ch) (s0.G.d.nRows - 1) c))) -
        taken_by s0.G q := by
  have hv := reachable_valid h
  have hlen := spr_len hv.grid ht
  have htr : cfg.an.type = .transient := by
    by_contra hh
    have : stepNU cfg s = (.wrongConfig, s) := by simp [stepNU, hh]
    rw [this] at hs; simp [Succeeded] at hs
  have hat : cfg.an.ana.transient = true := by simp [Emu.Analysis.ana, htr]
  have hst : ∀ x : K, storage cfg.an.ana x = x / cfg.an.stepTime := fun x => Emu.storage_transient hat x
  obtain ⟨S, fl, prev, q, e1, e0, e2, -, -, e3⟩ := plug_system h ht hb hW hfull hfed hs hc
  have hTf : T = fun i => s.temps.getD i 0 := funext hT
  refine ⟨prev, q, by rw [hTf]; exact e0, ?_⟩
  have hcap : ∀ i, i < s0.G.cells.length → (s0.G.cells[i]?).elim 0 (capacityNU s0.G.g s0.G.d) = C i := by
    intro i hi
    have h1 := C59_capacities hv.grid fit ph hsh i _ (List.getElem?_eq_getElem hi)
    rw [List.getElem?_eq_getElem hi]
    simp only [Option.elim_some]
    have h1' := h1 _ (List.getElem?_eq_getElem hi)
    have h2' := hC i _ (List.getElem?_eq_getElem hi)
    by_cases hin : InChannel ns s0.G.cells[i]
    · obtain ⟨n, hn, ch, hb, b1, b2⟩ := hin
      have hk : s0.G.cells[i].layer - n.elem.offset < chLayers ch := by omega
      obtain ⟨r, c, hr, hc, ei⟩ := chan_of_layer hv.grid hn hb hk hi (by omega)
      rw [h1'.2 n hn ch hb _ r c hk hr hc ei, h2'.2 n hn ch hb _ r c hk hr hc ei]
    · rw [h1'.1 hin, h2'.1 hin]
  -- the flow of the plugin as a change of the temperature before the step
  have hCpos : ∀ i, stackCells s0.G ≤ i → i < s0.G.cells.length → C i / cfg.an.stepTime ≠ 0 := by
    intro i hi hi2
    obtain ⟨c, c1, c2, -⟩ := spr_at hv.grid ht (k := i - stackCells s0.G) (by omega)
    rw [show stackCells s0.G + (i - stackCells s0.G) = i by omega] at c1
    have := hcap i hi2
    rw [c1] at this
    simp only [Option.elim_some, capacityNU] at this
    rw [if_pos (by rw [c2, hv.grid.wf.nl]), sprTerm, ht] at this
    simp only [sprCapacity] at this
    obtain ⟨p1, p2, p3, p4⟩ := ph.spr sp m ht
    rw [← this]
    have := p4.2.2.2
    positivity
  have hlin : ∀ i, i < s0.G.cells.length → C i / cfg.an.stepTime * (T i - (if stackCells s0.G ≤ i then q.getD (i - stackCells s0.G) 0 else 0) / (C i / cfg.an.stepTime)) =
      C i / cfg.an.stepTime * T i - if stackCells s0.G ≤ i then q.getD (i - stackCells s0.G) 0 else 0 := by
    intro i hi
    by_cases h1 : stackCells s0.G ≤ i
    · rw [if_pos h1, mul_sub, mul_div_cancel₀ _ (hCpos i h1 hi)]
    · rw [if_neg h1, zero_div, sub_zero, sub_zero]
  have hbal := C59_heat_balance hv.grid fit ph hsh hodd hfull e2
    (T := fun i => T i - (if stackCells s0.G ≤ i then q.getD (i - stackCells s0.G) 0 else 0) / (C i / cfg.an.stepTime)) (T' := T')
    (fun l es hl e he => hd e (List.mem_flatMap.mpr ⟨some es, List.mem_of_getElem? hl, he⟩)) hC e1 (by
      intro i hi
      have := e3 i hi
      simp only [hcap i hi, hst, ← hT, ← hT'] at this
      beta_reduce
      rw [hst]
      refine this.trans ?_
      show _ = C i / cfg.an.stepTime * (T i - _) + S.getD i 0
      rw [hlin i hi]; ring)
  simp only [hst, totalPower_elements, mul_sub] at hbal
  have hamb : ∀ i : Nat, (s0.G.cells[i]?).elim 0 (toAmbient s0.G) = 0 := by
    intro i
    cases s0.G.cells[i]? with
    | none => rfl
    | some c => simp [toAmbient, ht]
  simp only [hamb, zero_mul, Finset.sum_const_zero, sub_zero] at hbal
  have hre : ∑ i ∈ Finset.range s0.G.cells.length, (C i / cfg.an.stepTime * T' i -
      (C i / cfg.an.stepTime * T i - C i / cfg.an.stepTime * ((if stackCells s0.G ≤ i then q.getD (i - stackCells s0.G) 0 else 0) / (C i / cfg.an.stepTime)))) =
      ∑ i ∈ Finset.range s0.G.cells.length, C i / cfg.an.stepTime * (T' i - T i) + taken_by s0.G q := by
    rw [← taken_sum hv.grid ht q, ← Finset.sum_add_distrib]
    refine Finset.sum_congr rfl fun i hi => ?_
    have := hlin i (Finset.mem_range.mp hi)
    rw [mul_sub] at this
    rw [this]; ring
  rw [hre] at hbal
  rw [eq_sub_iff_add_eq, hbal]
  ring

/-- **C63 (steps)** With power values left, a solver that finds unique solutions and a plugin that does not fail, a step does not fail. -/
theorem C63_steps_succeed {cfg : NCfg K π} {s : NSim K π} (h : ReachableNU cfg d0 decl rs ns s)
    (fit : ChipFits s.G.d) (ph : PhysicalNU s.G) (hsh : Sharp s.G)
    (hpos : ∀ ch, s.G.g.channel = some ch → PosChannel ch) (htr : cfg.an.type = .transient) (ha : 0 < cfg.an.stepTime) (hc : CompleteNU cfg)
    (hplug : ∀ p T prev, (cfg.plugin p T prev).2 ≠ none)
    (hp : cfg.an.slotLength ∣ s.time → ∀ e ∈ elements s, e.powers ≠ []) : Succeeded (stepNU cfg s).1 := by
  have hv := reachable_valid h
  have hat : cfg.an.ana.transient = true := by simp [Emu.Analysis.ana, htr]
  have hpl : ∀ s1 : NSim K π, (pluggableNU cfg s1).2 = true := by
    intro s1
    unfold pluggableNU
    split
    · have key : ∀ (o n : Nat) (r : π × Option (List K)), r.2 ≠ none → (plugged s1 o n r).2 = true := by
        rintro o n ⟨p, q⟩ hr
        cases q with
        | none => exact absurd rfl hr
        | some q => rfl
      exact key _ _ _ (hplug _ _ _)
    · rfl
  have hfin : ∀ s1 : NSim K π, (∃ fl, s1.G = { s.G with flps := fl }) → Valid cfg d0 decl rs ns s1 → Succeeded (finishNU cfg s1).1 := by
    rintro s1 ⟨fl, hG⟩ hv1
    obtain ⟨k1, k2, k3, k4, k5, k6⟩ := pluggable_keeps cfg s1
    have hok := hpl s1
    cases hp2 : pluggableNU cfg s1 with
    | mk s2 ok =>
      rw [hp2] at k1 k4 hok
      simp only at k1 k4 hok
      subst hok
      have hlen : (vectorNU cfg s2).length = s1.G.cells.length := by
        unfold vectorNU; rw [List.length_map, List.length_range, k1]; rfl
      obtain ⟨x, hx⟩ := hc s2.mat (vectorNU cfg s2) (by
        rw [hlen, k4]
        exact C62_step_unique hv1.grid (by rw [hG]; exact fit) (by rw [hG]; exact ⟨ph.hts, ph.cell, ph.mat, ph.htc, ph.spr⟩) (by rw [hG]; exact hsh)
          (by rw [hG]; exact hpos) ⟨s1.conns, hv1.conns, hv1.mat⟩ hat ha _)
      rw [finish_ok hp2 hx]
      simp only
      generalize slotDoneNU _ _ = b
      cases b
      · exact Or.inl rfl
      · exact Or.inr rfl
  by_cases hb : cfg.an.slotLength ∣ s.time
  · obtain ⟨S, fl, e1, e2, e3, e4⟩ := updateSources_spec hv
    have : ((elements s).all fun e => decide (e.powers ≠ [])) = true := by
      rw [List.all_eq_true]; intro e he; exact decide_eq_true (hp hb e he)
    rw [this] at e1
    have hm := Nat.dvd_iff_mod_eq_zero.mp hb
    have e5 : stepNU cfg s = finishNU cfg { s with sources := S, G := { s.G with flps := fl } } := by
      simp [stepNU, htr, slotDoneNU, hm, e1]
    rw [e5]
    exact hfin _ ⟨fl, rfl⟩ (valid_congr hv e2 rfl rfl rfl rfl hv.time)
  · rw [inner_step htr hb]
    exact hfin s ⟨s.G.flps, rfl⟩ hv

/-- **C63 (equilibrium)** No power in the slot, no bottom sink, the coolant at the temperature of the whole stack, and a plugin that takes
nothing in this step: the temperatures stay as they are. -/
theorem C63_equilibrium_partial {cfg : NCfg K π} {s0 s : NSim K π} (h : ReachableNU cfg d0 decl rs ns s0) {sp : Spreader K} {m : Material K}
    (ht : s0.G.g.top = some (.pluggable sp m)) (hb : NoBorder sp) (hW : s0.G.nCells < 2 ^ 32)
    (fit : ChipFits s0.G.d) (ph : PhysicalNU s0.G) (hsh : Sharp s0.G) (hodd : OddColumns s0.G)
    (hfull : Full s0.G) (hpos : ∀ ch, s0.G.g.channel = some ch → PosChannel ch) (ha : 0 < cfg.an.stepTime)
    (hno : ∀ e ∈ elements s0, nextPower e = 0) (hbot : s0.G.g.bottom = none) {T : K}
    (hin : ∀ ch, s0.G.g.channel = some ch → ch.coolant.tIn = T) (hfed : FedBy cfg s0 s) (hs : Succeeded (stepNU cfg s).1)
    (hq : ∀ prev q, (cfg.plugin s.plug (spreaderTemps s0.G fun _ => T) prev).2 = some q → ∀ i, q.getD i 0 = 0)
    (hc : CorrectNU cfg) (hT : ∀ i, i < s0.G.cells.length → s.temps.getD i 0 = T) :
    ∀ i, i < s0.G.cells.length → (stepNU cfg s).2.temps.getD i 0 = T := by
  have hv := reachable_valid h
  have hlen := spr_len hv.grid ht
  have htr : cfg.an.type = .transient := by
    by_contra hh
    have : stepNU cfg s = (.wrongConfig, s) := by simp [stepNU, hh]
    rw [this] at hs; simp [Succeeded] at hs
  have hat : cfg.an.ana.transient = true := by simp [Emu.Analysis.ana, htr]
  obtain ⟨S, fl, prev, q, e1, e0, e2, -, -, e3⟩ := plug_system h ht hb hW hfull hfed hs hc
  have hsame : (spreaderTemps s0.G fun i => s.temps.getD i 0) = spreaderTemps s0.G fun _ => T := by
    unfold spreaderTemps Grid.at
    rw [← rows_cols s0.G.d.nCols (fun k => s.temps.getD (firstCell s0.G s0.G.d.nLayers + k) 0), ← rows_cols s0.G.d.nCols (fun k => T)]
    refine List.map_congr_left fun k hk => hT _ ?_
    have := List.mem_range.mp hk
    rw [hlen]; unfold stackCells; omega
  rw [hsame] at e0
  have hz := hq prev q (by rw [e0])
  have hone := fun b => C62_step_unique hv.grid fit ph hsh hpos e2 hat ha b
  have hnp : NoPower s0.G := fun l es hl e he => hno e (List.mem_flatMap.mpr ⟨some es, List.mem_of_getElem? hl, he⟩)
  have heq := C59_equilibrium_partial hv.grid fit ph hsh hodd hfull e2 hnp
    (C := fun i => (s0.G.cells[i]?).elim 0 (capacityNU s0.G.g s0.G.d)) (fun i => by
      cases hcc : s0.G.cells[i]? with
      | none => intro cell h'; rw [hcc] at h'; cases h'
      | some c => exact C59_capacities hv.grid fit ph hsh i c hcc)
    (T := T) (fun s' hs' => by rw [ht] at hs'; cases hs') hbot hin e1
  have e3' : Solves s0.G.cells.length s.mat.entry (fun i => (stepNU cfg s).2.temps.getD i 0)
      fun i => storage cfg.an.ana ((s0.G.cells[i]?).elim 0 (capacityNU s0.G.g s0.G.d)) * T + S.getD i 0 := by
    intro i hi
    have := e3 i hi
    simp only [hT i hi, hz, ite_self, sub_zero] at this
    exact this
  obtain ⟨x, -, hx⟩ := hone fun i => storage cfg.an.ana ((s0.G.cells[i]?).elim 0 (capacityNU s0.G.g s0.G.d)) * T + S.getD i 0
  intro i hi
  exact (hx _ e3' i hi).trans (hx _ heq i hi).symm

/-! ## Spreaders with borders -/

/-- **C63 (violated: capacities)** With a spreader larger than the chip by at least one cell, more capacities are written than the array
has room for. -/
theorem C63_capacity_overflow_violated (hf : FromStack d0 decl rs ns G) {sp : Spreader K} {m : Material K} (ht : G.g.top = some (.pluggable sp m))
    (hb : ¬ NoBorder sp) : G.nCells < (capsNU G).length := by
  have hlen := spr_len hf ht
  have hn := (C54_cells_fit_arrays hf).1
  have hwf := hf.wf
  obtain ⟨g1, g2, -⟩ := spr_geo hwf ht
  have hr := hwf.acc.rows
  have hc := hwf.acc.cols
  rw [caps_plug hf ht, List.length_append, List.length_map, List.length_take, List.length_replicate]
  have : G.d.nRows * G.d.nCols < sp.nRows * sp.nCols := by
    unfold NoBorder at hb
    by_cases h : sp.rowsBorder = 0
    · have : sp.colsBorder ≠ 0 := fun hh => hb ⟨h, hh⟩
      rw [g1, h, Nat.zero_add, Nat.add_zero]
      exact Nat.mul_lt_mul_of_pos_left (by omega) (by omega)
    · calc G.d.nRows * G.d.nCols < sp.nRows * G.d.nCols := Nat.mul_lt_mul_of_pos_right (by omega) (by omega)
        _ ≤ sp.nRows * sp.nCols := Nat.mul_le_mul_left _ (by omega)
  omega

/-- **C63 (violated: cells of the stack)** With a spreader larger than the chip by at least one cell, the plugin does not get the temperatures of
the spreader only: the first ones are those of cells of the stack; and in the first step of a slot the sources of those cells of the stack,
with the power of their floorplan elements, are replaced by heat flows of the plugin. -/
theorem C63_border_violated {cfg : NCfg K π} {s : NSim K π} (h : ReachableNU cfg d0 decl rs ns s) {sp : Spreader K} {m : Material K}
    (ht : s.G.g.top = some (.pluggable sp m)) (hb : ¬ NoBorder sp) (hW : s.G.nCells < 2 ^ 32) (hfits : sp.nRows * sp.nCols ≤ s.G.nCells) (hfull : Full s.G)
    (hbd : cfg.an.slotLength ∣ s.time) (hs : Succeeded (stepNU cfg s).1) :
    ∃ o, o + sp.nRows * sp.nCols = s.G.cells.length ∧ o < firstCell s.G s.G.d.nLayers ∧
      ∃ prev q, cfg.plugin s.plug (s.temps.drop o) prev = ((stepNU cfg s).2.plug, some q) ∧
        ∀ i, o ≤ i → i < s.G.cells.length → (stepNU cfg s).2.sources.getD i 0 = - q.getD (i - o) 0 := by
  have h0 := reachable_valid h
  have hlen := spr_len h0.grid ht
  have hn := (C54_cells_fit_arrays h0.grid).1
  have hwf := h0.grid.wf
  have hov := C63_capacity_overflow_violated h0.grid ht hb
  rw [caps_plug h0.grid ht, List.length_append, List.length_map, List.length_take, List.length_replicate] at hov
  have hmul : sp.nCols * sp.nRows = sp.nRows * sp.nCols := Nat.mul_comm _ _
  have ho : sprOffset s.G sp = s.G.nCells - sp.nRows * sp.nCols := by
    rw [sprOffset_eq (by omega) (by rw [NU_W]; norm_num at hW; exact hW), hmul]
  obtain ⟨S, fl, e1, e2⟩ := first_step h0 hbd hs
  have hSl := sources_len h0.grid hfull e1
  rw [e2] at hs ⊢
  obtain ⟨s2, x, f1, f2, f3, f4⟩ := finish_succeeded hs
  have hp2 : (finishNU cfg { s with sources := S, G := { s.G with flps := fl } }).2.plug = s2.plug := by rw [finish_ok f1 f2]
  obtain ⟨p, q, g1, g2, -, -, -, -, -, g7⟩ := pluggable_call (s := { s with sources := S, G := { s.G with flps := fl } }) (m := m) ht ho f1
  refine ⟨s.G.nCells - sp.nRows * sp.nCols, by omega, ?_, _, q, by rw [hp2, g7]; exact g1, ?_⟩
  · show _ < stackCells s.G; omega
  · intro i hi hi2
    rw [f4, g2]
    have hl1 : (S.take (s.G.nCells - sp.nRows * sp.nCols)).length = s.G.nCells - sp.nRows * sp.nCols := by rw [List.length_take]; omega
    show (S.take _ ++ _).getD i 0 = _
    rw [List.getD_eq_getElem?_getD, List.getElem?_append_right (by omega), hl1, List.getElem?_map, List.getElem?_range (by omega)]
    rfl

end Verif.NU
