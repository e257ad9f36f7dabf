import Verif.Props.NuSteady
import Verif.Props.Monotone
import Verif.Props.NonUniformSink

/-! # C74: bounds and monotonicity of the temperatures on a non-uniform grid without coolant -/

set_option linter.unusedSectionVars false
set_option linter.unusedSimpArgs false
set_option linter.unusedVariables false

/-! ## Linear algebra -/

namespace Verif.Net2
open Finset Matrix
variable {K : Type} [Field K] [LinearOrder K] [IsStrictOrderedRing K]
variable {ι : Type} [Fintype ι] [DecidableEq ι]

/-- Minimum principle: non-positive off-diagonal, row sums that are not negative, and from every row whose sum is zero a way to another row
of smaller rank. -/
theorem nonneg_of_climb {A : Matrix ι ι K} (hoff : ∀ i j, i ≠ j → A i j ≤ 0) (hrow : ∀ i, 0 ≤ ∑ j, A i j) (rank : ι → Nat)
    (hup : ∀ i, 0 < ∑ j, A i j ∨ ∃ j, rank j < rank i ∧ A i j ≠ 0) {x : ι → K} (h : ∀ i, 0 ≤ (A *ᵥ x) i) (i : ι) : 0 ≤ x i := by
  obtain ⟨m0, -, hm0⟩ := Finset.exists_min_image Finset.univ x ⟨i, Finset.mem_univ i⟩
  by_contra hi
  have hneg : x m0 < 0 := lt_of_le_of_lt (hm0 i (Finset.mem_univ i)) (not_le.mp hi)
  have key : ∀ (n : Nat) (m : ι), rank m = n → x m = x m0 → False := by
    intro n
    induction n using Nat.strong_induction_on with
    | _ n ih =>
      intro m hr hx
      have h1 := h m
      rw [mulVec_split] at h1
      have hle : ∀ j, x m ≤ x j := fun j => by rw [hx]; exact hm0 j (Finset.mem_univ j)
      have ht : ∀ j ∈ Finset.univ, A m j * (x j - x m) ≤ 0 := by
        intro j _
        by_cases hj : m = j
        · subst hj; simp
        · exact mul_nonpos_of_nonpos_of_nonneg (hoff m j hj) (sub_nonneg.mpr (hle j))
      have h2 := Finset.sum_nonpos ht
      have h3 : x m * ∑ j, A m j ≤ 0 := mul_nonpos_of_nonpos_of_nonneg (by rw [hx]; exact hneg.le) (hrow m)
      rcases hup m with hp | ⟨j, hj, ha⟩
      · have : x m * ∑ j, A m j < 0 := mul_neg_of_neg_of_pos (by rw [hx]; exact hneg) hp
        linarith
      · have hz : ∑ j, A m j * (x j - x m) = 0 := by linarith
        have := (Finset.sum_eq_zero_iff_of_nonpos ht).mp hz j (Finset.mem_univ j)
        have hxj : x j = x m := by
          rcases mul_eq_zero.mp this with h4 | h4
          · exact absurd h4 ha
          · linarith
        exact ih (rank j) (by omega) j rfl (hxj.trans hx)
  exact key _ m0 rfl rfl

end Verif.Net2

namespace Verif.NU
open Verif.Dim Verif.TG Verif.Stk Verif.SM
open Verif.Emu (SimResult Succeeded withAmb)

variable {K : Type} [Field K] [LinearOrder K] [IsStrictOrderedRing K] {π ρ : Type}
variable {d0 : Dims K} {rs : List (Raw K (List (FEl K)))} {ns : List (NElem K)} {G : Grid K} {a : Ana K} {m : Csc K}

/-! ## Specification -/

/-- Steps, insertions of powers that satisfy `P`, and resets to a temperature that satisfies `Q`. -/
def Allowed (cfg : NCfg K π) (P Q : K → Prop) : NOp K → Prop
  | .step => True
  | .insert vs => ∀ v ∈ vs, P v
  | .reset => Q cfg.an.initTemp

/-- The same calls with higher powers. -/
inductive OpLe : NOp K → NOp K → Prop
  | step : OpLe .step .step
  | insert {vs vs' : List K} : List.Forall₂ (· ≤ ·) vs vs' → OpLe (.insert vs) (.insert vs')
  | reset : OpLe .reset .reset

/-- Every cell has at least temperature `m`. -/
def AtLeast (s : NSim K π) (m : K) : Prop := ∀ i, i < s.G.cells.length → m ≤ s.temps.getD i 0
/-- Every cell has at most temperature `m`. -/
def AtMost (s : NSim K π) (m : K) : Prop := ∀ i, i < s.G.cells.length → s.temps.getD i 0 ≤ m

/-! ## The matrix -/

section
variable (hf : FromStack d0 none rs ns G) (ph : PhysicalNU G)
include hf ph

theorem solid_file : ∃ fl, FromFile d0 rs ns { G with flps := fl } ∧ PhysicalNU { G with flps := fl } := by
  obtain ⟨p, g, fl, h1, h2, h3, -⟩ := hf.parsed
  exact ⟨fl, ⟨p, g, h1, h2, h3⟩, ⟨ph.hts, ph.cell, ph.mat, ph.htc, ph.spr⟩⟩

theorem solid_off (hm : Assembled id G a m) (i j : Nat) (hj : j < G.cells.length) (hij : i ≠ j) : m.entry i j ≤ 0 := by
  obtain ⟨fl, h1, h2⟩ := solid_file hf ph
  exact off_nonpos h1 h2 (G := { G with flps := fl }) hm i j hj hij

theorem solid_row (hm : Assembled id G a m) (i : Nat) (hi : i < G.cells.length) :
    ∑ j ∈ Finset.range G.cells.length, m.entry i j = storage a (heatCapacity G G.cells[i]) + toAmbient G G.cells[i] := by
  obtain ⟨fl, h1, h2⟩ := solid_file hf ph
  exact C44_row_sums h1 h2 (G := { G with flps := fl }) hm i hi

theorem solid_cap {c : Cell K} (hc : c ∈ G.cells) : 0 < heatCapacity G c := by
  obtain ⟨fl, h1, h2⟩ := solid_file hf ph
  exact capacity_posNU h1 h2 (G := { G with flps := fl }) hc

theorem solid_amb {c : Cell K} (hc : c ∈ G.cells) : 0 ≤ toAmbient G c := by
  obtain ⟨fl, h1, h2⟩ := solid_file hf ph
  exact ambient_nonnegNU h1 h2 (G := { G with flps := fl }) hc

theorem solid_bottom {c : Cell K} (hc : c ∈ G.cells) (hl : c.layer < G.d.nLayers) : 0 < toBottomFace G c := by
  obtain ⟨fl, h1, h2⟩ := solid_file hf ph
  exact bottomFace_pos h1 h2 (G := { G with flps := fl }) hc hl

theorem dry_layer {l : Nat} (hl : l < G.d.nLayers) : coolantType (typeAt G.g l) = false := by
  obtain ⟨fl, h1, h2⟩ := solid_file hf ph
  exact FromFile.dry (G := { G with flps := fl }) h1 hl

theorem solid_capacity {c : Cell K} (hc : c ∈ G.cells) : capacityNU G.g G.d c = heatCapacity G c := by
  obtain ⟨fl, h1, h2⟩ := solid_file hf ph
  have e := diagBase_eq h1 h2 (G := { G with flps := fl }) (a := ⟨true, 1⟩) c hc
  have e0 := diagBase_eq h1 h2 (G := { G with flps := fl }) (a := ⟨false, 1⟩) c hc
  have e1 : diagBase G.g ⟨true, 1⟩ G.d c = storage ⟨true, 1⟩ (heatCapacity G c) + toAmbient G c := e
  have e2 : diagBase G.g ⟨false, 1⟩ G.d c = storage ⟨false, 1⟩ (heatCapacity G c) + toAmbient G c := e0
  unfold diagBase storage at e1 e2
  simp at e1 e2
  linarith

/-- A time step of a system without coolant keeps signs. -/
theorem solid_step (hm : Assembled id G a m) (hat : a.transient = true) (ha : 0 < a.stepTime) {x b : Nat → K}
    (hsol : Solves G.cells.length m.entry x b) (hb : ∀ i, i < G.cells.length → 0 ≤ b i) : ∀ i, i < G.cells.length → 0 ≤ x i := by
  intro i hi
  refine Net2.nonneg_of_mulVec_nonneg (A := fun (i j : Fin G.cells.length) => m.entry i j) (x := fun j => x j)
    (fun i j hij => solid_off hf ph hm i j j.2 (fun h => hij (Fin.ext h))) ?_ ?_ ⟨i, hi⟩
  · intro i
    rw [sum_fin G.cells.length (fun j => m.entry i j), solid_row hf ph hm i i.2]
    have h1 := solid_cap hf ph (List.getElem_mem i.2)
    have h2 := solid_amb hf ph (List.getElem_mem i.2)
    have h3 : 0 < storage a (heatCapacity G G.cells[i]) := by unfold storage; rw [hat]; simp only [if_true]; positivity
    exact add_pos_of_pos_of_nonneg h3 h2
  · intro i
    have := (solves_iff m.entry x b).mp hsol
    rw [this]
    exact hb i i.2

/-- So does its steady state, if there are no holes. -/
theorem solid_steady (fit : ChipFits G.d) (hsh : Sharp G) (hh : NoHoles G ns) (hm : Assembled id G a m) (hat : a.transient = false) {t : Sink K}
    (ht : G.g.top = some (.ambient t)) (hch : ∀ ch, G.g.channel = some ch → PosChannel ch ∧ Exchanges ch) {x b : Nat → K}
    (hsol : Solves G.cells.length m.entry x b) (hb : ∀ i, i < G.cells.length → 0 ≤ b i) : ∀ i, i < G.cells.length → 0 ≤ x i := by
  intro i hi
  have hS := fun i : Fin G.cells.length => steady_sums hf fit ph hsh (fun ch h => (hch ch h).1) hm hat ht i.2
  refine Net2.nonneg_of_climb (A := fun (i j : Fin G.cells.length) => m.entry i j) (x := fun j => x j)
    (fun i j hij => solid_off hf ph hm i j j.2 (fun h => hij (Fin.ext h))) ?_ (fun i => G.d.nLayers - G.cells[i].layer) ?_ ?_ ⟨i, hi⟩
  · intro i
    rw [sum_fin G.cells.length (fun j => m.entry i j)]
    exact (hS i).1
  · intro i
    rw [sum_fin G.cells.length (fun j => m.entry i j)]
    have hlt : G.cells[i].layer < G.d.nLayers := below_top hf ht (List.getElem_mem i.2)
    by_cases hl : G.cells[i].layer + 1 = G.d.nLayers
    · exact Or.inl ((hS i).2.2 hl)
    · right
      obtain ⟨j, hj, hup, g, hg, e1, e2⟩ := conducts_up hf fit ph hsh hch hh hm i.2 (show G.cells[i].layer + 1 < G.d.nLayers by omega)
      refine ⟨⟨j, hj⟩, ?_, ?_⟩
      · show G.d.nLayers - G.cells[j].layer < G.d.nLayers - G.cells[i].layer
        have : G.cells[i].layer < G.cells[j].layer := hup
        omega
      · show m.entry i j ≠ 0
        rw [e1]
        intro h
        linarith
  · intro i
    have := (solves_iff m.entry x b).mp hsol
    rw [this]
    exact hb i i.2

/-! ## The sources -/

/-- What a cell receives: the exchange with the sinks, and its share of the next power of an element if it has one. -/
theorem solid_source (hfull : Full G) {t : Sink K} (ht : G.g.top = some (.ambient t)) {S : List K} {fl' : List (Option (List (FEl K)))}
    (h : sourcesNU G.g G.d G.cells G.flps = some (S, fl')) {i : Nat} (hi : i < G.cells.length) :
    ∃ lc, G.ls[G.cells[i].layer]? = some lc ∧ firstCell G G.cells[i].layer ≤ i ∧
      S.getD i 0 = fromSinks G G.cells[i] + ((powerPart G G.cells[i].layer lc)[i - firstCell G G.cells[i].layer]?).getD 0 := by
  have hlt := below_top hf ht (List.getElem_mem hi)
  obtain ⟨lc, hlc⟩ := lsAt hf.laid hlt
  have hpos := locate hf (List.getElem?_eq_getElem hi) hlc
  obtain ⟨h1, h2⟩ := source_at hf.laid ph hfull h hlt hlc (s := i - firstCell G G.cells[i].layer) (by omega)
  have hadd : firstCell G G.cells[i].layer + (i - firstCell G G.cells[i].layer) = i := by omega
  rw [hadd] at h1 h2
  rw [List.getElem?_eq_getElem hi, Option.some.injEq] at h2
  refine ⟨lc, hlc, by omega, ?_⟩
  rw [List.getD_eq_getElem?_getD, h1, ← h2]; rfl

end

theorem shares_prop {P : K → Prop} (h0 : P 0) (hd : ∀ v (n : Nat), P v → P (v / (n : K))) {es : List (FEl K)} (h : ∀ e ∈ es, ∀ v ∈ e.powers, P v) :
    ∀ v ∈ shares es, P v := by
  intro v hv
  obtain ⟨e, he, hv⟩ := List.mem_flatMap.mp hv
  obtain ⟨-, rfl⟩ := List.mem_replicate.mp hv
  refine hd _ _ ?_
  cases hp : e.powers with
  | nil => exact h0
  | cons p ps => exact h e he p (by rw [hp]; simp)

theorem powerPart_prop {P : K → Prop} (h0 : P 0) (hd : ∀ v (n : Nat), P v → P (v / (n : K))) {l : Nat} (hdry : coolantType (typeAt G.g l) = false)
    {lc : List (Cell K)} (h : ∀ e ∈ elsOf G.flps, ∀ v ∈ e.powers, P v) (k : Nat) : P (((powerPart G l lc)[k]?).getD 0) := by
  cases hk : (powerPart G l lc)[k]? with
  | none => exact h0
  | some v =>
    have hv := List.mem_of_getElem? hk
    show P v
    unfold powerPart at hv
    cases ho : G.flps[l]? with
    | none => rw [ho] at hv; simp only [hdry] at hv; rw [if_neg (by simp)] at hv; rw [(List.mem_replicate.mp hv).2]; exact h0
    | some o =>
      cases o with
      | none => rw [ho] at hv; simp only [hdry] at hv; rw [if_neg (by simp)] at hv; rw [(List.mem_replicate.mp hv).2]; exact h0
      | some es =>
        rw [ho] at hv
        refine shares_prop h0 hd (fun e he => h e ?_) v hv
        exact List.mem_flatMap.mpr ⟨some es, List.mem_of_getElem? ho, he⟩

/-! ## One step -/

/-- The system solved by the last part of a step. -/
theorem finish_system {decl : Option (Channel K)} {cfg : NCfg K π} {s : NSim K π} (hv : Valid cfg d0 decl rs ns s) {t : Sink K} (ht : s.G.g.top = some (.ambient t))
    (htr : cfg.an.type = .transient) (hs : Succeeded (finishNU cfg s).1) (hc : CorrectNU cfg) :
    Solves s.G.cells.length s.mat.entry (fun i => (finishNU cfg s).2.temps.getD i 0) fun i =>
      storage cfg.an.ana ((s.G.cells[i]?).elim 0 (capacityNU s.G.g s.G.d)) * s.temps.getD i 0 + s.sources.getD i 0 := by
  obtain ⟨x, hx, hT⟩ := finish_temps ht hs
  obtain ⟨hl, hsol⟩ := hc _ _ _ hx
  have hlen : (vectorNU cfg s).length = s.G.cells.length := by
    unfold vectorNU; rw [List.length_map, List.length_range]; rfl
  rw [hlen] at hl hsol
  rw [hT]
  intro i hi
  rw [hsol i hi]
  have hcap : s.caps.getD i 0 = (s.G.cells[i]?).elim 0 (capacityNU s.G.g s.G.d) := by
    rw [hv.caps, caps_ambient hv.grid ht, List.getD_eq_getElem?_getD, List.getElem?_map]
    cases s.G.cells[i]? <;> rfl
  have hvec : (vectorNU cfg s).getD i 0 = s.sources.getD i 0 + (s.caps.getD i 0 / cfg.an.stepTime) * s.temps.getD i 0 := by
    have hi' : i < s.G.ls.flatten.length := hi
    unfold vectorNU
    rw [List.getD_eq_getElem?_getD, List.getElem?_map, List.getElem?_range hi']; rfl
  have hat : cfg.an.ana.transient = true := by simp [Emu.Analysis.ana, htr]
  have hst : (cfg.an.ana : Ana K).stepTime = cfg.an.stepTime := rfl
  beta_reduce
  rw [hvec, hcap, Emu.storage_transient hat, hst, add_comm]

theorem finish_system' {decl : Option (Channel K)} {cfg : NCfg K π} {s s1 : NSim K π} {fl : List (Option (List (FEl K)))} {S : List K} (hv : Valid cfg d0 decl rs ns s1)
    (hG : s1.G = { s.G with flps := fl }) (hm : s1.mat = s.mat) (hT : s1.temps = s.temps) (hS : s1.sources = S) {t : Sink K} (ht : s.G.g.top = some (.ambient t))
    (htr : cfg.an.type = .transient) (hs : Succeeded (finishNU cfg s1).1) (hc : CorrectNU cfg) :
    Solves s.G.cells.length s.mat.entry (fun i => (finishNU cfg s1).2.temps.getD i 0) fun i =>
      storage cfg.an.ana ((s.G.cells[i]?).elim 0 (capacityNU s.G.g s.G.d)) * s.temps.getD i 0 + S.getD i 0 := by
  have key := finish_system hv (t := t) (by rw [hG]; exact ht) htr hs hc
  have e1 : s1.G.cells = s.G.cells := by rw [hG]; rfl
  have e2 : s1.G.g = s.G.g := by rw [hG]
  have e3 : s1.G.d = s.G.d := by rw [hG]
  rw [hm, hT, hS, e1, e2, e3] at key
  exact key

/-- What the invariants of this file need about a step: nothing changes but the powers, or the step ends with the solution of the
system with the sources of the slot. -/
theorem step_cases {decl : Option (Channel K)} {cfg : NCfg K π} {s : NSim K π} (hv : Valid cfg d0 decl rs ns s) {t : Sink K} (ht : s.G.g.top = some (.ambient t))
    (hc : CorrectNU cfg) (hne : (stepNU cfg s).1 ≠ .solverError) :
    Valid cfg d0 decl rs ns (stepNU cfg s).2 ∧ (∃ fl, bare fl = bare s.G.flps ∧ (stepNU cfg s).2.G = { s.G with flps := fl }) ∧
    ((cfg.an.type ≠ .transient ∧ (stepNU cfg s).2 = s) ∨
     (cfg.an.type = .transient ∧ s.time % cfg.an.slotLength = 0 ∧ (∃ e ∈ elements s, e.powers = []) ∧ (stepNU cfg s).2.temps = s.temps ∧
        (stepNU cfg s).2.time = s.time ∧ elements (stepNU cfg s).2 = popFront (elements s)) ∨
     (cfg.an.type = .transient ∧ (s.time % cfg.an.slotLength = 0 → ∀ e ∈ elements s, e.powers ≠ []) ∧ (stepNU cfg s).2.time = (s.time + 1) % W ∧
        elements (stepNU cfg s).2 = (if s.time % cfg.an.slotLength = 0 then popFront (elements s) else elements s) ∧
        (s.time % cfg.an.slotLength ≠ 0 → (stepNU cfg s).2.sources = s.sources) ∧
        (s.time % cfg.an.slotLength = 0 → ∃ fl, sourcesNU s.G.g s.G.d s.G.cells s.G.flps = some ((stepNU cfg s).2.sources, fl)) ∧
        Solves s.G.cells.length s.mat.entry (fun i => (stepNU cfg s).2.temps.getD i 0) fun i =>
          storage cfg.an.ana ((s.G.cells[i]?).elim 0 (capacityNU s.G.g s.G.d)) * s.temps.getD i 0 + (stepNU cfg s).2.sources.getD i 0)) := by
  obtain ⟨a1, -, ⟨fl, hfl, a3⟩, hcs⟩ := step_spec (cfg := cfg) hv
  refine ⟨a1, ⟨fl, hfl, a3⟩, ?_⟩
  rcases hcs with ⟨-, h2, h3⟩ | ⟨-, h2, h3, hem, h4, h5, h6⟩ | ⟨htr, hp, hel, ⟨h2, -⟩ | ⟨hs, htime, -⟩⟩
  · exact Or.inl ⟨h2, h3⟩
  · exact Or.inr (Or.inl ⟨h2, h3, hem, h5, h4, h6⟩)
  · exact absurd h2 hne
  · right; right
    refine ⟨htr, hp, htime, ?_, ?_⟩
    · rw [hel]
      by_cases hm : s.time % cfg.an.slotLength = 0
      · rw [if_pos hm, if_pos hm, popFront_all (hp hm)]
      · rw [if_neg hm, if_neg hm]
    · by_cases hm : s.time % cfg.an.slotLength = 0
      · obtain ⟨S, fl', e1, e2⟩ := first_step hv (Nat.dvd_iff_mod_eq_zero.mpr hm) hs
        obtain ⟨S', fl'', u1, u2, u3, u4⟩ := updateSources_spec hv
        have hbare : bare fl' = bare s.G.flps := by
          have := u4 (hp hm)
          rw [e1] at this
          simp only [Option.some.injEq, Prod.mk.injEq] at this
          rw [this.2]; exact u2
        have hv1 : Valid cfg d0 decl rs ns { s with sources := S, G := { s.G with flps := fl' } } := valid_congr hv hbare rfl rfl rfl rfl hv.time
        have hsrc : (stepNU cfg s).2.sources = S := by
          rw [e2, finish_sources (s := { s with sources := S, G := { s.G with flps := fl' } }) (t := t) ht]
        refine ⟨fun h => absurd hm h, fun _ => ⟨fl', by rw [hsrc]; exact e1⟩, ?_⟩
        rw [hsrc, e2]
        rw [e2] at hs
        exact finish_system' hv1 rfl rfl rfl rfl ht htr hs hc
      · have e2 := inner_step (cfg := cfg) (s := s) htr (fun h => hm (Nat.dvd_iff_mod_eq_zero.mp h))
        have hsrc : (stepNU cfg s).2.sources = s.sources := by rw [e2, finish_sources ht]
        refine ⟨fun _ => hsrc, fun h => absurd h hm, ?_⟩
        rw [hsrc]
        rw [e2] at hs ⊢
        exact finish_system hv ht htr hs hc

/-! ## Bounds -/

theorem popFront_prop {P : K → Prop} {es : List (FEl K)} (h : ∀ e ∈ es, ∀ v ∈ e.powers, P v) : ∀ e ∈ popFront es, ∀ v ∈ e.powers, P v := by
  intro e he v hv
  rcases List.mem_append.mp he with h1 | h1
  · obtain ⟨e', h2, rfl⟩ := List.mem_map.mp h1
    exact h e' (List.takeWhile_subset _ h2) v (List.mem_of_mem_tail hv)
  · exact h e (List.dropWhile_subset _ h1) v hv

theorem pushFront_prop {P : K → Prop} : ∀ {es : List (FEl K)} {vs : List K}, (∀ e ∈ es, ∀ v ∈ e.powers, P v) → (∀ v ∈ vs, P v) →
    ∀ e ∈ pushFront es vs, ∀ v ∈ e.powers, P v
  | [], _, _, _ => by simp [pushFront]
  | e :: es, [], h, _ => by rw [pushFront]; exact h
  | e :: es, w :: vs, h, hq => by
    intro e' he' v hv
    rw [pushFront] at he'
    rcases List.mem_cons.mp he' with rfl | he'
    · rcases List.mem_append.mp hv with h1 | h1
      · exact h e (by simp) v h1
      · rw [List.mem_singleton.mp h1]; exact hq w (by simp)
    · exact pushFront_prop (fun e he => h e (by simp [he])) (fun v hv => hq v (by simp [hv])) e' he' v hv

/-- The invariant: `σ = 1` for the lower bound, `σ = -1` for the upper one. -/
structure Bnd (cfg : NCfg K π) (d0 : Dims K) (rs : List (Raw K (List (FEl K)))) (ns : List (NElem K)) (t : Sink K) (σ m : K) (s : NSim K π) : Prop where
  valid : Valid cfg d0 none rs ns s
  phys : PhysicalNU s.G
  full : Full s.G
  top : s.G.g.top = some (.ambient t)
  amb : 0 ≤ σ * (t.tAmb - m)
  bottom : ∀ b, s.G.g.bottom = some b → 0 ≤ σ * b.tAmb
  temps : ∀ i, i < s.G.cells.length → 0 ≤ σ * (s.temps.getD i 0 - m)
  powers : ∀ e ∈ elements s, ∀ v ∈ e.powers, 0 ≤ σ * v
  src : s.time % cfg.an.slotLength ≠ 0 → ∀ i (h : i < s.G.cells.length), 0 ≤ σ * (s.sources.getD i 0 - m * toAmbient s.G s.G.cells[i])

theorem Bnd.fresh {cfg : NCfg K π} {t : Sink K} {σ μ : K} {s : NSim K π} (h : Bnd cfg d0 rs ns t σ μ s) {S : List K} {fl : List (Option (List (FEl K)))}
    (hS : sourcesNU s.G.g s.G.d s.G.cells s.G.flps = some (S, fl)) (i : Nat) (hi : i < s.G.cells.length) :
    0 ≤ σ * (S.getD i 0 - μ * toAmbient s.G s.G.cells[i]) := by
  have hlt := below_top h.valid.grid h.top (List.getElem_mem hi)
  obtain ⟨lc, -, -, e⟩ := solid_source h.valid.grid h.phys h.full h.top hS hi
  have hp := powerPart_prop (P := fun v => 0 ≤ σ * v) (G := s.G) (lc := lc) (by simp) (fun v n hv => by rw [← mul_div_assoc]; exact div_nonneg hv (Nat.cast_nonneg n))
    (dry_layer h.valid.grid h.phys hlt) h.powers (i - firstCell s.G s.G.cells[i].layer)
  have ha := solid_amb h.valid.grid h.phys (List.getElem_mem hi)
  have hb := solid_bottom h.valid.grid h.phys (List.getElem_mem hi) hlt
  have h1 : 0 ≤ σ * (t.tAmb - μ) * toAmbient s.G s.G.cells[i] := mul_nonneg h.amb ha
  obtain ⟨B, hB, h2⟩ : ∃ B, fromSinks s.G s.G.cells[i] = t.tAmb * toAmbient s.G s.G.cells[i] + B ∧ 0 ≤ σ * B := by
    unfold fromSinks
    rw [h.top]
    cases hbt : s.G.g.bottom with
    | none => exact ⟨0, rfl, by simp⟩
    | some b =>
      refine ⟨_, rfl, ?_⟩
      simp only
      split_ifs
      · rw [← mul_assoc]; exact mul_nonneg (h.bottom b hbt) hb.le
      · simp
  rw [e, hB]
  generalize ((powerPart s.G s.G.cells[i].layer lc)[i - firstCell s.G s.G.cells[i].layer]?).getD 0 = P at hp ⊢
  have : σ * (t.tAmb * toAmbient s.G s.G.cells[i] + B + P - μ * toAmbient s.G s.G.cells[i]) =
      σ * (t.tAmb - μ) * toAmbient s.G s.G.cells[i] + σ * B + σ * P := by ring
  rw [this]
  linarith

theorem PhysicalNU.flps (h : PhysicalNU G) (fl : List (Option (List (FEl K)))) : PhysicalNU { G with flps := fl } := ⟨h.hts, h.cell, h.mat, h.htc, h.spr⟩

/-- A step that solves the system keeps the bound. -/
theorem bound_step {cfg : NCfg K π} {t : Sink K} {σ μ : K} {s : NSim K π} (h : Bnd cfg d0 rs ns t σ μ s) (hdt : 0 < cfg.an.stepTime)
    (htr : cfg.an.type = .transient) {x S : Nat → K} (hS : ∀ i (hi : i < s.G.cells.length), 0 ≤ σ * (S i - μ * toAmbient s.G s.G.cells[i]))
    (hsol : Solves s.G.cells.length s.mat.entry x fun i =>
      storage cfg.an.ana ((s.G.cells[i]?).elim 0 (capacityNU s.G.g s.G.d)) * s.temps.getD i 0 + S i) :
    ∀ i, i < s.G.cells.length → 0 ≤ σ * (x i - μ) := by
  have hat : cfg.an.ana.transient = true := by simp [Emu.Analysis.ana, htr]
  have hasm : Assembled id s.G cfg.an.ana s.mat := ⟨s.conns, h.valid.conns, h.valid.mat⟩
  refine solid_step h.valid.grid h.phys hasm hat hdt (b := fun i => σ * (storage cfg.an.ana ((s.G.cells[i]?).elim 0 (capacityNU s.G.g s.G.d)) * (s.temps.getD i 0 - μ) +
    (S i - μ * (s.G.cells[i]?).elim 0 (toAmbient s.G)))) ?_ ?_
  · intro i hi
    have e1 := hsol i hi
    have e2 := solid_row h.valid.grid h.phys hasm i hi
    simp only [List.getElem?_eq_getElem hi, Option.elim_some, solid_capacity h.valid.grid h.phys (List.getElem_mem hi)] at e1 ⊢
    have : ∑ j ∈ Finset.range s.G.cells.length, s.mat.entry i j * (σ * (x j - μ)) =
        σ * ((∑ j ∈ Finset.range s.G.cells.length, s.mat.entry i j * x j) - μ * ∑ j ∈ Finset.range s.G.cells.length, s.mat.entry i j) := by
      rw [mul_sub, Finset.mul_sum, Finset.mul_sum, Finset.mul_sum, ← Finset.sum_sub_distrib]
      refine Finset.sum_congr rfl fun j _ => ?_
      ring
    rw [this, e1, e2]
    ring
  · intro i hi
    simp only [List.getElem?_eq_getElem hi, Option.elim_some, solid_capacity h.valid.grid h.phys (List.getElem_mem hi)]
    have h1 : 0 < storage cfg.an.ana (heatCapacity s.G s.G.cells[i]) := by
      unfold storage; rw [hat]; simp only [if_true]
      exact div_pos (solid_cap h.valid.grid h.phys (List.getElem_mem hi)) hdt
    have h2 := h.temps i hi
    have h3 := hS i hi
    have : σ * (storage cfg.an.ana (heatCapacity s.G s.G.cells[i]) * (s.temps.getD i 0 - μ) + (S i - μ * toAmbient s.G s.G.cells[i])) =
        storage cfg.an.ana (heatCapacity s.G s.G.cells[i]) * (σ * (s.temps.getD i 0 - μ)) + σ * (S i - μ * toAmbient s.G s.G.cells[i]) := by ring
    rw [this]
    exact add_nonneg (mul_nonneg h1.le h2) h3

theorem bnd_exec {cfg : NCfg K π} {t : Sink K} {σ μ : K} {s : NSim K π} (h : Bnd cfg d0 rs ns t σ μ s) (hc : CorrectNU cfg) (hdt : 0 < cfg.an.stepTime)
    (o : NOp K) (ho : Allowed cfg (fun v => 0 ≤ σ * v) (fun x => 0 ≤ σ * (x - μ)) o) (hne : .solverError ∉ (exec cfg o s).1) :
    Bnd cfg d0 rs ns t σ μ (exec cfg o s).2 := by
  cases o with
  | step =>
    have hne' : (stepNU cfg s).1 ≠ .solverError := fun e => hne (by simp [exec, e])
    show Bnd cfg d0 rs ns t σ μ (stepNU cfg s).2
    obtain ⟨hv, ⟨fl, -, hG⟩, hcs⟩ := step_cases h.valid h.top hc hne'
    rcases hcs with ⟨-, e⟩ | ⟨-, hz, -, hT, htm, hel⟩ | ⟨htr, -, -, hel, hs1, hs2, hsol⟩
    · rw [e]; exact h
    · refine ⟨hv, ?_, ?_, ?_, h.amb, ?_, ?_, ?_, ?_⟩
      · rw [hG]; exact h.phys.flps fl
      · rw [hG]; exact h.full
      · rw [hG]; exact h.top
      · rw [hG]; exact h.bottom
      · rw [hG, hT]; exact h.temps
      · rw [hel]; exact popFront_prop h.powers
      · intro hm
        rw [htm] at hm
        exact absurd hz hm
    · have hS : ∀ i (hi : i < s.G.cells.length), 0 ≤ σ * ((stepNU cfg s).2.sources.getD i 0 - μ * toAmbient s.G s.G.cells[i]) := by
        by_cases hm : s.time % cfg.an.slotLength = 0
        · obtain ⟨fl', e⟩ := hs2 hm
          exact h.fresh e
        · rw [hs1 hm]; exact h.src hm
      refine ⟨hv, ?_, ?_, ?_, h.amb, ?_, ?_, ?_, ?_⟩
      · rw [hG]; exact h.phys.flps fl
      · rw [hG]; exact h.full
      · rw [hG]; exact h.top
      · rw [hG]; exact h.bottom
      · rw [hG]; exact bound_step h hdt htr hS hsol
      · rw [hel]
        split_ifs
        · exact popFront_prop h.powers
        · exact h.powers
      · intro _
        simp only [hG]
        exact hS
  | insert vs =>
    obtain ⟨fl, e1, e2, e3⟩ := insert_spec h.valid vs
    have hv := valid_exec h.valid (.insert vs)
    simp only [exec, e1] at hv ⊢
    refine ⟨hv, h.phys.flps fl, h.full, h.top, h.amb, h.bottom, h.temps, ?_, h.src⟩
    show ∀ e ∈ elsOf fl, _
    rw [e3]
    exact pushFront_prop h.powers ho
  | reset =>
    refine ⟨valid_exec h.valid .reset, h.phys, h.full, h.top, h.amb, h.bottom, ?_, h.powers, h.src⟩
    intro i hi
    have hi : i < s.G.cells.length := hi
    have hn : i < s.G.nCells := by
      have := (C54_cells_fit_arrays h.valid.grid).1
      exact this ▸ hi
    show 0 ≤ σ * ((List.replicate s.G.nCells cfg.an.initTemp).getD i 0 - μ)
    rw [List.getD_eq_getElem?_getD, List.getElem?_replicate_of_lt hn]
    exact ho

theorem bnd_run {cfg : NCfg K π} {t : Sink K} {σ μ : K} (hc : CorrectNU cfg) (hdt : 0 < cfg.an.stepTime) :
    ∀ (ops : List (NOp K)) (s : NSim K π), Bnd cfg d0 rs ns t σ μ s → (∀ o ∈ ops, Allowed cfg (fun v => 0 ≤ σ * v) (fun x => 0 ≤ σ * (x - μ)) o) →
      .solverError ∉ (run cfg ops s).1 → Bnd cfg d0 rs ns t σ μ (run cfg ops s).2
  | [], s, h, _, _ => h
  | o :: os, s, h, ho, hne => by
    rw [run] at hne ⊢
    simp only [List.mem_append, not_or] at hne
    exact bnd_run hc hdt os _ (bnd_exec h hc hdt o (ho o (by simp)) hne.1) (fun o h => ho o (by simp [h])) hne.2

/-! ## Theorems -/

/-- **C74 (lower bound)** Without coolant and with powers that are not negative, no cell of a non-uniform grid ever gets colder than the coldest of the
ambient over the top sink, the temperatures at the beginning of the slot and the initial temperature (if the state is reset), whatever is simulated,
inserted or reset and in whatever order the threads built the matrix. A bottom sink does not change this: it only adds heat (see C45). -/
theorem C74_never_below {cfg : NCfg K π} {s : NSim K π} (h : ReachableNU cfg d0 none rs ns s) (hb : cfg.an.slotLength ∣ s.time) (hc : CorrectNU cfg)
    (hdt : 0 < cfg.an.stepTime) (ph : PhysicalNU s.G) (hfull : Full s.G) {t : Sink K} (ht : s.G.g.top = some (.ambient t)) {μ : K} (hamb : μ ≤ t.tAmb)
    (hbot : ∀ b, s.G.g.bottom = some b → 0 ≤ b.tAmb) (hT : AtLeast s μ) (hpow : ∀ tr ∈ traces s, ∀ v ∈ tr, 0 ≤ v)
    (ops : List (NOp K)) (hq : ∀ o ∈ ops, Allowed cfg (0 ≤ ·) (μ ≤ ·) o) (hne : .solverError ∉ (run cfg ops s).1) : AtLeast (run cfg ops s).2 μ := by
  have h0 : Bnd cfg d0 rs ns t 1 μ s := by
    refine ⟨reachable_valid h, ph, hfull, ht, ?_, ?_, ?_, ?_, fun hn => absurd (Nat.dvd_iff_mod_eq_zero.mp hb) hn⟩
    · rw [one_mul]; exact sub_nonneg.mpr hamb
    · intro b e; rw [one_mul]; exact hbot b e
    · intro i hi; rw [one_mul]; exact sub_nonneg.mpr (hT i hi)
    · intro e he v hv; rw [one_mul]; exact hpow e.powers (List.mem_map.mpr ⟨e, he, rfl⟩) v hv
  have := bnd_run hc hdt ops s h0 (fun o ho => by
    have := hq o ho
    cases o with
    | step => trivial
    | insert vs => intro v hv; rw [one_mul]; exact this v hv
    | reset => show 0 ≤ 1 * (_ - μ); rw [one_mul]; exact sub_nonneg.mpr this) hne
  intro i hi
  have := this.temps i hi
  rw [one_mul] at this
  exact sub_nonneg.mp this

/-- **C74 (upper bound)** Without power, coolant and bottom sink, no cell ever gets hotter than the hottest of the ambient and the temperatures at the
beginning of the slot. (With a bottom sink this is false: C45.) -/
theorem C74_never_above {cfg : NCfg K π} {s : NSim K π} (h : ReachableNU cfg d0 none rs ns s) (hb : cfg.an.slotLength ∣ s.time) (hc : CorrectNU cfg)
    (hdt : 0 < cfg.an.stepTime) (ph : PhysicalNU s.G) (hfull : Full s.G) {t : Sink K} (ht : s.G.g.top = some (.ambient t)) {μ : K} (hamb : t.tAmb ≤ μ)
    (hbot : s.G.g.bottom = none) (hT : AtMost s μ) (hpow : ∀ tr ∈ traces s, ∀ v ∈ tr, v ≤ 0)
    (ops : List (NOp K)) (hq : ∀ o ∈ ops, Allowed cfg (· ≤ 0) (· ≤ μ) o) (hne : .solverError ∉ (run cfg ops s).1) : AtMost (run cfg ops s).2 μ := by
  have k : ∀ x : K, x ≤ μ → 0 ≤ -1 * (x - μ) := by intro x hx; linarith
  have h0 : Bnd cfg d0 rs ns t (-1) μ s := by
    refine ⟨reachable_valid h, ph, hfull, ht, k _ hamb, ?_, fun i hi => k _ (hT i hi), ?_, fun hn => absurd (Nat.dvd_iff_mod_eq_zero.mp hb) hn⟩
    · intro b e; rw [hbot] at e; cases e
    · intro e he v hv
      have := hpow e.powers (List.mem_map.mpr ⟨e, he, rfl⟩) v hv
      linarith
  have := bnd_run hc hdt ops s h0 (fun o ho => by
    have := hq o ho
    cases o with
    | step => trivial
    | insert vs => intro v hv; have := this v hv; linarith
    | reset => exact k _ this) hne
  intro i hi
  have := this.temps i hi
  linarith

end Verif.NU
