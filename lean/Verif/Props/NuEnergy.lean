import Verif.Props.NuSlots
import Verif.Props.NonUniformInlet
import Verif.Props.NonUniformUnique
import Verif.Props.Energy

/-! # C60: temperatures of the steps simulated on a non-uniform grid -/

set_option linter.unusedSectionVars false
set_option linter.unusedSimpArgs false
set_option linter.unusedVariables false

namespace Verif.NU
open Verif.Dim Verif.TG Verif.Stk Verif.SM
open Verif.Emu (SimResult Succeeded)

variable {K : Type} [Field K] [LinearOrder K] [IsStrictOrderedRing K] {π : Type}
variable {d0 : Dims K} {decl : Option (Channel K)} {rs : List (Raw K (List (FEl K)))} {ns : List (NElem K)} {G : Grid K}

/-! ## Specification -/

/-- A solver: the vector it returns has one entry per equation and solves the linear system. -/
def CorrectNU (cfg : NCfg K π) : Prop := ∀ A b x, cfg.solve A b = some x →
  x.length = b.length ∧ Solves b.length A.entry (fun i => x.getD i 0) (fun i => b.getD i 0)

/-- A solver that finds the solution of the systems that have exactly one. -/
def CompleteNU (cfg : NCfg K π) : Prop := ∀ A (b : List K), OneSolution b.length A.entry (fun i => b.getD i 0) → ∃ x, cfg.solve A b = some x

/-- States between the first step of a slot, made in `s0`, and the end of the slot: steps, insertions and resets may have followed. -/
inductive InSlot (cfg : NCfg K π) (s0 : NSim K π) : NSim K π → Prop
  | first : cfg.an.slotLength ∣ s0.time → Succeeded (stepNU cfg s0).1 → InSlot cfg s0 (stepNU cfg s0).2
  | step {s} : InSlot cfg s0 s → ¬ cfg.an.slotLength ∣ s.time → InSlot cfg s0 (stepNU cfg s).2
  | insert {s} (vs) : InSlot cfg s0 s → InSlot cfg s0 (insertSim s vs).1
  | reset {s} : InSlot cfg s0 s → InSlot cfg s0 (resetNU cfg s)

/-- The step made in `s` uses the power values that are next in `s0`: it is the first step of a slot, or one of the steps that follow. -/
def FedBy (cfg : NCfg K π) (s0 s : NSim K π) : Prop :=
  (cfg.an.slotLength ∣ s.time ∧ s = s0) ∨ (¬ cfg.an.slotLength ∣ s.time ∧ InSlot cfg s0 s)

/-! ## Proofs -/

theorem pluggable_ambient {cfg : NCfg K π} {s : NSim K π} {t : Sink K} (h : s.G.g.top = some (.ambient t)) : pluggableNU cfg s = (s, true) := by
  unfold pluggableNU
  rw [h]

theorem finish_temps {cfg : NCfg K π} {s : NSim K π} {t : Sink K} (h : s.G.g.top = some (.ambient t)) (hs : Succeeded (finishNU cfg s).1) :
    ∃ x, cfg.solve s.mat (vectorNU cfg s) = some x ∧ (finishNU cfg s).2.temps = x := by
  cases hx : cfg.solve s.mat (vectorNU cfg s) with
  | none =>
    obtain ⟨b, hb⟩ := finish_solver (pluggable_ambient h) hx
    rw [hb] at hs
    simp [Succeeded] at hs
  | some x => exact ⟨x, rfl, by rw [finish_ok (pluggable_ambient h) hx]⟩

theorem finish_sources {cfg : NCfg K π} {s : NSim K π} {t : Sink K} (h : s.G.g.top = some (.ambient t)) :
    (finishNU cfg s).2.sources = s.sources := by
  cases hx : cfg.solve s.mat (vectorNU cfg s) with
  | none =>
    obtain ⟨b, hb⟩ := finish_solver (pluggable_ambient h) hx
    rw [hb]
  | some x => rw [finish_ok (pluggable_ambient h) hx]

/-- The sources at the beginning of a slot. -/
theorem first_step {cfg : NCfg K π} {s : NSim K π} (h : Valid cfg d0 decl rs ns s) (hb : cfg.an.slotLength ∣ s.time)
    (hs : Succeeded (stepNU cfg s).1) :
    ∃ S fl, sourcesNU s.G.g s.G.d s.G.cells s.G.flps = some (S, fl) ∧
      stepNU cfg s = finishNU cfg { s with sources := S, G := { s.G with flps := fl } } := by
  have hm := Nat.dvd_iff_mod_eq_zero.mp hb
  obtain ⟨-, -, -, hc⟩ := step_spec (cfg := cfg) h
  rcases hc with ⟨h2, -⟩ | ⟨h2, -⟩ | ⟨ht, hp, -⟩
  · rw [h2] at hs; simp [Succeeded] at hs
  · rw [h2] at hs; simp [Succeeded] at hs
  · obtain ⟨S, fl, e1, e2, e3, e4⟩ := updateSources_spec h
    have hall := hp hm
    refine ⟨S, fl, e4 hall, ?_⟩
    have : ((elements s).all fun e => decide (e.powers ≠ [])) = true := by
      rw [List.all_eq_true]; intro e he; exact decide_eq_true (hall e he)
    rw [this] at e1
    simp [stepNU, ht, slotDoneNU, hm, e1]

theorem inner_step {cfg : NCfg K π} {s : NSim K π} (ht : cfg.an.type = .transient) (hb : ¬ cfg.an.slotLength ∣ s.time) :
    stepNU cfg s = finishNU cfg s := by
  have hm : s.time % cfg.an.slotLength ≠ 0 := fun h => hb (Nat.dvd_iff_mod_eq_zero.mpr h)
  simp [stepNU, ht, slotDoneNU, hm]

theorem inSlot_spec {cfg : NCfg K π} {s0 s : NSim K π} (h : Valid cfg d0 decl rs ns s0) {t : Sink K} (ht : s0.G.g.top = some (.ambient t))
    (hin : InSlot cfg s0 s) :
    Valid cfg d0 decl rs ns s ∧ (∃ fl, s.G = { s0.G with flps := fl }) ∧
      ∃ fl, sourcesNU s0.G.g s0.G.d s0.G.cells s0.G.flps = some (s.sources, fl) := by
  induction hin with
  | first hb hs =>
    obtain ⟨a1, -, ⟨fl, -, a3⟩, -⟩ := step_spec (cfg := cfg) h
    obtain ⟨S, fl', e1, e2⟩ := first_step h hb hs
    refine ⟨a1, ⟨fl, a3⟩, fl', ?_⟩
    have e3 := finish_sources (cfg := cfg) (s := { s0 with sources := S, G := { s0.G with flps := fl' } }) (t := t) ht
    rw [e2, e3]
    exact e1
  | @step s hin hb ih =>
    obtain ⟨i1, ⟨fl, i2⟩, fl', i3⟩ := ih
    obtain ⟨a1, -, ⟨fl2, -, a3⟩, hc⟩ := step_spec (cfg := cfg) i1
    refine ⟨a1, ⟨fl2, by rw [a3, i2]⟩, fl', ?_⟩
    by_cases htr : cfg.an.type = .transient
    · rw [inner_step htr hb, finish_sources (t := t) (by rw [i2]; exact ht)]
      exact i3
    · have : stepNU cfg s = (.wrongConfig, s) := by simp [stepNU, htr]
      rw [this]; exact i3
  | @insert s vs hin ih =>
    obtain ⟨i1, ⟨fl, i2⟩, fl', i3⟩ := ih
    obtain ⟨f, e1, e2, -⟩ := insert_spec i1 vs
    have := valid_exec i1 (.insert vs)
    simp only [exec] at this
    refine ⟨this, ⟨f, by rw [e1, i2]⟩, fl', ?_⟩
    rw [e1]; exact i3
  | @reset s hin ih =>
    obtain ⟨i1, ⟨fl, i2⟩, fl', i3⟩ := ih
    exact ⟨valid_exec i1 .reset, ⟨fl, i2⟩, fl', i3⟩

theorem InSlot.reachable {cfg : NCfg K π} {s0 s : NSim K π} (h : ReachableNU cfg d0 decl rs ns s0) (hin : InSlot cfg s0 s) :
    ReachableNU cfg d0 decl rs ns s := by
  induction hin with
  | first hb hs => exact h.exec .step
  | step hin hb ih => exact ih.exec .step
  | insert vs hin ih => exact ih.exec (.insert vs)
  | reset hin ih => exact ih.exec .reset

/-- The capacities in the array are those of the cells. -/
theorem caps_ambient (hf : FromStack d0 decl rs ns G) {t : Sink K} (ht : G.g.top = some (.ambient t)) :
    capsNU G = G.cells.map fun c => capacityNU G.g G.d c := by
  unfold capsNU
  rw [ht]
  simp only [List.append_nil]
  congr 1
  have key : ∀ cs : List (Cell K), (∀ c ∈ cs, c.layer < G.d.nLayers) → cs.takeWhile (fun c => decide (c.layer < G.d.nLayers)) = cs := by
    intro cs
    induction cs with
    | nil => intro _; rfl
    | cons c cs ih =>
      intro h
      rw [List.takeWhile_cons, if_pos (decide_eq_true (h c (by simp))), ih fun x hx => h x (by simp [hx])]
  exact key _ fun c hc => below_top hf ht hc

/-- The linear system behind a step. -/
theorem step_system {cfg : NCfg K π} {s0 s : NSim K π} (h : Valid cfg d0 decl rs ns s0) {t : Sink K} (ht : s0.G.g.top = some (.ambient t))
    (hfed : FedBy cfg s0 s) (hs : Succeeded (stepNU cfg s).1) (hc : CorrectNU cfg) :
    ∃ S fl, sourcesNU s0.G.g s0.G.d s0.G.cells s0.G.flps = some (S, fl) ∧ Assembled id s0.G cfg.an.ana s.mat ∧
      (stepNU cfg s).2.temps.length = s0.G.cells.length ∧
      Solves s0.G.cells.length s.mat.entry (fun i => (stepNU cfg s).2.temps.getD i 0) fun i =>
        storage cfg.an.ana ((s0.G.cells[i]?).elim 0 (capacityNU s0.G.g s0.G.d)) * s.temps.getD i 0 + S.getD i 0 := by
  have key : ∀ (s1 : NSim K π) (S : List K), (∃ fl, s1.G = { s0.G with flps := fl }) → Valid cfg d0 decl rs ns s1 → s1.sources = S →
      cfg.an.type = .transient → Succeeded (finishNU cfg s1).1 →
      Assembled id s0.G cfg.an.ana s1.mat ∧ (finishNU cfg s1).2.temps.length = s0.G.cells.length ∧
      Solves s0.G.cells.length s1.mat.entry (fun i => (finishNU cfg s1).2.temps.getD i 0) fun i =>
        storage cfg.an.ana ((s0.G.cells[i]?).elim 0 (capacityNU s0.G.g s0.G.d)) * s1.temps.getD i 0 + S.getD i 0 := by
    rintro s1 S ⟨fl, hG⟩ hv hS htr hs
    obtain ⟨x, hx, hT⟩ := finish_temps (t := t) (by rw [hG]; exact ht) hs
    obtain ⟨hl, hsol⟩ := hc _ _ _ hx
    have hlen : (vectorNU cfg s1).length = s0.G.cells.length := by
      unfold vectorNU; rw [List.length_map, List.length_range, hG]; rfl
    rw [hlen] at hl hsol
    have hm := hv.mat
    have hr := hv.conns
    rw [hG] at hm hr
    refine ⟨⟨s1.conns, hr, hm⟩, by rw [hT, hl], ?_⟩
    rw [hT]
    intro i hi
    rw [hsol i hi]
    have hcap : s1.caps.getD i 0 = (s0.G.cells[i]?).elim 0 (capacityNU s0.G.g s0.G.d) := by
      have hf := hv.grid
      rw [hv.caps, caps_ambient hf (t := t) (by rw [hG]; exact ht), hG, List.getD_eq_getElem?_getD, List.getElem?_map]
      show (Option.map _ s0.G.cells[i]?).getD 0 = _
      cases s0.G.cells[i]? <;> rfl
    have hvec : (vectorNU cfg s1).getD i 0 = s1.sources.getD i 0 + (s1.caps.getD i 0 / cfg.an.stepTime) * s1.temps.getD i 0 := by
      have hi' : i < s1.G.ls.flatten.length := by rw [hG]; exact hi
      unfold vectorNU
      rw [List.getD_eq_getElem?_getD, List.getElem?_map, List.getElem?_range hi']; rfl
    have hat : cfg.an.ana.transient = true := by simp [Emu.Analysis.ana, htr]
    have hst : (cfg.an.ana : Ana K).stepTime = cfg.an.stepTime := rfl
    beta_reduce
    rw [hvec, hcap, hS, Emu.storage_transient hat, hst, add_comm]
  have htr : cfg.an.type = .transient := by
    by_contra hh
    have : stepNU cfg s = (.wrongConfig, s) := by simp [stepNU, hh]
    rw [this] at hs; simp [Succeeded] at hs
  rcases hfed with ⟨hb, rfl⟩ | ⟨hb, hin⟩
  · obtain ⟨S, fl, e1, e2⟩ := first_step h hb hs
    rw [e2] at hs ⊢
    refine ⟨S, fl, e1, ?_⟩
    obtain ⟨S', fl', u1, u2, u3, u4⟩ := updateSources_spec h
    have hall : ∀ e ∈ elements s, e.powers ≠ [] := by
      obtain ⟨-, -, -, hc⟩ := step_spec (cfg := cfg) h
      rw [e2] at hc
      rcases hc with ⟨h2, -⟩ | ⟨h2, -⟩ | ⟨-, hp, -⟩
      · rw [h2] at hs; simp [Succeeded] at hs
      · rw [h2] at hs; simp [Succeeded] at hs
      · exact hp (Nat.dvd_iff_mod_eq_zero.mp hb)
    have hfl : bare fl = bare s.G.flps := by
      have := u4 hall
      rw [e1] at this
      simp only [Option.some.injEq, Prod.mk.injEq] at this
      rw [this.2]; exact u2
    exact key { s with sources := S, G := { s.G with flps := fl } } S ⟨fl, rfl⟩ (valid_congr h hfl rfl rfl rfl rfl h.time) rfl htr hs
  · obtain ⟨i1, i2, fl, i3⟩ := inSlot_spec h ht hin
    rw [inner_step htr hb] at hs ⊢
    exact ⟨_, fl, i3, key s _ i2 i1 rfl htr hs⟩

/-! ## Theorems -/

/-- **C60 (heat balance)** In each successful step the heat stored by the cells is the power of the slot, plus what is exchanged with the ambient,
plus what the coolant carries from the inlet to the outlet. The power of the slot is the sum of the values that were next when the
slot began, whatever has been inserted or reset since. -/
theorem C60_heat_balance {cfg : NCfg K π} {s0 s : NSim K π} (h : ReachableNU cfg d0 decl rs ns s0) {t : Sink K}
    (ht : s0.G.g.top = some (.ambient t)) (fit : ChipFits s0.G.d) (ph : PhysicalNU s0.G) (hsh : Sharp s0.G) (hodd : OddColumns s0.G)
    (hfull : Full s0.G) (hd : ∀ e ∈ elements s0, e.dx * e.dy ≠ 0) {C : Nat → K} (hC : ∀ i, IsCapacity s0.G ns i (C i))
    (hfed : FedBy cfg s0 s) (hs : Succeeded (stepNU cfg s).1) (hc : CorrectNU cfg) {T T' : Nat → K}
    (hT : ∀ i, T i = s.temps.getD i 0) (hT' : ∀ i, T' i = (stepNU cfg s).2.temps.getD i 0) :
    ∑ i ∈ Finset.range s0.G.cells.length, C i / cfg.an.stepTime * (T' i - T i) =
      ((elements s0).map nextPower).sum +
      ((s0.G.cells.map (fromSinks s0.G)).sum - ∑ i ∈ Finset.range s0.G.cells.length, (s0.G.cells[i]?).elim 0 (toAmbient s0.G) * T' i) +
      overColumns s0.G ns fun n ch c => stream ch s0.G.d c * (ch.coolant.tIn - T' (s0.G.at (coolantLayer n.elem ch) (s0.G.d.nRows - 1) c)) := by
  have hv := reachable_valid h
  have htr : cfg.an.type = .transient := by
    by_contra hh
    have : stepNU cfg s = (.wrongConfig, s) := by simp [stepNU, hh]
    rw [this] at hs; simp [Succeeded] at hs
  have hat : cfg.an.ana.transient = true := by simp [Emu.Analysis.ana, htr]
  have hst : ∀ x : K, storage cfg.an.ana x = x / cfg.an.stepTime := fun x => Emu.storage_transient hat x
  obtain ⟨S, fl, e1, e2, -, e3⟩ := step_system hv ht hfed hs hc
  have hcap : ∀ i, i < s0.G.cells.length → (s0.G.cells[i]?).elim 0 (capacityNU s0.G.g s0.G.d) = C i := by
    intro i hi
    have h1 := C59_capacities hv.grid fit ph hsh i _ (List.getElem?_eq_getElem hi)
    rw [List.getElem?_eq_getElem hi]
    simp only [Option.elim_some]
    have h1' := h1 _ (List.getElem?_eq_getElem hi)
    have h2' := hC i _ (List.getElem?_eq_getElem hi)
    by_cases hin : InChannel ns s0.G.cells[i]
    · obtain ⟨n, hn, ch, hb, b1, b2⟩ := hin
      have hk : s0.G.cells[i].layer - n.elem.offset < chLayers ch := by omega
      obtain ⟨r, c, hr, hc, ei⟩ := chan_of_layer hv.grid hn hb hk hi (by omega)
      rw [h1'.2 n hn ch hb _ r c hk hr hc ei, h2'.2 n hn ch hb _ r c hk hr hc ei]
    · rw [h1'.1 hin, h2'.1 hin]
  have hbal := C59_heat_balance hv.grid fit ph hsh hodd hfull e2 (T := T) (T' := T')
    (fun l es hl e he => hd e (List.mem_flatMap.mpr ⟨some es, List.mem_of_getElem? hl, he⟩)) hC e1 (by
      intro i hi
      have := e3 i hi
      simp only [hcap i hi] at this
      simp only [hT, hT']
      exact this)
  have hpow : totalPower s0.G = ((elements s0).map nextPower).sum := by
    unfold totalPower elements
    generalize s0.G.flps = fl
    induction fl with
    | nil => rfl
    | cons o fl ih => rw [List.map_cons, List.sum_cons, List.flatMap_cons, List.map_append, List.sum_append, ← ih]; cases o <;> rfl
  simp only [hst, hpow] at hbal
  exact hbal

/-- **C60 (equilibrium)** No power in the slot, the ambient at the temperature of the inlet, no heat sink at the bottom: a step made when all
the cells have that temperature leaves it as it is. -/
theorem C60_equilibrium_partial {cfg : NCfg K π} {s0 s : NSim K π} (h : ReachableNU cfg d0 decl rs ns s0) {t : Sink K}
    (ht : s0.G.g.top = some (.ambient t)) (fit : ChipFits s0.G.d) (ph : PhysicalNU s0.G) (hsh : Sharp s0.G) (hodd : OddColumns s0.G)
    (hfull : Full s0.G) (hpos : ∀ ch, s0.G.g.channel = some ch → PosChannel ch) (ha : 0 < cfg.an.stepTime)
    (hno : ∀ e ∈ elements s0, nextPower e = 0) (hbot : s0.G.g.bottom = none)
    (hin : ∀ ch, s0.G.g.channel = some ch → ch.coolant.tIn = t.tAmb) (hfed : FedBy cfg s0 s) (hs : Succeeded (stepNU cfg s).1)
    (hc : CorrectNU cfg) (hT : ∀ i, i < s0.G.cells.length → s.temps.getD i 0 = t.tAmb) :
    ∀ i, i < s0.G.cells.length → (stepNU cfg s).2.temps.getD i 0 = t.tAmb := by
  have hv := reachable_valid h
  have htr : cfg.an.type = .transient := by
    by_contra hh
    have : stepNU cfg s = (.wrongConfig, s) := by simp [stepNU, hh]
    rw [this] at hs; simp [Succeeded] at hs
  have hat : cfg.an.ana.transient = true := by simp [Emu.Analysis.ana, htr]
  obtain ⟨S, fl, e1, e2, -, e3⟩ := step_system hv ht hfed hs hc
  have hone := fun b => C62_step_unique hv.grid fit ph hsh hpos e2 hat ha b
  have hnp : NoPower s0.G := fun l es hl e he => hno e (List.mem_flatMap.mpr ⟨some es, List.mem_of_getElem? hl, he⟩)
  have heq := C59_equilibrium_partial hv.grid fit ph hsh hodd hfull e2 hnp
    (C := fun i => (s0.G.cells[i]?).elim 0 (capacityNU s0.G.g s0.G.d)) (fun i => by
      cases hcc : s0.G.cells[i]? with
      | none => intro cell h'; rw [hcc] at h'; cases h'
      | some c => exact C59_capacities hv.grid fit ph hsh i c hcc)
    (T := t.tAmb) (fun s' hs' => by rw [ht] at hs'; simp only [Option.some.injEq, TopSink.ambient.injEq] at hs'; rw [hs']) hbot hin e1
  have e3' : Solves s0.G.cells.length s.mat.entry (fun i => (stepNU cfg s).2.temps.getD i 0)
      fun i => storage cfg.an.ana ((s0.G.cells[i]?).elim 0 (capacityNU s0.G.g s0.G.d)) * t.tAmb + S.getD i 0 := by
    intro i hi
    have := e3 i hi
    simp only [hT i hi] at this
    exact this
  obtain ⟨x, -, hx⟩ := hone fun i => storage cfg.an.ana ((s0.G.cells[i]?).elim 0 (capacityNU s0.G.g s0.G.d)) * t.tAmb + S.getD i 0
  intro i hi
  have a := hx _ e3' i hi
  have b := hx _ heq i hi
  exact a.trans b.symm

/-- **C62** On every reachable state with power values left, and a solver that finds unique solutions, a step does not fail: the system
that it has to solve has exactly one solution. -/
theorem C62_steps_succeed {cfg : NCfg K π} {s : NSim K π} (h : ReachableNU cfg d0 decl rs ns s) {t : Sink K}
    (ht : s.G.g.top = some (.ambient t)) (fit : ChipFits s.G.d) (ph : PhysicalNU s.G) (hsh : Sharp s.G)
    (hpos : ∀ ch, s.G.g.channel = some ch → PosChannel ch) (htr : cfg.an.type = .transient) (ha : 0 < cfg.an.stepTime) (hc : CompleteNU cfg)
    (hp : cfg.an.slotLength ∣ s.time → ∀ e ∈ elements s, e.powers ≠ []) : Succeeded (stepNU cfg s).1 := by
  have hv := reachable_valid h
  have hat : cfg.an.ana.transient = true := by simp [Emu.Analysis.ana, htr]
  have hfin : ∀ s1 : NSim K π, (∃ fl, s1.G = { s.G with flps := fl }) → Valid cfg d0 decl rs ns s1 → Succeeded (finishNU cfg s1).1 := by
    rintro s1 ⟨fl, hG⟩ hv1
    have hlen : (vectorNU cfg s1).length = s1.G.cells.length := by
      unfold vectorNU; rw [List.length_map, List.length_range]; rfl
    obtain ⟨x, hx⟩ := hc s1.mat (vectorNU cfg s1) (by
      rw [hlen]
      exact C62_step_unique hv1.grid (by rw [hG]; exact fit) (by rw [hG]; exact ⟨ph.hts, ph.cell, ph.mat, ph.htc, ph.spr⟩) (by rw [hG]; exact hsh)
        (by rw [hG]; exact hpos) ⟨s1.conns, hv1.conns, hv1.mat⟩ hat ha _)
    rw [finish_ok (pluggable_ambient (t := t) (by rw [hG]; exact ht)) hx]
    simp only
    generalize slotDoneNU _ _ = b
    cases b
    · exact Or.inl rfl
    · exact Or.inr rfl
  by_cases hb : cfg.an.slotLength ∣ s.time
  · obtain ⟨S, fl, e1, e2, e3, e4⟩ := updateSources_spec hv
    have : ((elements s).all fun e => decide (e.powers ≠ [])) = true := by
      rw [List.all_eq_true]; intro e he; exact decide_eq_true (hp hb e he)
    rw [this] at e1
    have hm := Nat.dvd_iff_mod_eq_zero.mp hb
    have e5 : stepNU cfg s = finishNU cfg { s with sources := S, G := { s.G with flps := fl } } := by
      simp [stepNU, htr, slotDoneNU, hm, e1]
    rw [e5]
    exact hfin _ ⟨fl, rfl⟩ (valid_congr hv e2 rfl rfl rfl rfl hv.time)
  · rw [inner_step htr hb]
    exact hfin s ⟨s.G.flps, rfl⟩ hv

/-! ## Steady state -/

theorem steady_eq {cfg : NCfg K π} {s : NSim K π} (hv : Valid cfg d0 decl rs ns s) {t : Sink K} (ht : s.G.g.top = some (.ambient t))
    (hty : cfg.an.type = .steady) (hp : ∀ e ∈ elements s, e.powers ≠ []) :
    ∃ S fl, sourcesNU s.G.g s.G.d s.G.cells s.G.flps = some (S, fl) ∧
      steadyNU cfg s = match cfg.solve s.mat ((List.range s.G.ls.flatten.length).map fun i => S.getD i 0) with
        | Option.none => (.solverError, { s with sources := S, G := { s.G with flps := fl }, temps := (List.range s.G.ls.flatten.length).map fun i => S.getD i 0 })
        | some x => (.endOfSimulation, { s with sources := S, G := { s.G with flps := fl }, temps := x }) := by
  obtain ⟨S, fl, e1, e2, e3, e4⟩ := updateSources_spec hv
  have hall : ((elements s).all fun e => decide (e.powers ≠ [])) = true := by
    rw [List.all_eq_true]; intro e he; exact decide_eq_true (hp e he)
  rw [hall] at e1
  refine ⟨S, fl, e4 hp, ?_⟩
  unfold steadyNU
  rw [if_neg (by simp [hty]), ht]
  simp only [e1, if_true]
  cases cfg.solve s.mat ((List.range s.G.ls.flatten.length).map fun i => S.getD i 0) <;> rfl

/-- **C60 (steady state)** When `emulate_steady` finds the temperatures, they are those for which the power of the next values, the exchange
with the ambient and what the coolant carries away are in balance. -/
theorem C60_steady {cfg : NCfg K π} {s : NSim K π} (h : ReachableNU cfg d0 decl rs ns s) {t : Sink K}
    (ht : s.G.g.top = some (.ambient t)) (hty : cfg.an.type = .steady) (hp : ∀ e ∈ elements s, e.powers ≠ [])
    (hs : (steadyNU cfg s).1 = .endOfSimulation) (hc : CorrectNU cfg) :
    (∃ S fl, sourcesNU s.G.g s.G.d s.G.cells s.G.flps = some (S, fl) ∧ (steadyNU cfg s).2.temps.length = s.G.cells.length ∧
      Solves s.G.cells.length s.mat.entry (fun i => (steadyNU cfg s).2.temps.getD i 0) fun i => S.getD i 0) ∧
    (∀ (fit : ChipFits s.G.d) (ph : PhysicalNU s.G) (hsh : Sharp s.G) (hodd : OddColumns s.G) (hfull : Full s.G)
      (hd : ∀ e ∈ elements s, e.dx * e.dy ≠ 0) (T : Nat → K) (hT : ∀ i, T i = (steadyNU cfg s).2.temps.getD i 0),
      ((elements s).map nextPower).sum +
      ((s.G.cells.map (fromSinks s.G)).sum - ∑ i ∈ Finset.range s.G.cells.length, (s.G.cells[i]?).elim 0 (toAmbient s.G) * T i) +
      overColumns s.G ns (fun n ch c => stream ch s.G.d c * (ch.coolant.tIn - T (s.G.at (coolantLayer n.elem ch) (s.G.d.nRows - 1) c))) = 0) := by
  have hv := reachable_valid h
  have hat : cfg.an.ana.transient = false := by simp [Emu.Analysis.ana, hty]
  have hst : ∀ x : K, storage cfg.an.ana x = 0 := fun x => by unfold storage; rw [hat]; rfl
  obtain ⟨S, fl, e4, hE⟩ := steady_eq hv ht hty hp
  have main : (steadyNU cfg s).2.temps.length = s.G.cells.length ∧
      Solves s.G.cells.length s.mat.entry (fun i => (steadyNU cfg s).2.temps.getD i 0) fun i => S.getD i 0 := by
    have hlen : ((List.range s.G.ls.flatten.length).map fun i => S.getD i 0).length = s.G.cells.length := by
      rw [List.length_map, List.length_range]; rfl
    rw [hE] at hs ⊢
    cases hx : cfg.solve s.mat ((List.range s.G.ls.flatten.length).map fun i => S.getD i 0) with
    | none => rw [hx] at hs; simp at hs
    | some x =>
      obtain ⟨x1, x2⟩ := hc _ _ _ hx
      rw [hlen] at x1 x2
      refine ⟨x1, ?_⟩
      intro i hi
      have := x2 i hi
      refine this.trans ?_
      beta_reduce
      rw [List.getD_eq_getElem?_getD, List.getElem?_map, List.getElem?_range (show i < s.G.ls.flatten.length from hi)]; rfl
  refine ⟨⟨S, fl, e4, main⟩, ?_⟩
  intro fit ph hsh hodd hfull hd T hT
  have hbal := C59_heat_balance hv.grid fit ph hsh hodd hfull ⟨s.conns, hv.conns, hv.mat⟩ (T := T) (T' := T)
    (fun l es hl e he => hd e (List.mem_flatMap.mpr ⟨some es, List.mem_of_getElem? hl, he⟩))
    (C := fun i => (s.G.cells[i]?).elim 0 (capacityNU s.G.g s.G.d)) (fun i => by
      cases hcc : s.G.cells[i]? with
      | none => intro cell h'; rw [hcc] at h'; cases h'
      | some c => exact C59_capacities hv.grid fit ph hsh i c hcc) e4 (by
      intro i hi
      have := main.2 i hi
      simp only [hst, zero_mul, zero_add, hT]
      exact this)
  have hpow : totalPower s.G = ((elements s).map nextPower).sum := by
    unfold totalPower elements
    generalize s.G.flps = fl
    induction fl with
    | nil => rfl
    | cons o fl ih => rw [List.map_cons, List.sum_cons, List.flatMap_cons, List.map_append, List.sum_append, ← ih]; cases o <;> rfl
  simp only [hst, zero_mul, Finset.sum_const_zero, hpow] at hbal
  exact hbal.symm

end Verif.NU
