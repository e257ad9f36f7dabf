import Verif.Lemmas.Solid
import Verif.Props.Equilibrium

/-! # C25: maximum principle and monotonicity of stacks without coolant -/

set_option linter.unusedSectionVars false
set_option linter.unusedSimpArgs false
set_option linter.unusedVariables false

namespace Verif.Emu
open Verif.Dim Verif.TG Verif.SM Verif.Flp Verif.Stk

variable {K : Type} [Field K] [LinearOrder K] [IsStrictOrderedRing K] {π : Type}

/-! ### Specification -/

/-- A stack without coolant and without a pluggable heat sink (whose behaviour is that of external code). -/
structure Solid (g : TGrid K) : Prop where
  noCoolant : g.channel = none
  noPlugin : ∀ sp m, g.top ≠ some (.pluggable sp m)

/-- Every cell has at least temperature `m`. -/
def AtLeast (d : Dims K) (s : Sim K π) (m : K) : Prop := ∀ i, i < d.nCells → m ≤ s.temps.getD i 0
/-- Every cell has at most temperature `m`. -/
def AtMost (d : Dims K) (s : Sim K π) (m : K) : Prop := ∀ i, i < d.nCells → s.temps.getD i 0 ≤ m

/-- Steps, insertions of powers that satisfy `P`, and resets to a temperature that satisfies `Q`. -/
def Allowed (cfg : Cfg K π) (P Q : K → Prop) : Op K → Prop
  | .step => True
  | .insert vs => ∀ v ∈ vs, P v
  | .reset => Q cfg.an.initTemp
  | .flow _ => False

/-- The same stack with other ambient temperatures. -/
def withAmb (g : TGrid K) (a b : K) : TGrid K :=
  { g with
    top := match g.top with
      | some (.ambient s) => some (.ambient { s with tAmb := a })
      | t => t
    bottom := g.bottom.map fun s => { s with tAmb := b } }

/-- The same calls with higher powers. -/
inductive OpLe : Op K → Op K → Prop
  | step : OpLe .step .step
  | insert {vs vs' : List K} : List.Forall₂ (· ≤ ·) vs vs' → OpLe (.insert vs) (.insert vs')
  | reset : OpLe .reset .reset

/-! ### Bounds -/

structure Bnd (cfg : Cfg K π) (raws : Nat → List (RawEl K)) (σ m : K) (s : Sim K π) : Prop where
  good : Good cfg s
  read : ReadFrom cfg.d raws s
  phys : Physical s.g cfg.d
  solid : Solid s.g
  temps : ∀ i, i < cfg.d.nCells → 0 ≤ σ * (s.temps.getD i 0 - m)
  top : ∀ sk, s.g.top = some (.ambient sk) → 0 ≤ σ * (sk.tAmb - m)
  bottom : ∀ sk, s.g.bottom = some sk → 0 ≤ σ * (sk.tAmb - m)
  powers : Powers (fun v => 0 ≤ σ * v) s
  src : s.time % cfg.an.slotLength ≠ 0 → ∀ l r c, l < cfg.d.nLayers → r < cfg.d.nRows → c < cfg.d.nCols →
    0 ≤ σ * (sourceAt cfg.d s l r c - sinkTerm s.g cfg.d l r c)

theorem solid_no_spreader {g : TGrid K} (h : Solid g) : spreaderOf g = none := by
  unfold spreaderOf
  cases ht : g.top with
  | none => rfl
  | some t => cases t with
    | ambient s => rfl
    | pluggable sp m => exact absurd ht (h.noPlugin sp m)

theorem sink_sign {g : TGrid K} {d : Dims K} (wf : WF g d) (hp : Physical g d) {σ m : K}
    (ht : ∀ sk, g.top = some (.ambient sk) → 0 ≤ σ * (sk.tAmb - m)) (hb : ∀ sk, g.bottom = some sk → 0 ≤ σ * (sk.tAmb - m))
    {l r c : Nat} (hl : l < d.nLayers) (hr : r < d.nRows) (hc : c < d.nCols) :
    0 ≤ σ * (sinkTerm g d l r c - ambientTerm g d l r c * m) := by
  have h0 := amb_nonneg wf hp hl hr hc
  have e1 : (typeAt g l = .solidAmb ∨ typeAt g l = .sourceAmb) → 0 ≤ σ * (topAmb g - m) := by
    intro h0; obtain ⟨-, sk, e⟩ := wf.amb l hl h0; simp only [topAmb, e]; exact ht sk e
  have e2 : (typeAt g l = .solidPcb ∨ typeAt g l = .sourcePcb) → 0 ≤ σ * (botAmb g - m) := by
    intro h0; obtain ⟨-, sk, e⟩ := wf.pcb l hl h0; simp only [botAmb, e]; exact hb sk e
  have key : ∀ x y : K, 0 ≤ x → 0 ≤ σ * (y - m) → 0 ≤ σ * (y * x - x * m) := by
    intro x y hx hy
    have := mul_nonneg hx hy
    have e : σ * (y * x - x * m) = x * (σ * (y - m)) := by ring
    rw [e]; exact this
  unfold sinkTerm
  unfold ambientTerm at h0 ⊢
  revert e1 e2 h0
  cases typeAt g l <;> intro h0 e1 e2 <;> first
    | exact key _ _ h0 (e1 (Or.inl rfl))
    | exact key _ _ h0 (e1 (Or.inr rfl))
    | exact key _ _ h0 (e2 (Or.inl rfl))
    | exact key _ _ h0 (e2 (Or.inr rfl))
    | simp only [zero_mul, sub_zero, mul_zero, le_refl]

/-- Sources of a successful step, at a slot boundary or not. -/
theorem bnd_sources {cfg : Cfg K π} {raws : Nat → List (RawEl K)} {σ m : K} {s : Sim K π} (h : Bnd cfg raws σ m s)
    (hs : Succeeded (emulateStep cfg s).1) {l r c : Nat} (hl : l < cfg.d.nLayers) (hr : r < cfg.d.nRows) (hc : c < cfg.d.nCols) :
    0 ≤ σ * ((emulateStep cfg s).2.sources.getD (offInStack cfg.d l r c) 0 - sinkTerm s.g cfg.d l r c) := by
  rw [step_sources h.good hs (wf_off h.good.wf hl hr hc).2.2.2]
  by_cases hb : s.time % cfg.an.slotLength = 0
  · rw [if_pos hb, slot_at h.good h.read hl hr hc]
    have hi : inletTerm s.g cfg.d l r c = 0 := by
      unfold inletTerm; rw [if_neg (fun hx => no_coolant h.good.wf h.phys h.solid.noCoolant hl hx.2)]
    rw [hi, add_zero, add_sub_cancel_right]
    exact powerIn_sign σ (h.read.inGrid l hl) (powers_next (P := fun v : K => 0 ≤ σ * v) (by simp) h.powers l) r c
  · rw [if_neg hb]; exact h.src hb l r c hl hr hc

theorem no_spr {cfg : Cfg K π} {s : Sim K π} (h : Solid s.g) {r c : Nat} : ¬ Valid s.g cfg.d (.spr r c) := by
  rintro ⟨sp, m, ht, -, -⟩
  exact h.noPlugin sp m ht

theorem bnd_success {cfg : Cfg K π} {raws : Nat → List (RawEl K)} {σ m : K} {s : Sim K π} (h : Bnd cfg raws σ m s) (hc : Correct cfg)
    (hdt : 0 < cfg.an.stepTime) (hs : Succeeded (emulateStep cfg s).1) : Bnd cfg raws σ m (emulateStep cfg s).2 := by
  obtain ⟨ht, -, heq, -⟩ := step_eq h.good hc hs
  have hgr : (emulateStep cfg s).2.g = s.g := (step_spec (cfg := cfg) h.good.ready).2.1
  have hgood := good_step h.good
  have hread := readFrom_step (cfg := cfg) h.read
  have hpow := powers_step h.good h.powers
  have hsrc := fun l r c hl hr hc => bnd_sources (l := l) (r := r) (c := c) h hs hl hr hc
  generalize (emulateStep cfg s).2 = s' at *
  have hat : cfg.an.ana.transient = true := by simp [Analysis.ana, ht]
  refine ⟨hgood, hread, by rw [hgr]; exact h.phys, by rw [hgr]; exact h.solid, ?_, by rw [hgr]; exact h.top, by rw [hgr]; exact h.bottom, hpow, ?_⟩
  · refine solid_nonneg (x := fun i => σ * (s'.temps.getD i 0 - m)) h.good.wf h.phys h.solid.noCoolant (a := cfg.an.ana) hat hdt fun i hi => ?_
    have e := heq i hi
    simp only at e
    have e1 : ∑ j ∈ Finset.range cfg.d.nCells, (fillMatrix s.g cfg.an.ana cfg.d).entry i j * (σ * (s'.temps.getD j 0 - m)) =
        σ * ((∑ j ∈ Finset.range cfg.d.nCells, (fillMatrix s.g cfg.an.ana cfg.d).entry i j * s'.temps.getD j 0) -
          (∑ j ∈ Finset.range cfg.d.nCells, (fillMatrix s.g cfg.an.ana cfg.d).entry i j) * m) := by
      rw [Finset.sum_mul, ← Finset.sum_sub_distrib, Finset.mul_sum]
      exact Finset.sum_congr rfl fun j _ => by ring
    rw [e1, e]
    obtain ⟨p, hv, rfl⟩ := exists_cell h.good.wf hi
    rw [row_sum h.good.wf h.phys _ hv]
    cases p with
    | spr r c => exact absurd hv (no_spr h.solid)
    | box l r c =>
      have cg := caps_getD h.good.wf hv
      have cn := cap_nonneg h.good.wf h.phys hi
      rw [h.good.caps]
      rw [cg] at cn ⊢
      have ht0 := h.temps _ hi
      rw [box_offset] at hi ht0 ⊢
      have hst : cfg.an.ana.stepTime = cfg.an.stepTime := rfl
      rw [storage_transient hat, hst]
      have hin : inletG s.g cfg.d l r c = 0 := by
        unfold inletG; rw [if_neg (fun hx => no_coolant h.good.wf h.phys h.solid.noCoolant hv.1 hx.1)]
      simp only [hin, add_zero]
      have k1 := hsrc l r c hv.1 hv.2.1 hv.2.2
      have k2 := sink_sign h.good.wf h.phys h.top h.bottom hv.1 hv.2.1 hv.2.2
      have k3 := mul_nonneg (div_nonneg cn hdt.le) ht0
      have : σ * (s'.sources.getD (offInStack cfg.d l r c) 0 + capOf s.g cfg.d (.box l r c) / cfg.an.stepTime * s.temps.getD (offInStack cfg.d l r c) 0 -
          (capOf s.g cfg.d (.box l r c) / cfg.an.stepTime + ambientTerm s.g cfg.d l r c) * m) =
          σ * (s'.sources.getD (offInStack cfg.d l r c) 0 - sinkTerm s.g cfg.d l r c) +
          σ * (sinkTerm s.g cfg.d l r c - ambientTerm s.g cfg.d l r c * m) +
          capOf s.g cfg.d (.box l r c) / cfg.an.stepTime * (σ * (s.temps.getD (offInStack cfg.d l r c) 0 - m)) := by ring
      rw [this]
      exact add_nonneg (add_nonneg k1 k2) k3
  · intro _ l r c hl hr hc
    unfold sourceAt
    rw [hgr]
    exact hsrc l r c hl hr hc

theorem bnd_exec {cfg : Cfg K π} {raws : Nat → List (RawEl K)} {σ m : K} {s : Sim K π} (h : Bnd cfg raws σ m s) (hc : Correct cfg)
    (hdt : 0 < cfg.an.stepTime) (o : Op K) (hq : Allowed cfg (fun v => 0 ≤ σ * v) (fun t => 0 ≤ σ * (t - m)) o)
    (hne : .solverError ∉ (exec cfg o s).1) : Bnd cfg raws σ m (exec cfg o s).2 := by
  cases o with
  | step =>
    simp only [exec] at hne ⊢
    by_cases hs : Succeeded (emulateStep cfg s).1
    · exact bnd_success h hc hdt hs
    · obtain ⟨-, h0, -, hc2⟩ := step_spec (cfg := cfg) h.good.ready
      rcases hc2 with ⟨-, -, e⟩ | ⟨-, -, hb, -, e1, e2, -⟩ | ⟨-, -, -, e | e⟩
      · rw [e]; exact h
      · have hgood := good_step h.good
        have hread := readFrom_step (cfg := cfg) h.read
        have hpow := powers_step h.good h.powers
        generalize (emulateStep cfg s).2 = s' at *
        refine ⟨hgood, hread, by rw [h0]; exact h.phys, by rw [h0]; exact h.solid, by rw [e2]; exact h.temps, by rw [h0]; exact h.top,
          by rw [h0]; exact h.bottom, hpow, ?_⟩
        intro hb'; rw [e1] at hb'; exact absurd hb hb'
      · exact absurd (by rw [e.1]; simp) hne
      · exact absurd e.1 hs
  | insert vs =>
    obtain ⟨fs, e1, e2, e3⟩ := insert_spec h.good.ready vs
    have hgood := good_exec h.good (.insert vs)
    have hread : ReadFrom cfg.d raws (exec cfg (.insert vs) s).2 := readFrom_geom h.read (geom_exec cfg _ s).symm
    have hx : (exec cfg (.insert vs) s).2 = { s with flps := fs } := by simp only [exec, e1]
    rw [hx] at hgood hread ⊢
    refine ⟨hgood, hread, h.phys, h.solid, h.temps, h.top, h.bottom, ?_, h.src⟩
    intro e he v hv
    have : elements { s with flps := fs } = pushEach (elements s) vs := e3
    rw [this] at he
    exact powers_pushEach _ vs h.powers hq e he v hv
  | reset =>
    refine ⟨good_exec h.good .reset, ⟨h.read.grid, h.read.from_, h.read.inGrid⟩, h.phys, h.solid, ?_, h.top, h.bottom, h.powers, h.src⟩
    intro i hi
    simp only [exec, reset]
    rw [List.getD_eq_getElem?_getD, List.getElem?_replicate, if_pos hi]
    exact hq
  | flow f => exact absurd hq (by simp [Allowed])

theorem bnd_run {cfg : Cfg K π} {raws : Nat → List (RawEl K)} {σ m : K} (hc : Correct cfg) (hdt : 0 < cfg.an.stepTime) :
    ∀ (ops : List (Op K)) (s : Sim K π), Bnd cfg raws σ m s →
      (∀ o ∈ ops, Allowed cfg (fun v => 0 ≤ σ * v) (fun t => 0 ≤ σ * (t - m)) o) → .solverError ∉ (run cfg ops s).1 →
      Bnd cfg raws σ m (run cfg ops s).2 := by
  intro ops
  induction ops with
  | nil => intro s h _ _; exact h
  | cons o os ih =>
    intro s h hq hne
    rw [run] at hne ⊢
    simp only [List.mem_append, not_or] at hne
    exact ih _ (bnd_exec h hc hdt o (hq o (by simp)) hne.1) (fun o ho => hq o (by simp [ho])) hne.2

/-- **C25** Lower bound. Starting at a slot boundary of any reachable state of a stack without coolant, if every cell and the ambient are
at `m` or above, no power is negative and resets do not go below `m`, then after any sequence of calls without solver errors every cell is
still at `m` or above. -/
theorem C25_never_below_minimum {cfg : Cfg K π} {s : Sim K π} (h : Reachable cfg s) (hb : cfg.an.slotLength ∣ s.time) (hc : Correct cfg)
    (hdt : 0 < cfg.an.stepTime) (hp : Physical s.g cfg.d) (hso : Solid s.g) {raws : Nat → List (RawEl K)} (hf : ReadFrom cfg.d raws s) {m : K}
    (htop : ∀ sk, s.g.top = some (.ambient sk) → m ≤ sk.tAmb) (hbot : ∀ sk, s.g.bottom = some sk → m ≤ sk.tAmb)
    (hT : AtLeast cfg.d s m) (hpow : ∀ tr ∈ traces s, ∀ v ∈ tr, 0 ≤ v)
    (ops : List (Op K)) (hq : ∀ o ∈ ops, Allowed cfg (0 ≤ ·) (m ≤ ·) o) (hne : .solverError ∉ (run cfg ops s).1) :
    AtLeast cfg.d (run cfg ops s).2 m := by
  have h0 : Bnd cfg raws 1 m s := by
    refine ⟨reachable_good h, hf, hp, hso, ?_, ?_, ?_, ?_, ?_⟩
    · intro i hi; rw [one_mul]; exact sub_nonneg.mpr (hT i hi)
    · intro sk hk; rw [one_mul]; exact sub_nonneg.mpr (htop sk hk)
    · intro sk hk; rw [one_mul]; exact sub_nonneg.mpr (hbot sk hk)
    · intro e he v hv; rw [one_mul]; exact hpow e.powers (List.mem_map.mpr ⟨e, he, rfl⟩) v hv
    · intro hn; exact absurd (Nat.dvd_iff_mod_eq_zero.mp hb) hn
  have := bnd_run hc hdt ops s h0 (fun o ho => by
    have := hq o ho
    cases o with
    | step => trivial
    | insert vs => intro v hv; rw [one_mul]; exact this v hv
    | reset => show 0 ≤ 1 * (_ - m); rw [one_mul]; exact sub_nonneg.mpr this
    | flow f => exact this) hne
  intro i hi
  have := this.temps i hi
  rw [one_mul] at this
  exact sub_nonneg.mp this

/-- **C25** Upper bound: the same with no power at all (or heat being removed). -/
theorem C25_never_above_maximum {cfg : Cfg K π} {s : Sim K π} (h : Reachable cfg s) (hb : cfg.an.slotLength ∣ s.time) (hc : Correct cfg)
    (hdt : 0 < cfg.an.stepTime) (hp : Physical s.g cfg.d) (hso : Solid s.g) {raws : Nat → List (RawEl K)} (hf : ReadFrom cfg.d raws s) {m : K}
    (htop : ∀ sk, s.g.top = some (.ambient sk) → sk.tAmb ≤ m) (hbot : ∀ sk, s.g.bottom = some sk → sk.tAmb ≤ m)
    (hT : AtMost cfg.d s m) (hpow : ∀ tr ∈ traces s, ∀ v ∈ tr, v ≤ 0)
    (ops : List (Op K)) (hq : ∀ o ∈ ops, Allowed cfg (· ≤ 0) (· ≤ m) o) (hne : .solverError ∉ (run cfg ops s).1) :
    AtMost cfg.d (run cfg ops s).2 m := by
  have k : ∀ x : K, x ≤ m → 0 ≤ -1 * (x - m) := by intro x hx; linarith
  have h0 : Bnd cfg raws (-1) m s := by
    refine ⟨reachable_good h, hf, hp, hso, ?_, ?_, ?_, ?_, ?_⟩
    · intro i hi; exact k _ (hT i hi)
    · intro sk hk; exact k _ (htop sk hk)
    · intro sk hk; exact k _ (hbot sk hk)
    · intro e he v hv
      have := hpow e.powers (List.mem_map.mpr ⟨e, he, rfl⟩) v hv
      linarith
    · intro hn; exact absurd (Nat.dvd_iff_mod_eq_zero.mp hb) hn
  have := bnd_run hc hdt ops s h0 (fun o ho => by
    have := hq o ho
    cases o with
    | step => trivial
    | insert vs => intro v hv; have := this v hv; linarith
    | reset => exact k _ this
    | flow f => exact this) hne
  intro i hi
  have := this.temps i hi
  linarith

/-! ### Comparison of two simulations -/

theorem fill_withAmb (g : TGrid K) (a b : K) (an : Ana K) (d : Dims K) : fillMatrix (withAmb g a b) an d = fillMatrix g an d := by
  cases g with
  | mk n ty ly ch top bot =>
  cases top with
  | none => cases bot <;> rfl
  | some t => cases t <;> cases bot <;> rfl

theorem cap_withAmb (g : TGrid K) (a b : K) (d : Dims K) : capList (withAmb g a b) d = capList g d := by
  cases g with
  | mk n ty ly ch top bot =>
  cases top with
  | none => cases bot <;> rfl
  | some t => cases t <;> cases bot <;> rfl

theorem gTop_withAmb (g : TGrid K) (a b : K) (d : Dims K) (l r c : Nat) :
    gTop (withAmb g a b) d l r c = gTop g d l r c ∧ gBottom (withAmb g a b) d l r c = gBottom g d l r c := by
  cases g with
  | mk n ty ly ch top bot =>
  cases top with
  | none => cases bot <;> exact ⟨rfl, rfl⟩
  | some t => cases t <;> cases bot <;> exact ⟨rfl, rfl⟩

theorem sink_mono {g : TGrid K} {d : Dims K} (wf : WF g d) (hp : Physical g d) {a b : K} (ht : ∀ sk, g.top = some (.ambient sk) → sk.tAmb ≤ a)
    (hb : ∀ sk, g.bottom = some sk → sk.tAmb ≤ b) {l r c : Nat} (hl : l < d.nLayers) (hr : r < d.nRows) (hc : c < d.nCols) :
    sinkTerm g d l r c ≤ sinkTerm (withAmb g a b) d l r c := by
  have h0 := amb_nonneg wf hp hl hr hc
  have e1 : (typeAt g l = .solidAmb ∨ typeAt g l = .sourceAmb) → topAmb g ≤ topAmb (withAmb g a b) := by
    intro h0; obtain ⟨-, sk, e⟩ := wf.amb l hl h0; simp only [topAmb, withAmb, e]; exact ht sk e
  have e2 : (typeAt g l = .solidPcb ∨ typeAt g l = .sourcePcb) → botAmb g ≤ botAmb (withAmb g a b) := by
    intro h0; obtain ⟨-, sk, e⟩ := wf.pcb l hl h0; simp only [botAmb, withAmb, e]; exact hb sk e
  have ety : typeAt (withAmb g a b) l = typeAt g l := rfl
  obtain ⟨g1, g2⟩ := gTop_withAmb g a b d l r c
  unfold sinkTerm
  unfold ambientTerm at h0
  rw [ety, g1, g2]
  revert e1 e2 h0
  cases typeAt g l <;> intro h0 e1 e2 <;> first
    | exact mul_le_mul_of_nonneg_right (e1 (Or.inl rfl)) h0
    | exact mul_le_mul_of_nonneg_right (e1 (Or.inr rfl)) h0
    | exact mul_le_mul_of_nonneg_right (e2 (Or.inl rfl)) h0
    | exact mul_le_mul_of_nonneg_right (e2 (Or.inr rfl)) h0
    | exact le_refl _

/-- Powers of two elements, value by value. -/
def ElLe (e e' : FlpEl K) : Prop := List.Forall₂ (· ≤ ·) e.powers e'.powers

theorem elLe_next {e e' : FlpEl K} (h : ElLe e e') : next e ≤ next e' := by
  unfold ElLe at h; unfold next
  generalize e.powers = A at h
  generalize e'.powers = B at h
  cases h with
  | nil => exact le_refl _
  | cons h _ => exact h

theorem elLe_pop {e e' : FlpEl K} (h : ElLe e e') : ElLe (pop e) (pop e') := by
  unfold ElLe at *; unfold pop
  cases hh : e.powers with
  | nil => rw [hh] at h; cases h2 : e'.powers with
    | nil => exact .nil
    | cons y ys => rw [h2] at h; cases h
  | cons x xs => rw [hh] at h; cases h2 : e'.powers with
    | nil => rw [h2] at h; cases h
    | cons y ys => rw [h2] at h; cases h with | cons _ h => simpa [hh, h2] using h

theorem elLe_nil {e e' : FlpEl K} (h : ElLe e e') : e.powers = [] ↔ e'.powers = [] := by
  unfold ElLe at h
  constructor
  · intro hh; rw [hh] at h; cases h2 : e'.powers with
    | nil => rfl
    | cons y ys => rw [h2] at h; cases h
  · intro hh; rw [hh] at h; cases h2 : e.powers with
    | nil => rfl
    | cons y ys => rw [h2] at h; cases h

theorem elsLe_pop {A B : List (FlpEl K)} (h : List.Forall₂ ElLe A B) : List.Forall₂ ElLe (A.map pop) (B.map pop) := by
  induction h with
  | nil => exact .nil
  | cons hx _ ih => exact .cons (elLe_pop hx) ih

theorem elsLe_popStart {A B : List (FlpEl K)} (h : List.Forall₂ ElLe A B) : List.Forall₂ ElLe (popStart A) (popStart B) := by
  unfold popStart
  induction h with
  | nil => exact .nil
  | @cons a b l m hx hr ih =>
    by_cases hn : a.powers = []
    · have hn' := (elLe_nil hx).mp hn
      simp only [List.takeWhile_cons, List.dropWhile_cons, hn, hn', ne_eq, not_true, decide_false, Bool.false_eq_true, if_false, List.map_nil, List.nil_append]
      exact .cons hx hr
    · have hn' : b.powers ≠ [] := fun h => hn ((elLe_nil hx).mpr h)
      simp only [List.takeWhile_cons, List.dropWhile_cons, hn, hn', ne_eq, not_false_eq_true, decide_true, if_true, List.map_cons, List.cons_append]
      exact .cons (elLe_pop hx) ih

theorem elsLe_push {A B : List (FlpEl K)} (h : List.Forall₂ ElLe A B) {vs vs' : List K} (hv : List.Forall₂ (· ≤ ·) vs vs') :
    List.Forall₂ ElLe (pushEach A vs) (pushEach B vs') := by
  induction h generalizing vs vs' with
  | nil => simp only [pushEach]; exact .nil
  | cons hx hr ih =>
    cases hv with
    | nil => simp only [pushEach]; exact .cons hx hr
    | cons h1 h2 =>
      simp only [pushEach]
      refine .cons ?_ (ih h2)
      exact List.rel_append hx (.cons h1 .nil)

theorem split_forall₂ {α β : Type} {R : α → β → Prop} {a : List α} {b : List β} {X : List α} {Y : List β} (hl : a.length = b.length)
    (h : List.Forall₂ R (a ++ X) (b ++ Y)) : List.Forall₂ R a b ∧ List.Forall₂ R X Y := by
  induction a generalizing b with
  | nil => cases b with
    | nil => exact ⟨.nil, h⟩
    | cons y ys => simp at hl
  | cons x xs ih => cases b with
    | nil => simp at hl
    | cons y ys =>
      simp only [List.cons_append] at h
      cases h with
      | cons h1 h2 =>
        obtain ⟨k1, k2⟩ := ih (by simpa using hl) h2
        exact ⟨.cons h1 k1, k2⟩

theorem layers_forall₂ {R : FlpEl K → FlpEl K → Prop} : ∀ (A B : List (Option (List (FlpEl K)))),
    A.length = B.length → (∀ l, l < A.length → ((A.getD l none).getD []).length = ((B.getD l none).getD []).length) →
    List.Forall₂ R (A.flatMap fun o => o.getD []) (B.flatMap fun o => o.getD []) →
    ∀ l, List.Forall₂ R ((A.getD l none).getD []) ((B.getD l none).getD [])
  | [], [], _, _, _, l => by simp
  | [], b :: B, hl, _, _, _ => by simp at hl
  | a :: A, [], hl, _, _, _ => by simp at hl
  | a :: A, b :: B, hl, hs, h, l => by
    simp only [List.flatMap_cons] at h
    obtain ⟨k1, k2⟩ := split_forall₂ (by simpa using hs 0 (by simp)) h
    cases l with
    | zero => simpa using k1
    | succ l =>
      have := layers_forall₂ A B (by simpa using hl) (fun l hl => by simpa using hs (l + 1) (by simpa using hl)) k2 l
      simpa using this

variable {ρ : Type}

structure Cmp (cfg : Cfg K π) (cfg' : Cfg K ρ) (raws : Nat → List (RawEl K)) (a b : K) (s : Sim K π) (s' : Sim K ρ) : Prop where
  good : Good cfg s
  good' : Good cfg' s'
  read : ReadFrom cfg.d raws s
  read' : ReadFrom cfg.d raws s'
  phys : Physical s.g cfg.d
  solid : Solid s.g
  amb : s'.g = withAmb s.g a b
  top : ∀ sk, s.g.top = some (.ambient sk) → sk.tAmb ≤ a
  bottom : ∀ sk, s.g.bottom = some sk → sk.tAmb ≤ b
  time : s'.time = s.time
  temps : ∀ i, i < cfg.d.nCells → s.temps.getD i 0 ≤ s'.temps.getD i 0
  powers : List.Forall₂ ElLe (elements s) (elements s')
  src : s.time % cfg.an.slotLength ≠ 0 → ∀ l r c, l < cfg.d.nLayers → r < cfg.d.nRows → c < cfg.d.nCols →
    sourceAt cfg.d s l r c ≤ sourceAt cfg.d s' l r c

/-- Two configurations for the same analysis of the same grid; only the initial temperature may be higher in the second one. -/
structure SameAnalysis (cfg : Cfg K π) (cfg' : Cfg K ρ) : Prop where
  dims : cfg'.d = cfg.d
  type : cfg'.an.type = cfg.an.type
  stepTime : cfg'.an.stepTime = cfg.an.stepTime
  slotLength : cfg'.an.slotLength = cfg.an.slotLength
  initTemp : cfg.an.initTemp ≤ cfg'.an.initTemp

theorem withAmb_noCoolant {g : TGrid K} {d : Dims K} {a b : K} (wf : WF g d) (hp : Physical g d) (hc : g.channel = none) {l c : Nat} (hl : l < d.nLayers) :
    ¬ IsCoolant (withAmb g a b) l c := fun h => no_coolant wf hp hc hl (c := c) h

theorem cmp_sources {cfg : Cfg K π} {cfg' : Cfg K ρ} {raws : Nat → List (RawEl K)} {a b : K} {s : Sim K π} {s' : Sim K ρ} (hsame : SameAnalysis cfg cfg')
    (h : Cmp cfg cfg' raws a b s s') (hs : Succeeded (emulateStep cfg s).1) (hs' : Succeeded (emulateStep cfg' s').1) {l r c : Nat}
    (hl : l < cfg.d.nLayers) (hr : r < cfg.d.nRows) (hc : c < cfg.d.nCols) :
    (emulateStep cfg s).2.sources.getD (offInStack cfg.d l r c) 0 ≤ (emulateStep cfg' s').2.sources.getD (offInStack cfg.d l r c) 0 := by
  have hd := hsame.dims
  rw [step_sources h.good hs (wf_off h.good.wf hl hr hc).2.2.2, ← hd,
    step_sources h.good' hs' (wf_off h.good'.wf (by rw [hd]; exact hl) (by rw [hd]; exact hr) (by rw [hd]; exact hc)).2.2.2, hsame.slotLength, h.time]
  by_cases hb : s.time % cfg.an.slotLength = 0
  · have hr0 : ReadFrom cfg'.d raws s' := by rw [hd]; exact h.read'
    rw [if_pos hb, if_pos hb, slot_at h.good' hr0 (by rw [hd]; exact hl) (by rw [hd]; exact hr) (by rw [hd]; exact hc), hd,
      slot_at h.good h.read hl hr hc]
    have hi : inletTerm s.g cfg.d l r c = 0 := by
      unfold inletTerm; rw [if_neg (fun hx => no_coolant h.good.wf h.phys h.solid.noCoolant hl hx.2)]
    have hi' : inletTerm s'.g cfg.d l r c = 0 := by
      unfold inletTerm
      rw [if_neg (fun hx => ?_)]
      rw [h.amb] at hx
      exact withAmb_noCoolant h.good.wf h.phys h.solid.noCoolant hl hx.2
    rw [hi, hi', add_zero, add_zero, h.amb]
    refine add_le_add (powerIn_mono (h.read.inGrid l hl) ?_ r c) (sink_mono h.good.wf h.phys h.top h.bottom hl hr hc)
    have hlen : s.flps.length = cfg.d.nLayers := h.good.ready.len.trans h.good.wf.nl
    have hlen' : s'.flps.length = cfg.d.nLayers := (h.good'.ready.len.trans h.good'.wf.nl).trans (by rw [hd])
    have := layers_forall₂ s.flps s'.flps (by rw [hlen, hlen']) (fun l hl => by
      have e1 := (h.read.from_ l (by omega)).length_eq
      have e2 := (h.read'.from_ l (by omega)).length_eq
      unfold floorplan at e1 e2
      rw [← e1, e2]) h.powers l
    exact this.imp fun e e' he => elLe_next he
  · rw [if_neg hb, if_neg hb, hd]; exact h.src hb l r c hl hr hc

theorem cmp_success {cfg : Cfg K π} {cfg' : Cfg K ρ} {raws : Nat → List (RawEl K)} {a b : K} {s : Sim K π} {s' : Sim K ρ} (hsame : SameAnalysis cfg cfg')
    (h : Cmp cfg cfg' raws a b s s') (hc : Correct cfg) (hc' : Correct cfg') (hdt : 0 < cfg.an.stepTime)
    (hs : Succeeded (emulateStep cfg s).1) (hs' : Succeeded (emulateStep cfg' s').1) :
    Cmp cfg cfg' raws a b (emulateStep cfg s).2 (emulateStep cfg' s').2 := by
  obtain ⟨ht, -, heq, -⟩ := step_eq h.good hc hs
  obtain ⟨-, -, heq', -⟩ := step_eq h.good' hc' hs'
  have hsrc := fun l r c hl hr hc => cmp_sources (l := l) (r := r) (c := c) hsame h hs hs' hl hr hc
  have hgood := good_step h.good
  have hgood' := good_step h.good'
  have hread := readFrom_step (cfg := cfg) h.read
  have hread' : ReadFrom cfg.d raws (emulateStep cfg' s').2 := by
    rw [← hsame.dims]; exact readFrom_step (cfg := cfg') (by rw [hsame.dims]; exact h.read')
  obtain ⟨-, hgr, -, hcs⟩ := step_spec (cfg := cfg) h.good.ready
  obtain ⟨-, hgr', -, hcs'⟩ := step_spec (cfg := cfg') h.good'.ready
  have ana : cfg'.an.ana = cfg.an.ana := by simp [Analysis.ana, hsame.type, hsame.stepTime]
  rw [hsame.dims, h.amb, ana, fill_withAmb, hsame.stepTime, h.good'.caps, h.amb, cap_withAmb, hsame.dims, ← h.good.caps] at heq'
  have htm : (emulateStep cfg' s').2.time = (emulateStep cfg s).2.time ∧ List.Forall₂ ElLe (elements (emulateStep cfg s).2) (elements (emulateStep cfg' s').2) := by
    rcases hcs with ⟨e, -⟩ | ⟨e, -⟩ | ⟨-, -, el, ⟨e, -⟩ | ⟨-, e, -⟩⟩
    · rw [e] at hs; simp [Succeeded] at hs
    · rw [e] at hs; simp [Succeeded] at hs
    · rw [e] at hs; simp [Succeeded] at hs
    · rcases hcs' with ⟨e, -⟩ | ⟨e, -⟩ | ⟨-, -, el', ⟨e, -⟩ | ⟨-, e', -⟩⟩
      · rw [e] at hs'; simp [Succeeded] at hs'
      · rw [e] at hs'; simp [Succeeded] at hs'
      · rw [e] at hs'; simp [Succeeded] at hs'
      · refine ⟨by rw [e, e', h.time], ?_⟩
        rw [el, el', h.time, hsame.slotLength]
        split
        · exact elsLe_pop h.powers
        · exact h.powers
  have hat : cfg.an.ana.transient = true := by simp [Analysis.ana, ht]
  generalize (emulateStep cfg s).2 = t at *
  generalize (emulateStep cfg' s').2 = t' at *
  refine ⟨hgood, hgood', hread, hread', by rw [hgr]; exact h.phys, by rw [hgr]; exact h.solid, by rw [hgr', hgr]; exact h.amb,
    by rw [hgr]; exact h.top, by rw [hgr]; exact h.bottom, htm.1, ?_, htm.2, fun _ l r c hl hr hc => hsrc l r c hl hr hc⟩
  have key := solid_nonneg (x := fun i => t'.temps.getD i 0 - t.temps.getD i 0) h.good.wf h.phys h.solid.noCoolant (a := cfg.an.ana) hat hdt fun i hi => by
    have e := heq i hi
    have e' := heq' i hi
    simp only at e e'
    simp only [mul_sub, Finset.sum_sub_distrib]
    rw [e, e']
    have cn := cap_nonneg h.good.wf h.phys hi
    rw [← h.good.caps] at cn
    have k1 := mul_le_mul_of_nonneg_left (h.temps i hi) (div_nonneg cn hdt.le)
    have k2 : t.sources.getD i 0 ≤ t'.sources.getD i 0 := by
      obtain ⟨p, hv, rfl⟩ := exists_cell h.good.wf hi
      cases p with
      | spr r c => exact absurd hv (no_spr h.solid)
      | box l r c => rw [box_offset]; exact hsrc l r c hv.1 hv.2.1 hv.2.2
    linarith
  intro i hi
  have := key i hi
  linarith

theorem cmp_exec {cfg : Cfg K π} {cfg' : Cfg K ρ} {raws : Nat → List (RawEl K)} {a b : K} {s : Sim K π} {s' : Sim K ρ} (hsame : SameAnalysis cfg cfg')
    (h : Cmp cfg cfg' raws a b s s') (hc : Correct cfg) (hc' : Correct cfg') (hdt : 0 < cfg.an.stepTime) {o o' : Op K} (ho : OpLe o o')
    (hne : .solverError ∉ (exec cfg o s).1) (hne' : .solverError ∉ (exec cfg' o' s').1) :
    Cmp cfg cfg' raws a b (exec cfg o s).2 (exec cfg' o' s').2 := by
  cases ho with
  | step =>
    simp only [exec] at hne hne' ⊢
    obtain ⟨-, hgr, -, hcs⟩ := step_spec (cfg := cfg) h.good.ready
    obtain ⟨-, hgr', -, hcs'⟩ := step_spec (cfg := cfg') h.good'.ready
    have hex : (∃ e ∈ elements s, e.powers = []) ↔ ∃ e ∈ elements s', e.powers = [] := by
      have := h.powers
      generalize elements s = A at this
      generalize elements s' = B at this
      induction this with
      | nil => simp
      | cons hx _ ih =>
        simp only [List.mem_cons, exists_eq_or_imp, elLe_nil hx, ih]
    rcases hcs with ⟨-, e0, e⟩ | ⟨-, e0, hb, hex1, e1, e2, el⟩ | ⟨ty, hn, -, ⟨e, -⟩ | ⟨e, -⟩⟩
    · rcases hcs' with ⟨-, e0', e'⟩ | ⟨-, e0', -⟩ | ⟨e0', -⟩
      · rw [e, e']; exact h
      · rw [hsame.type] at e0'; exact absurd e0' e0
      · rw [hsame.type] at e0'; exact absurd e0' e0
    · rcases hcs' with ⟨-, e0', -⟩ | ⟨-, e0', hb', hex1', e1', e2', el'⟩ | ⟨-, hn, -⟩
      · rw [hsame.type] at e0'; exact absurd e0 e0'
      · have hgood := good_step h.good
        have hgood' := good_step h.good'
        have hread := readFrom_step (cfg := cfg) h.read
        have hread' : ReadFrom cfg.d raws (emulateStep cfg' s').2 := by
          rw [← hsame.dims]; exact readFrom_step (cfg := cfg') (by rw [hsame.dims]; exact h.read')
        generalize (emulateStep cfg s).2 = t at *
        generalize (emulateStep cfg' s').2 = t' at *
        refine ⟨hgood, hgood', hread, hread', by rw [hgr]; exact h.phys, by rw [hgr]; exact h.solid, by rw [hgr', hgr]; exact h.amb,
          by rw [hgr]; exact h.top, by rw [hgr]; exact h.bottom, by rw [e1, e1', h.time], by rw [e2, e2']; exact h.temps,
          by rw [el, el']; exact elsLe_popStart h.powers, ?_⟩
        intro hb'; rw [e1] at hb'; exact absurd hb hb'
      · exfalso
        obtain ⟨e, he, hx⟩ := hex.mp hex1
        exact hn (by rw [h.time, hsame.slotLength]; exact hb) e he hx
    · exact absurd (by rw [e]; simp) hne
    · rcases hcs' with ⟨-, e0', -⟩ | ⟨-, -, hb', hex1', -⟩ | ⟨-, -, -, ⟨e', -⟩ | ⟨e', -⟩⟩
      · rw [hsame.type] at e0'; exact absurd ty e0'
      · exfalso
        obtain ⟨e, he, hx⟩ := hex.mpr hex1'
        exact hn (by rw [← h.time, ← hsame.slotLength]; exact hb') e he hx
      · exact absurd (by rw [e']; simp) hne'
      · exact cmp_success hsame h hc hc' hdt e e'
  | @insert vs vs' hv =>
    obtain ⟨fs, e1, e2, e3⟩ := insert_spec h.good.ready vs
    obtain ⟨fs', e1', e2', e3'⟩ := insert_spec h.good'.ready vs'
    have hgood := good_exec h.good (.insert vs)
    have hgood' := good_exec h.good' (.insert vs')
    have hread : ReadFrom cfg.d raws (exec cfg (.insert vs) s).2 := readFrom_geom h.read (geom_exec cfg _ s).symm
    have hread' : ReadFrom cfg.d raws (exec cfg' (.insert vs') s').2 := readFrom_geom h.read' (geom_exec cfg' _ s').symm
    have hx : (exec cfg (.insert vs) s).2 = { s with flps := fs } := by simp only [exec, e1]
    have hx' : (exec cfg' (.insert vs') s').2 = { s' with flps := fs' } := by simp only [exec, e1']
    rw [hx] at hgood hread ⊢
    rw [hx'] at hgood' hread' ⊢
    refine ⟨hgood, hgood', hread, hread', h.phys, h.solid, h.amb, h.top, h.bottom, h.time, h.temps, ?_, h.src⟩
    have k : elements { s with flps := fs } = pushEach (elements s) vs := e3
    have k' : elements { s' with flps := fs' } = pushEach (elements s') vs' := e3'
    rw [k, k']
    exact elsLe_push h.powers hv
  | reset =>
    refine ⟨good_exec h.good .reset, good_exec h.good' .reset, ⟨h.read.grid, h.read.from_, h.read.inGrid⟩,
      ⟨h.read'.grid, h.read'.from_, h.read'.inGrid⟩, h.phys, h.solid, h.amb, h.top, h.bottom, h.time, ?_, h.powers, h.src⟩
    intro i hi
    simp only [exec, reset]
    rw [List.getD_eq_getElem?_getD, List.getElem?_replicate, if_pos hi, List.getD_eq_getElem?_getD, List.getElem?_replicate, hsame.dims, if_pos hi]
    exact hsame.initTemp

/-- **C25** Monotonicity. Two simulations of the same stack without coolant, both at the same slot boundary: if in the second one every
temperature, both ambient temperatures, every power value still to be used, every inserted power and the initial temperature are at least
those of the first one, then after the same calls, without solver errors, every temperature of the second one is at least that of the
first one. -/
theorem C25_monotone {cfg : Cfg K π} {cfg' : Cfg K ρ} (hsame : SameAnalysis cfg cfg') {s : Sim K π} {s' : Sim K ρ}
    (h : Reachable cfg s) (h' : Reachable cfg' s') (ht : s'.time = s.time) (hb : cfg.an.slotLength ∣ s.time) (hc : Correct cfg) (hc' : Correct cfg')
    (hdt : 0 < cfg.an.stepTime) (hp : Physical s.g cfg.d) (hso : Solid s.g)
    {raws : Nat → List (RawEl K)} (hf : ReadFrom cfg.d raws s) (hf' : ReadFrom cfg.d raws s')
    {a b : K} (hamb : s'.g = withAmb s.g a b) (htop : ∀ sk, s.g.top = some (.ambient sk) → sk.tAmb ≤ a)
    (hbot : ∀ sk, s.g.bottom = some sk → sk.tAmb ≤ b)
    (hT : ∀ i, i < cfg.d.nCells → s.temps.getD i 0 ≤ s'.temps.getD i 0) (hpow : List.Forall₂ (List.Forall₂ (· ≤ ·)) (traces s) (traces s'))
    (ops ops' : List (Op K)) (ho : List.Forall₂ OpLe ops ops') (hne : .solverError ∉ (run cfg ops s).1) (hne' : .solverError ∉ (run cfg' ops' s').1) :
    ∀ i, i < cfg.d.nCells → (run cfg ops s).2.temps.getD i 0 ≤ (run cfg' ops' s').2.temps.getD i 0 := by
  have h0 : Cmp cfg cfg' raws a b s s' := by
    refine ⟨reachable_good h, reachable_good h', hf, hf', hp, hso, hamb, htop, hbot, ht, hT, ?_, ?_⟩
    · unfold traces at hpow
      rw [List.forall₂_map_left_iff, List.forall₂_map_right_iff] at hpow
      exact hpow
    · intro hn; exact absurd (Nat.dvd_iff_mod_eq_zero.mp hb) hn
  have key : ∀ (ops ops' : List (Op K)), List.Forall₂ OpLe ops ops' → ∀ (s : Sim K π) (s' : Sim K ρ), Cmp cfg cfg' raws a b s s' →
      .solverError ∉ (run cfg ops s).1 → .solverError ∉ (run cfg' ops' s').1 → Cmp cfg cfg' raws a b (run cfg ops s).2 (run cfg' ops' s').2 := by
    intro ops ops' ho
    induction ho with
    | nil => intro s s' h _ _; exact h
    | cons hx _ ih =>
      intro s s' h hne hne'
      rw [run] at hne ⊢
      rw [run] at hne' ⊢
      simp only [List.mem_append, not_or] at hne hne'
      exact ih _ _ (cmp_exec hsame h hc hc' hdt hx hne.1 hne'.1) hne.2 hne'.2
  exact (key ops ops' ho s s' h0 hne hne').temps

/-! ### Non-vacuity: a die of two layers between an ambient sink and a board, both at `T`, 20 cells -/

def solidRaw (els : List (FlpEl ℚ)) : List (Raw ℚ (List (FlpEl ℚ))) := [⟨"die", .die ⟨[exLayer 20], exLayer 5, [], els⟩⟩]
def solidD : Dims ℚ := { okDims with nLayers := 2, nCells := 20, heights := [5, 20] }
def solidG (T : ℚ) : TGrid ℚ :=
  { nLayers := 2, types := [.sourcePcb, .solidAmb], layers := [exLayer 5, exLayer 20], channel := none,
    top := some (.ambient ⟨1, T⟩), bottom := some ⟨2, T⟩ }
noncomputable def solidCfg (T : ℚ) : Cfg ℚ Unit :=
  { d := solidD, an := ⟨.transient, 1 / 100, 2, T⟩, solve := exactSolve 20, factor := fun _ => true, plugin := fun u _ _ => (u, some []) }
noncomputable def solidSim (T : ℚ) (els : List (FlpEl ℚ)) : Sim ℚ Unit :=
  { g := solidG T, mat := fillMatrix (solidG T) (solidCfg T).an.ana solidD, temps := List.replicate solidD.nCells T,
    sources := List.replicate solidD.nCells 0, caps := capList (solidG T) solidD, topTcs := topList (solidG T) solidD,
    botTcs := botList (solidG T) solidD, flps := [some els, none], time := 0, plug := () }

theorem solid_builtFrom (T : ℚ) (els : List (FlpEl ℚ)) : ∃ p, BuiltFrom okDims none (solidRaw els) p (solidG T) ∧
    p.dims = solidD ∧ fillFloorplans p.dims.nLayers p.elems = [some els, none] := by
  refine ⟨⟨[⟨"die", .die ⟨[exLayer 20, exLayer 5], 0, els⟩, 0⟩], solidD,
    SM.numConnections { okDims with nLayers := 2, heights := [5, 20] } .none 1 none⟩, ⟨?_, ?_, ?_, ?_, ?_, ?_⟩, rfl, rfl⟩
  · exact (by decide : 1 ≤ solidD.nRows)
  · exact (by decide : 1 ≤ solidD.nCols)
  · intro s h; simp [spreaderOf, solidG] at h
  · rintro ch h; simp at h
  · rfl
  · rfl

theorem solid_reachable (T : ℚ) (els : List (FlpEl ℚ)) : Reachable (solidCfg T) (solidSim T els) := by
  obtain ⟨p, h1, h2, h3⟩ := solid_builtFrom T els
  refine ⟨_, _, [], ⟨_, _, p, (), h1, h2.symm, ?_⟩, rfl⟩
  unfold build; rw [if_pos (by rfl), h3]; rfl

theorem solid_physical (T : ℚ) : Physical (solidG T) solidD := by
  refine ⟨by norm_num [solidD, okDims, exDims], by norm_num [solidD, okDims, exDims], ?_, ?_, ?_, ?_, ?_, ?_⟩
  · intro h hh; simp [solidD] at hh; rcases hh with rfl | rfl <;> norm_num
  · intro ly hly
    simp only [solidG, exLayer, List.mem_cons, List.not_mem_nil, or_false] at hly
    rcases hly with rfl | rfl <;> exact ⟨exMat_pos, by intro m hm; cases hm⟩
  · intro s h; simp [solidG] at h; subst h; norm_num
  · intro s h; simp [solidG] at h; subst h; norm_num
  · intro s m h; simp [solidG] at h
  · intro ch h; simp [solidG] at h

theorem solid_solid (T : ℚ) : Solid (solidG T) := ⟨rfl, by intro sp m h; simp [solidG] at h⟩

theorem solidGrid : GoodGrid solidD := by
  have hs : Sized solidD := ⟨by simp [solidD, okDims, exDims, W], by simp [solidD, okDims, exDims, W]⟩
  refine ⟨hs, by norm_num [solidD, okDims, exDims], by norm_num [solidD, okDims, exDims], ?_⟩
  exact (covers_4rm hs 1 rfl).mpr (by norm_num [solidD, okDims, exDims])

theorem solid_inGrid : ∀ raw ∈ [okRaw1, okRaw2], ∀ e ∈ raw.rects, InGrid solidD e := by
  have hl : gridLength solidD = 70 := by
    rw [gridLength_4rm solidGrid.sized 1 rfl]; norm_num [solidD, okDims, exDims]
  have hw : gridWidth solidD = 20 := by rw [gridWidth_eq solidGrid.sized]; norm_num [solidD, okDims, exDims]
  intro raw hr e he
  have := okIn raw hr e he
  have h0 := ok_length; have h1 := ok_width
  obtain ⟨a, b, c, d, e, f⟩ := this
  rw [h0] at *; rw [h1] at *
  constructor <;> first | assumption | (rw [hl]; assumption) | (rw [hw]; assumption)

theorem solid_parse (p q : List ℚ) : ∃ e1 e2 : FlpEl ℚ, List.Forall₂ (From solidD) [okRaw1, okRaw2] [e1, e2] ∧ e1.powers = p ∧ e2.powers = q := by
  have hin := solid_inGrid
  obtain ⟨e1, h1⟩ := parse_total solidGrid (raw := okRaw1) (by simp [okRaw1]) (hin _ (by simp)) (fun e he => okLoc okRaw1 (by simp) e he)
  obtain ⟨e2, h2⟩ := parse_total solidGrid (raw := okRaw2) (by simp [okRaw2]) (hin _ (by simp)) (fun e he => okLoc okRaw2 (by simp) e he)
  exact ⟨{ e1 with powers := p }, { e2 with powers := q }, .cons ⟨e1, h1, rfl, rfl⟩ (.cons ⟨e2, h2, rfl, rfl⟩ .nil), rfl, rfl⟩

theorem solid_readFrom (T : ℚ) {e1 e2 : FlpEl ℚ} (h : List.Forall₂ (From solidD) [okRaw1, okRaw2] [e1, e2]) :
    ReadFrom (solidCfg T).d chipRaws (solidSim T [e1, e2]) := by
  refine ⟨solidGrid, ?_, ?_⟩
  · intro l hl
    have hl : l < 2 := hl
    interval_cases l
    · exact h
    · exact .nil
  · intro l hl raw hr e he
    cases l with
    | zero => exact solid_inGrid raw hr e he
    | succ l => simp [chipRaws] at hr

theorem solid_temps (T : ℚ) (els : List (FlpEl ℚ)) (i : Nat) (hi : i < (solidCfg T).d.nCells) : (solidSim T els).temps.getD i 0 = T := by
  have hi : i < solidD.nCells := hi
  show (List.replicate solidD.nCells T).getD i 0 = T
  rw [List.getD_eq_getElem?_getD, List.getElem?_replicate, if_pos hi]; rfl

/-- Steps of the example do not fail while there are powers. -/
theorem solid_step (T : ℚ) {s : Sim ℚ Unit} (h : Good (solidCfg T) s) (hg : s.g = solidG T)
    (hp : s.time % 2 = 0 → ∀ e ∈ elements s, e.powers ≠ []) : Succeeded (emulateStep (solidCfg T) s).1 := by
  have hm : s.mat = fillMatrix (solidG T) ⟨true, 1 / 100⟩ solidD := by rw [h.mat, hg]; rfl
  have hfin : ∀ s1 : Sim ℚ Unit, s1.g = solidG T → s1.mat = fillMatrix (solidG T) ⟨true, 1 / 100⟩ solidD →
      Succeeded (finishStep (solidCfg T) s1).1 := by
    intro s1 hg1 hm1
    have hpl : pluggable (solidCfg T) s1 = (s1, true) := by
      unfold pluggable; rw [hg1]; rfl
    have wf : WF (solidG T) solidD := by rw [← hg]; exact h.wf
    obtain ⟨x, hx⟩ := exactSolve_some (n := 20) (A := s1.mat) (b := fillSystemVector (solidCfg T) s1)
      (by rw [hm1]; exact step_unique_wf wf (solid_physical T) ⟨true, 1 / 100⟩ rfl (by norm_num) _)
    rw [finish_ok hpl hx]
    simp only
    generalize slotCompleted _ _ = b
    cases b
    · exact Or.inl rfl
    · exact Or.inr rfl
  by_cases hb : s.time % 2 = 0
  · rw [step_start (cfg := solidCfg T) h.ready rfl hb (hp hb)]
    exact hfin _ hg hm
  · rw [step_inside (cfg := solidCfg T) rfl hb]
    exact hfin _ hg hm

/-- Two simulations of the example, at 300 and at 310, with powers 1 and 4 against 3 and 4: the hypotheses of `C25_monotone` and of
`C25_never_below_minimum` hold, and the first step succeeds in both. -/
example : ∃ els els' : List (FlpEl ℚ), Succeeded (emulateStep (solidCfg 300) (solidSim 300 els)).1 ∧
    Succeeded (emulateStep (solidCfg 310) (solidSim 310 els')).1 ∧
    AtLeast solidD (emulateStep (solidCfg 300) (solidSim 300 els)).2 300 ∧
    ∀ i, i < 20 → (emulateStep (solidCfg 300) (solidSim 300 els)).2.temps.getD i 0 ≤ (emulateStep (solidCfg 310) (solidSim 310 els')).2.temps.getD i 0 := by
  obtain ⟨e1, e2, h, p1, p2⟩ := solid_parse [1, 1] [4, 5]
  obtain ⟨f1, f2, h', q1, q2⟩ := solid_parse [3, 1] [4, 5]
  have hr := solid_reachable 300 [e1, e2]
  have hr' := solid_reachable 310 [f1, f2]
  have hc : ∀ T, Correct (solidCfg T) := fun T A b x h => exactSolve_correct h
  have he : ∀ T (a b : FlpEl ℚ), elements (solidSim T [a, b]) = [a, b] := by intro T a b; simp [elements, solidSim]
  have s1 := solid_step 300 (reachable_good hr) rfl (fun _ => by
    rw [he]; intro e hh; simp at hh; rcases hh with rfl | rfl
    · rw [p1]; simp
    · rw [p2]; simp)
  have s2 := solid_step 310 (reachable_good hr') rfl (fun _ => by
    rw [he]; intro e hh; simp at hh; rcases hh with rfl | rfl
    · rw [q1]; simp
    · rw [q2]; simp)
  have n1 : .solverError ∉ (run (solidCfg 300) [.step] (solidSim 300 [e1, e2])).1 := by
    simp only [run, exec, List.append_nil, List.mem_singleton]
    rcases s1 with h | h <;> rw [h] <;> simp
  have n2 : .solverError ∉ (run (solidCfg 310) [.step] (solidSim 310 [f1, f2])).1 := by
    simp only [run, exec, List.append_nil, List.mem_singleton]
    rcases s2 with h | h <;> rw [h] <;> simp
  refine ⟨[e1, e2], [f1, f2], s1, s2, ?_, ?_⟩
  · refine C25_never_below_minimum hr (Nat.dvd_zero 2) (hc _) (by norm_num [solidCfg]) (solid_physical 300) (solid_solid 300) (solid_readFrom 300 h) ?_ ?_ ?_ ?_
      [.step] (by intro o ho; simp at ho; subst ho; trivial) n1
    · intro sk h; simp [solidSim, solidG] at h; subst h; simp
    · intro sk h; simp [solidSim, solidG] at h; subst h; simp
    · intro i hi; rw [solid_temps 300 _ i hi]
    · intro tr htr v hv
      unfold traces at htr; rw [he] at htr
      simp [p1, p2] at htr
      rcases htr with rfl | rfl <;> simp at hv <;> rcases hv with rfl | rfl <;> norm_num
  · refine C25_monotone (cfg := solidCfg 300) (cfg' := solidCfg 310) ⟨rfl, rfl, rfl, rfl, by norm_num [solidCfg]⟩ hr hr' rfl (Nat.dvd_zero 2) (hc _) (hc _) (by norm_num [solidCfg]) (solid_physical 300)
      (solid_solid 300) (solid_readFrom 300 h) (solid_readFrom 310 h') (a := 310) (b := 310) rfl ?_ ?_ ?_ ?_ [.step] [.step] (.cons .step .nil) n1 n2
    · intro sk h; simp [solidSim, solidG] at h; subst h; norm_num
    · intro sk h; simp [solidSim, solidG] at h; subst h; norm_num
    · intro i hi; rw [solid_temps 300 _ i hi, solid_temps 310 _ i hi]; norm_num
    · unfold traces; rw [he, he]
      simp [p1, p2, q1, q2]

end Verif.Emu
