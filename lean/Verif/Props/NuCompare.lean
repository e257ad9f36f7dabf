import Verif.Props.NuMonotone

/-! # C74: comparison of two simulations on a non-uniform grid without coolant; the steady state -/

set_option linter.unusedSectionVars false
set_option linter.unusedSimpArgs false
set_option linter.unusedVariables false

namespace Verif.NU
open Verif.Dim Verif.TG Verif.Stk Verif.SM
open Verif.Emu (SimResult Succeeded withAmb)

variable {K : Type} [Field K] [LinearOrder K] [IsStrictOrderedRing K] {π ρ : Type}
variable {d0 d1 : Dims K} {rs rs' : List (Raw K (List (FEl K)))} {ns ns' : List (NElem K)} {G G' : Grid K} {an : Ana K} {m : Csc K}

/-! ## Specification -/

/-- An element of the stack without the power values of its floorplan. -/
def powerless (n : NElem K) : NElem K :=
  match n.elem.body with
  | .die d => { n with elem := { n.elem with body := .die { d with flp := d.flp.map fun e => { e with powers := [] } } } }
  | _ => n

/-- The same grid with ambient temperatures `a` over the top sink and `b` under the bottom sink; the elements of its floorplans are the same, with other
power values. -/
def SameGrid (a b : K) (G G' : Grid K) : Prop :=
  ∃ fl nn, G' = { G with g := withAmb G.g a b, flps := fl, ns := nn } ∧ bare fl = bare G.flps ∧ nn.map powerless = G.ns.map powerless

/-- Two configurations for the same analysis; only the initial temperature may be higher in the second one. -/
structure SameAnalysis (cfg : NCfg K π) (cfg' : NCfg K ρ) : Prop where
  type : cfg'.an.type = cfg.an.type
  stepTime : cfg'.an.stepTime = cfg.an.stepTime
  slotLength : cfg'.an.slotLength = cfg.an.slotLength
  initTemp : cfg.an.initTemp ≤ cfg'.an.initTemp

/-! ## Ambient temperatures do not matter for the matrix -/

theorem fillNU_withAmb (g : TGrid K) (a b : K) (an : Ana K) (d : Dims K) (cs : List (Cell K)) (L : List (Conn K)) :
    fillMatrixNU id (withAmb g a b) an d cs L = fillMatrixNU id g an d cs L := by
  cases g with
  | mk n ty ly ch top bot =>
  cases top with
  | none => cases bot <;> rfl
  | some t => cases t <;> cases bot <;> rfl

theorem record_withAmb (g : TGrid K) (a b : K) (ns : List (NElem K)) : recordOf (withAmb g a b).top ns = recordOf g.top ns := by
  cases g with
  | mk n ty ly ch top bot =>
  cases top with
  | none => rfl
  | some t => cases t <;> rfl

theorem cap_withAmbNU (g : TGrid K) (a b : K) (d : Dims K) (c : Cell K) : capacityNU (withAmb g a b) d c = capacityNU g d c := by
  cases g with
  | mk n ty ly ch top bot =>
  cases top with
  | none => cases bot <;> rfl
  | some t => cases t <;> cases bot <;> rfl

theorem toAmbient_withAmb (G : Grid K) (a b : K) (fl : List (Option (List (FEl K)))) (nn : List (NElem K)) (c : Cell K) :
    toAmbient { G with g := withAmb G.g a b, flps := fl, ns := nn } c = toAmbient G c := by
  obtain ⟨d, n, g, ls, fl0, nn0⟩ := G
  cases g with
  | mk n ty ly ch top bot =>
  cases top with
  | none => cases bot <;> rfl
  | some t => cases t <;> cases bot <;> rfl

theorem record_powerless (n : NElem K) : elemRecord (powerless n) = elemRecord n := by
  unfold powerless elemRecord
  cases h : n.elem.body <;> simp [h]

theorem record_same {nn nn' : List (NElem K)} (h : nn.map powerless = nn'.map powerless) (t : Option (TopSink K)) : recordOf t nn = recordOf t nn' := by
  have e : ∀ l : List (NElem K), l.flatMap elemRecord = (l.map powerless).flatMap elemRecord := by
    intro l
    rw [List.flatMap_map]
    congr 1
    funext n
    exact (record_powerless n).symm
  unfold recordOf
  rw [e nn, h, ← e]

theorem assembled_withAmb {a b : K} {fl : List (Option (List (FEl K)))} {nn : List (NElem K)} (hn : nn.map powerless = G.ns.map powerless) (h : Assembled id { G with g := withAmb G.g a b, flps := fl, ns := nn } an m) : Assembled id G an m := by
  obtain ⟨L, h1, h2⟩ := h
  refine ⟨L, ?_, ?_⟩
  · have : (Grid.ty { G with g := withAmb G.g a b, flps := fl, ns := nn }) = G.ty := by
      funext l
      unfold Grid.ty
      simp only
      rw [record_withAmb, record_same hn]
    rw [this] at h1
    exact h1
  · rw [h2]
    exact fillNU_withAmb _ _ _ _ _ _ _

theorem sinks_mono (hf : FromStack d0 none rs ns G) (ph : PhysicalNU G) {t : Sink K} (ht : G.g.top = some (.ambient t)) {a b : K} (hta : t.tAmb ≤ a)
    (hb : ∀ k, G.g.bottom = some k → k.tAmb ≤ b) (fl : List (Option (List (FEl K)))) (nn : List (NElem K)) {c : Cell K} (hc : c ∈ G.cells) :
    fromSinks G c ≤ fromSinks { G with g := withAmb G.g a b, flps := fl, ns := nn } c := by
  have h1 := solid_amb hf ph hc
  have h2 := solid_bottom hf ph hc (below_top hf ht hc)
  have e1 := toAmbient_withAmb G a b fl nn c
  have e2 : toBottomFace { G with g := withAmb G.g a b, flps := fl, ns := nn } c = toBottomFace G c := by
    unfold toBottomFace ownMat; rfl
  unfold fromSinks
  rw [e1, e2, ht]
  simp only [withAmb, ht]
  refine add_le_add (mul_le_mul_of_nonneg_right hta h1) ?_
  cases hbt : G.g.bottom with
  | none => exact le_refl _
  | some k =>
    simp only [Option.map_some]
    split_ifs
    · exact mul_le_mul_of_nonneg_right (hb k hbt) h2.le
    · exact le_refl _

/-! ## Powers -/

/-- Powers of two elements, value by value. -/
def ElLe (e e' : FEl K) : Prop := List.Forall₂ (· ≤ ·) e.powers e'.powers

theorem tail_le {xs ys : List K} (h : List.Forall₂ (· ≤ ·) xs ys) : List.Forall₂ (· ≤ ·) xs.tail ys.tail := by
  cases h with
  | nil => exact .nil
  | cons _ h => exact h

theorem head_le {xs ys : List K} (h : List.Forall₂ (· ≤ ·) xs ys) : xs.headD 0 ≤ ys.headD 0 := by
  cases h with
  | nil => exact le_refl _
  | cons h _ => exact h

theorem popFront_le : ∀ {es es' : List (FEl K)}, List.Forall₂ ElLe es es' → List.Forall₂ ElLe (popFront es) (popFront es')
  | _, _, .nil => by simp [popFront]
  | _, _, .cons (a := e) (b := e') he h => by
    by_cases hp : e.powers = []
    · have hp' : e'.powers = [] := by unfold ElLe at he; rw [hp] at he; exact List.forall₂_nil_left_iff.mp he
      rw [popFront_cons_empty hp, popFront_cons_empty hp']
      exact .cons he h
    · have hp' : e'.powers ≠ [] := by intro h'; unfold ElLe at he; rw [h'] at he; exact hp (List.forall₂_nil_right_iff.mp he)
      rw [popFront_cons hp, popFront_cons hp']
      refine .cons ?_ (popFront_le h)
      exact tail_le he

theorem pushFront_le : ∀ {es es' : List (FEl K)} {vs vs' : List K}, List.Forall₂ ElLe es es' → List.Forall₂ (· ≤ ·) vs vs' →
    List.Forall₂ ElLe (pushFront es vs) (pushFront es' vs')
  | _, _, _, _, .nil, _ => by simp [pushFront]
  | _, _, _, _, .cons he h, .nil => by rw [pushFront, pushFront]; exact .cons he h
  | _, _, _, _, .cons he h, .cons hv hvs => by
    rw [pushFront, pushFront]
    refine .cons ?_ (pushFront_le h hvs)
    exact List.rel_append (R := (· ≤ ·)) he (.cons hv .nil)

theorem shares_le : ∀ {es es' : List (FEl K)}, es.map (fun e => { e with powers := [] }) = es'.map (fun e => { e with powers := [] }) →
    List.Forall₂ ElLe es es' → List.Forall₂ (· ≤ ·) (shares es) (shares es')
  | [], [], _, .nil => .nil
  | e :: es, e' :: es', hb, .cons he h => by
    simp only [List.map_cons, List.cons.injEq] at hb
    obtain ⟨h1, h2⟩ := hb
    have hx : e.dx = e'.dx := by simp only [FEl.mk.injEq] at h1; tauto
    have hy : e.dy = e'.dy := by simp only [FEl.mk.injEq] at h1; tauto
    show List.Forall₂ (· ≤ ·) (List.replicate (e.dx * e.dy) (e.powers.headD 0 / ((e.dx * e.dy : Nat) : K)) ++ shares _)
      (List.replicate (e'.dx * e'.dy) (e'.powers.headD 0 / ((e'.dx * e'.dy : Nat) : K)) ++ shares _)
    rw [← hx, ← hy]
    refine List.rel_append ?_ (shares_le h2 h)
    have hv : e.powers.headD 0 / ((e.dx * e.dy : Nat) : K) ≤ e'.powers.headD 0 / ((e.dx * e.dy : Nat) : K) := by
      refine div_le_div_of_nonneg_right ?_ (Nat.cast_nonneg _)
      exact head_le he
    generalize e.dx * e.dy = n at hv ⊢
    generalize e.powers.headD 0 / (n : K) = v at hv ⊢
    generalize e'.powers.headD 0 / (n : K) = v' at hv ⊢
    induction n with
    | zero => exact .nil
    | succ n ih => rw [List.replicate_succ, List.replicate_succ]; exact .cons hv ih

/-- Layer by layer. -/
theorem layers_le : ∀ {fl fl' : List (Option (List (FEl K)))}, bare fl = bare fl' → List.Forall₂ ElLe (elsOf fl) (elsOf fl') →
    ∀ (l : Nat) es es', fl[l]? = some (some es) → fl'[l]? = some (some es') → List.Forall₂ ElLe es es'
  | [], _, _, _ => by intro l es es' h; simp at h
  | _ :: _, [], _, _ => by intro l es es' _ h; simp at h
  | o :: fl, o' :: fl', hb, h => by
    simp only [bare, List.map_cons, List.cons.injEq] at hb
    obtain ⟨h1, h2⟩ := hb
    have hlen : (o.getD []).length = (o'.getD []).length := by
      cases o with
      | none => cases o' with
        | none => rfl
        | some es' => simp at h1
      | some es => cases o' with
        | none => simp at h1
        | some es' =>
          simp only [Option.map_some, Option.some.injEq] at h1
          have := congrArg List.length h1
          simpa using this
    have h' : List.Forall₂ ElLe (o.getD [] ++ elsOf fl) (o'.getD [] ++ elsOf fl') := h
    have ha : List.Forall₂ ElLe (o.getD []) (o'.getD []) := by
      have := List.forall₂_take (o.getD []).length h'
      rw [List.take_left, hlen, List.take_left] at this
      exact this
    have hc : List.Forall₂ ElLe (elsOf fl) (elsOf fl') := by
      have := List.forall₂_drop (o.getD []).length h'
      rw [List.drop_left, hlen, List.drop_left] at this
      exact this
    intro l es es' e e'
    cases l with
    | zero =>
      simp only [List.getElem?_cons_zero, Option.some.injEq] at e e'
      rw [e, e'] at ha
      exact ha
    | succ l => exact layers_le h2 hc l es es' e e'

theorem forall₂_getD {xs ys : List K} (h : List.Forall₂ (· ≤ ·) xs ys) (i : Nat) : (xs[i]?).getD 0 ≤ (ys[i]?).getD 0 := by
  induction h generalizing i with
  | nil => simp
  | cons h _ ih =>
    cases i with
    | zero => exact h
    | succ i => exact ih i

theorem powerPart_le {a b : K} {fl : List (Option (List (FEl K)))} {l : Nat} (hdry : coolantType (typeAt G.g l) = false) (hb : bare fl = bare G.flps)
    (h : List.Forall₂ ElLe (elsOf G.flps) (elsOf fl)) (lc : List (Cell K)) (k : Nat) :
    ((powerPart G l lc)[k]?).getD 0 ≤ ((powerPart { G with g := withAmb G.g a b, flps := fl, ns := nn } l lc)[k]?).getD 0 := by
  have hdry' : coolantType (typeAt (withAmb G.g a b) l) = false := hdry
  unfold powerPart
  simp only [hdry, hdry']
  cases ho : G.flps[l]? with
  | none =>
    have : fl[l]? = none := by
      rw [List.getElem?_eq_none_iff] at ho ⊢
      rw [← bare_length, hb, bare_length]; exact ho
    rw [this]
    exact le_refl _
  | some o =>
    cases o with
    | none =>
      cases ho' : fl[l]? with
      | none => exact le_refl _
      | some o' =>
        cases o' with
        | none => exact le_refl _
        | some es' =>
          obtain ⟨es, e1, -⟩ := bare_get hb ho'
          rw [ho] at e1; cases e1
    | some es =>
      obtain ⟨es', e1, e2⟩ := bare_get hb.symm ho
      rw [e1]
      exact forall₂_getD (shares_le e2 (layers_le hb.symm h l es es' ho e1)) k

/-! ## One step -/

/-- Sources with higher powers and ambient temperatures. -/
theorem sources_le (hf : FromStack d0 none rs ns G) (ph : PhysicalNU G) (hfull : Full G) {t : Sink K} (ht : G.g.top = some (.ambient t)) {a b : K}
    (hta : t.tAmb ≤ a) (hb : ∀ k, G.g.bottom = some k → k.tAmb ≤ b) {fl : List (Option (List (FEl K)))}
    (hf' : FromStack d1 none rs' ns' { G with g := withAmb G.g a b, flps := fl, ns := nn }) (hbare : bare fl = bare G.flps)
    (hp : List.Forall₂ ElLe (elsOf G.flps) (elsOf fl)) {S S' : List K} {f1 f2 : List (Option (List (FEl K)))}
    (hS : sourcesNU G.g G.d G.cells G.flps = some (S, f1)) (hS' : sourcesNU (withAmb G.g a b) G.d G.cells fl = some (S', f2))
    (i : Nat) (hi : i < G.cells.length) : S.getD i 0 ≤ S'.getD i 0 := by
  have ht' : (withAmb G.g a b).top = some (.ambient { t with tAmb := a }) := by simp only [withAmb, ht]
  have ph' : PhysicalNU { G with g := withAmb G.g a b, flps := fl, ns := nn } := by
    refine ⟨ph.hts, ph.cell, ph.mat, ?_, ?_⟩
    · intro k hk
      have hk : (withAmb G.g a b).top = some (.ambient k) := hk
      rw [ht', Option.some.injEq, TopSink.ambient.injEq] at hk
      rw [← hk]
      exact ph.htc t ht
    · intro sp mm hk
      have hk : (withAmb G.g a b).top = some (.pluggable sp mm) := hk
      rw [ht'] at hk
      cases hk
  obtain ⟨lc, h1, h2, h3⟩ := solid_source hf ph hfull ht hS hi
  obtain ⟨lc', h1', h2', h3'⟩ := solid_source (G := { G with g := withAmb G.g a b, flps := fl, ns := nn }) hf' ph' hfull ht' hS' hi
  have hlc : lc' = lc := by
    have h1'' : G.ls[G.cells[i].layer]? = some lc' := h1'
    rw [h1] at h1''
    exact (Option.some.inj h1'').symm
  subst hlc
  rw [h3, h3']
  have hlt := below_top hf ht (List.getElem_mem hi)
  exact add_le_add (sinks_mono hf ph ht hta hb fl nn (List.getElem_mem hi)) (powerPart_le (dry_layer hf ph hlt) hbare hp _ _)

theorem physical_withAmb (ph : PhysicalNU G) {t : Sink K} (ht : G.g.top = some (.ambient t)) (a b : K) (fl : List (Option (List (FEl K)))) :
    PhysicalNU { G with g := withAmb G.g a b, flps := fl, ns := nn } := by
  have ht' : (withAmb G.g a b).top = some (.ambient { t with tAmb := a }) := by simp only [withAmb, ht]
  refine ⟨ph.hts, ph.cell, ph.mat, ?_, ?_⟩
  · intro k hk
    have hk : (withAmb G.g a b).top = some (.ambient k) := hk
    rw [ht', Option.some.injEq, TopSink.ambient.injEq] at hk
    rw [← hk]
    exact ph.htc t ht
  · intro sp mm hk
    have hk : (withAmb G.g a b).top = some (.pluggable sp mm) := hk
    rw [ht'] at hk
    cases hk

/-- The invariant of the comparison. -/
structure Cmp (cfg : NCfg K π) (cfg' : NCfg K ρ) (d0 d1 : Dims K) (rs rs' : List (Raw K (List (FEl K)))) (ns ns' : List (NElem K)) (t : Sink K) (a b : K)
    (s : NSim K π) (s' : NSim K ρ) : Prop where
  valid : Valid cfg d0 none rs ns s
  valid' : Valid cfg' d1 none rs' ns' s'
  phys : PhysicalNU s.G
  full : Full s.G
  top : s.G.g.top = some (.ambient t)
  amb : t.tAmb ≤ a
  bottom : ∀ k, s.G.g.bottom = some k → k.tAmb ≤ b
  same : SameGrid a b s.G s'.G
  time : s'.time = s.time
  temps : ∀ i, i < s.G.cells.length → s.temps.getD i 0 ≤ s'.temps.getD i 0
  powers : List.Forall₂ ElLe (elements s) (elements s')
  src : s.time % cfg.an.slotLength ≠ 0 → ∀ i, i < s.G.cells.length → s.sources.getD i 0 ≤ s'.sources.getD i 0

theorem SameGrid.cells {a b : K} (h : SameGrid a b G G') : G'.cells = G.cells := by obtain ⟨fl, nn, rfl, -⟩ := h; rfl

theorem SameGrid.top {a b : K} (h : SameGrid a b G G') {t : Sink K} (ht : G.g.top = some (.ambient t)) : G'.g.top = some (.ambient { t with tAmb := a }) := by
  obtain ⟨fl, nn, rfl, -⟩ := h
  simp only [withAmb, ht]

theorem SameGrid.flps {a b : K} (h : SameGrid a b G G') {f f' : List (Option (List (FEl K)))} (hf : bare f = bare G.flps) (hf' : bare f' = bare G'.flps) :
    SameGrid a b { G with flps := f } { G' with flps := f' } := by
  obtain ⟨fl, nn, rfl, hb, hnn⟩ := h
  exact ⟨f', nn, rfl, hf'.trans (hb.trans hf.symm), hnn⟩

/-- Solutions of a step with higher temperatures and sources are higher. -/
theorem step_le (hf : FromStack d0 none rs ns G) (ph : PhysicalNU G) {a : Ana K} (hm : Assembled id G a m) (hat : a.transient = true) (ha : 0 < a.stepTime)
    {x x' T T' S S' : Nat → K} (h : Solves G.cells.length m.entry x fun i => storage a ((G.cells[i]?).elim 0 (capacityNU G.g G.d)) * T i + S i)
    (h' : Solves G.cells.length m.entry x' fun i => storage a ((G.cells[i]?).elim 0 (capacityNU G.g G.d)) * T' i + S' i)
    (hT : ∀ i, i < G.cells.length → T i ≤ T' i) (hS : ∀ i, i < G.cells.length → S i ≤ S' i) : ∀ i, i < G.cells.length → x i ≤ x' i := by
  intro i hi
  refine sub_nonneg.mp (solid_step hf ph hm hat ha (x := fun i => x' i - x i)
    (b := fun i => storage a ((G.cells[i]?).elim 0 (capacityNU G.g G.d)) * (T' i - T i) + (S' i - S i)) ?_ ?_ i hi)
  · intro i hi
    have e := h i hi
    have e' := h' i hi
    beta_reduce at e e' ⊢
    simp only [mul_sub, Finset.sum_sub_distrib]
    rw [e, e']
    ring
  · intro i hi
    simp only [List.getElem?_eq_getElem hi, Option.elim_some, solid_capacity hf ph (List.getElem_mem hi)]
    have h1 : 0 < storage a (heatCapacity G G.cells[i]) := by
      unfold storage; rw [hat]; simp only [if_true]
      exact div_pos (solid_cap hf ph (List.getElem_mem hi)) ha
    exact add_nonneg (mul_nonneg h1.le (sub_nonneg.mpr (hT i hi))) (sub_nonneg.mpr (hS i hi))

theorem empty_le {es es' : List (FEl K)} (h : List.Forall₂ ElLe es es') : (∀ e ∈ es, e.powers ≠ []) ↔ ∀ e ∈ es', e.powers ≠ [] := by
  induction h with
  | nil => simp
  | cons he _ ih =>
    simp only [List.forall_mem_cons, ih]
    refine and_congr_left fun _ => not_congr ⟨fun h => ?_, fun h => ?_⟩
    · unfold ElLe at he; rw [h] at he; exact List.forall₂_nil_left_iff.mp he
    · unfold ElLe at he; rw [h] at he; exact List.forall₂_nil_right_iff.mp he

theorem cmp_exec {cfg : NCfg K π} {cfg' : NCfg K ρ} (hsame : SameAnalysis cfg cfg') {t : Sink K} {a b : K} {s : NSim K π} {s' : NSim K ρ}
    (h : Cmp cfg cfg' d0 d1 rs rs' ns ns' t a b s s') (hc : CorrectNU cfg) (hc' : CorrectNU cfg') (hdt : 0 < cfg.an.stepTime) {o o' : NOp K} (ho : OpLe o o')
    (hne : .solverError ∉ (exec cfg o s).1) (hne' : .solverError ∉ (exec cfg' o' s').1) :
    Cmp cfg cfg' d0 d1 rs rs' ns ns' t a b (exec cfg o s).2 (exec cfg' o' s').2 := by
  cases ho with
  | step =>
    have n1 : (stepNU cfg s).1 ≠ .solverError := fun e => hne (by simp [exec, e])
    have n2 : (stepNU cfg' s').1 ≠ .solverError := fun e => hne' (by simp [exec, e])
    show Cmp cfg cfg' d0 d1 rs rs' ns ns' t a b (stepNU cfg s).2 (stepNU cfg' s').2
    obtain ⟨v1, ⟨f1, b1, g1⟩, c1⟩ := step_cases h.valid h.top hc n1
    obtain ⟨v2, ⟨f2, b2, g2⟩, c2⟩ := step_cases h.valid' (h.same.top h.top) hc' n2
    have hsg : SameGrid a b (stepNU cfg s).2.G (stepNU cfg' s').2.G := by rw [g1, g2]; exact h.same.flps b1 b2
    have p1 : PhysicalNU (stepNU cfg s).2.G := by rw [g1]; exact h.phys.flps f1
    have p2 : Full (stepNU cfg s).2.G := by rw [g1]; exact h.full
    have p3 : (stepNU cfg s).2.G.g.top = some (.ambient t) := by rw [g1]; exact h.top
    have p4 : ∀ k, (stepNU cfg s).2.G.g.bottom = some k → k.tAmb ≤ b := by rw [g1]; exact h.bottom
    have p5 : (stepNU cfg s).2.G.cells = s.G.cells := by rw [g1]; rfl
    have hemp := empty_le h.powers
    rw [hsame.type, hsame.slotLength, h.time] at c2
    rcases c1 with ⟨c, e⟩ | ⟨c, hz, hem, e1, e2, e3⟩ | ⟨c, hem, e2, e3, e4, e5, e6⟩
    · rcases c2 with ⟨-, e'⟩ | ⟨c', -⟩ | ⟨c', -⟩
      · rw [e, e']; exact h
      · exact absurd c' c
      · exact absurd c' c
    · have hE : ¬ ∀ e ∈ elements s, e.powers ≠ [] := by obtain ⟨e, he, h0⟩ := hem; exact fun hh => hh e he h0
      rcases c2 with ⟨c', -⟩ | ⟨-, -, -, e1', e2', e3'⟩ | ⟨-, hh, -⟩
      · exact absurd c c'
      · refine ⟨v1, v2, p1, p2, p3, h.amb, p4, hsg, by rw [e2, e2'], ?_, ?_, ?_⟩
        · rw [p5, e1, e1']; exact h.temps
        · rw [e3, e3']; exact popFront_le h.powers
        · intro hm; rw [e2] at hm; exact absurd hz hm
      · exact absurd (hemp.mpr (hh hz)) hE
    · rcases c2 with ⟨c', -⟩ | ⟨-, hz, ⟨e, he, h0⟩, -⟩ | ⟨-, -, e2', e3', e4', e5', e6'⟩
      · exact absurd c c'
      · exact absurd h0 (hemp.mp (hem hz) e he)
      · have hsrc : ∀ i, i < s.G.cells.length → (stepNU cfg s).2.sources.getD i 0 ≤ (stepNU cfg' s').2.sources.getD i 0 := by
          by_cases hz : s.time % cfg.an.slotLength = 0
          · obtain ⟨q1, r1⟩ := e5 hz
            obtain ⟨q2, r2⟩ := e5' hz
            obtain ⟨fl, nn, hG, hbare, hnn⟩ := h.same
            have hv' := h.valid'.grid
            have hpw : List.Forall₂ ElLe (elsOf s.G.flps) (elsOf fl) := by
              have := h.powers
              unfold elements at this
              rw [hG] at this
              exact this
            rw [hG] at hv' r2
            exact sources_le h.valid.grid h.phys h.full h.top h.amb h.bottom hv' hbare hpw r1 r2
          · rw [e4 hz, e4' hz]; exact h.src hz
        refine ⟨v1, v2, p1, p2, p3, h.amb, p4, hsg, by rw [e2, e2'], ?_, ?_, ?_⟩
        · rw [p5]
          have hat : cfg.an.ana.transient = true := by simp [Emu.Analysis.ana, c]
          have hasm : Assembled id s.G cfg.an.ana s.mat := ⟨s.conns, h.valid.conns, h.valid.mat⟩
          have hana : cfg'.an.ana = cfg.an.ana := by simp only [Emu.Analysis.ana, hsame.type, hsame.stepTime]
          have hasm' : Assembled id s.G cfg.an.ana s'.mat := by
            have hx : Assembled id s'.G cfg'.an.ana s'.mat := ⟨s'.conns, h.valid'.conns, h.valid'.mat⟩
            obtain ⟨fl, nn, hG, -, hnn⟩ := h.same
            rw [hG, hana] at hx
            exact assembled_withAmb hnn hx
          have hmat := C44_schedule_independent hasm' hasm
          rw [hmat, hana, h.same.cells] at e6'
          have hcap : ∀ i : Nat, (s.G.cells[i]?).elim 0 (capacityNU s'.G.g s'.G.d) = (s.G.cells[i]?).elim 0 (capacityNU s.G.g s.G.d) := by
            intro i
            obtain ⟨fl, nn, hG, -, hnn⟩ := h.same
            rw [hG]
            cases s.G.cells[i]? with
            | none => rfl
            | some c => exact cap_withAmbNU _ _ _ _ _
          simp only [hcap] at e6'
          exact step_le h.valid.grid h.phys hasm hat hdt e6 e6' h.temps hsrc
        · rw [e3, e3']
          split_ifs
          · exact popFront_le h.powers
          · exact h.powers
        · intro _; rw [p5]; exact hsrc
  | @insert vs vs' hvs =>
    obtain ⟨f1, q1, q2, q3⟩ := insert_spec h.valid vs
    obtain ⟨f2, r1, r2, r3⟩ := insert_spec h.valid' vs'
    have v1 := valid_exec h.valid (.insert vs)
    have v2 := valid_exec h.valid' (.insert vs')
    simp only [exec, q1] at v1 ⊢
    simp only [exec, r1] at v2 ⊢
    refine ⟨v1, v2, h.phys.flps f1, h.full, h.top, h.amb, h.bottom, h.same.flps q2 r2, h.time, h.temps, ?_, h.src⟩
    show List.Forall₂ ElLe (elsOf f1) (elsOf f2)
    rw [q3, r3]
    exact pushFront_le h.powers hvs
  | reset =>
    refine ⟨valid_exec h.valid .reset, valid_exec h.valid' .reset, h.phys, h.full, h.top, h.amb, h.bottom, h.same, h.time, ?_, h.powers, h.src⟩
    intro i hi
    have hi : i < s.G.cells.length := hi
    have n1 : i < s.G.nCells := (C54_cells_fit_arrays h.valid.grid).1 ▸ hi
    have n2 : i < s'.G.nCells := by obtain ⟨fl, nn, hG, -, hnn⟩ := h.same; rw [hG]; exact n1
    show (List.replicate s.G.nCells cfg.an.initTemp).getD i 0 ≤ (List.replicate s'.G.nCells cfg'.an.initTemp).getD i 0
    rw [List.getD_eq_getElem?_getD, List.getElem?_replicate_of_lt n1, List.getD_eq_getElem?_getD, List.getElem?_replicate_of_lt n2]
    exact hsame.initTemp

/-! ## Theorems -/

/-- **C74 (monotone)** Two simulations of the same stack without coolant on a non-uniform grid, the second with temperatures, powers (in the files and inserted) and
ambient temperatures that are nowhere lower: as long as no solver fails, its temperatures stay nowhere lower, with any correct solvers and any schedules of the
threads that built the two matrices. -/
theorem C74_monotone {cfg : NCfg K π} {cfg' : NCfg K ρ} (hsame : SameAnalysis cfg cfg') {s : NSim K π} {s' : NSim K ρ}
    (h : ReachableNU cfg d0 none rs ns s) (h' : ReachableNU cfg' d1 none rs' ns' s') (htime : s'.time = s.time) (hb : cfg.an.slotLength ∣ s.time)
    (hc : CorrectNU cfg) (hc' : CorrectNU cfg') (hdt : 0 < cfg.an.stepTime) (ph : PhysicalNU s.G) (hfull : Full s.G) {t : Sink K}
    (ht : s.G.g.top = some (.ambient t)) {a b : K} (hamb : t.tAmb ≤ a) (hbot : ∀ k, s.G.g.bottom = some k → k.tAmb ≤ b) (hG : SameGrid a b s.G s'.G)
    (hT : ∀ i, i < s.G.cells.length → s.temps.getD i 0 ≤ s'.temps.getD i 0) (hpow : List.Forall₂ (List.Forall₂ (· ≤ ·)) (traces s) (traces s'))
    (ops ops' : List (NOp K)) (ho : List.Forall₂ OpLe ops ops') (hne : .solverError ∉ (run cfg ops s).1) (hne' : .solverError ∉ (run cfg' ops' s').1) :
    ∀ i, i < s.G.cells.length → (run cfg ops s).2.temps.getD i 0 ≤ (run cfg' ops' s').2.temps.getD i 0 := by
  have h0 : Cmp cfg cfg' d0 d1 rs rs' ns ns' t a b s s' := by
    refine ⟨reachable_valid h, reachable_valid h', ph, hfull, ht, hamb, hbot, hG, htime, hT, ?_, fun hn => absurd (Nat.dvd_iff_mod_eq_zero.mp hb) hn⟩
    unfold traces at hpow
    rw [List.forall₂_map_left_iff, List.forall₂_map_right_iff] at hpow
    exact hpow
  have key : ∀ (ops ops' : List (NOp K)), List.Forall₂ OpLe ops ops' → ∀ (x : NSim K π) (x' : NSim K ρ), Cmp cfg cfg' d0 d1 rs rs' ns ns' t a b x x' →
      x.G.cells = s.G.cells → .solverError ∉ (run cfg ops x).1 → .solverError ∉ (run cfg' ops' x').1 →
      Cmp cfg cfg' d0 d1 rs rs' ns ns' t a b (run cfg ops x).2 (run cfg' ops' x').2 ∧ (run cfg ops x).2.G.cells = s.G.cells := by
    intro ops ops' ho
    induction ho with
    | nil => intro x x' h e _ _; exact ⟨h, e⟩
    | @cons o o' os os' hx _ ih =>
      intro x x' h e hne hne'
      rw [run] at hne ⊢
      rw [run] at hne' ⊢
      simp only [List.mem_append, not_or] at hne hne'
      refine ih _ _ (cmp_exec hsame h hc hc' hdt hx hne.1 hne'.1) ?_ hne.2 hne'.2
      rw [← e]
      cases o with
      | step =>
        obtain ⟨-, -, ⟨fl, -, e1⟩, -⟩ := step_spec (cfg := cfg) h.valid
        show (stepNU cfg x).2.G.cells = _
        rw [e1]; rfl
      | insert vs =>
        obtain ⟨fl, e1, -⟩ := insert_spec h.valid vs
        simp only [exec, e1]; rfl
      | reset => rfl
  obtain ⟨k1, k2⟩ := key ops ops' ho s s' h0 rfl hne hne'
  intro i hi
  exact k1.temps i (by rw [k2]; exact hi)

/-! ## The steady state -/

theorem no_channel (hf : FromStack d0 none rs ns G) : ∀ ch, G.g.channel ≠ some ch := by
  obtain ⟨p, hb, he, -⟩ := hf.spec
  obtain ⟨p0, g, fl, h1, h2, h3, -⟩ := hf.parsed
  have hno := FromFile.noChannel (G := { G with flps := fl }) ⟨p0, g, h1, h2, h3⟩
  have hg := hb.fill
  unfold fillGrid at hg
  simp only [Option.bind_eq_some_iff, Option.map_eq_some_iff] at hg
  obtain ⟨ts1, -, ts2, -, hgg⟩ := hg
  have hc : p.elems.foldl writeChannel none = G.g.channel := congrArg TGrid.channel hgg
  have key : ∀ es : List (SElem K (List (FEl K))), (∀ e ∈ es, isChannel e = false) → es.foldl writeChannel (none : Option (Channel K)) = none := by
    intro es
    induction es with
    | nil => intro _; rfl
    | cons e es ih =>
      intro h
      rw [List.foldl_cons]
      have : writeChannel none e = none := by
        have := h e (by simp)
        unfold isChannel at this
        unfold writeChannel
        cases hb : e.body <;> simp_all
      rw [this]
      exact ih fun e he => h e (by simp [he])
  intro ch hch
  rw [← hc, ← he, key _ (by
    intro e hx
    obtain ⟨n, hn, rfl⟩ := List.mem_map.mp hx
    exact hno n hn)] at hch
  cases hch

/-- **C74 (steady state, lower bound)** Without coolant, with powers that are not negative and without holes: no cell of the steady state is colder than the ambient
over the top sink. -/
theorem C74_steady_never_below {cfg : NCfg K π} {s : NSim K π} (h : ReachableNU cfg d0 none rs ns s) (hc : CorrectNU cfg) (hty : cfg.an.type = .steady)
    (fit : ChipFits s.G.d) (hsh : Sharp s.G) (hh : NoHoles s.G ns) (ph : PhysicalNU s.G) (hfull : Full s.G) {t : Sink K}
    (ht : s.G.g.top = some (.ambient t)) (hbot : ∀ b, s.G.g.bottom = some b → 0 ≤ b.tAmb) (hp : ∀ e ∈ elements s, e.powers ≠ [])
    (hpow : ∀ tr ∈ traces s, ∀ v ∈ tr, 0 ≤ v) (hs : (steadyNU cfg s).1 = .endOfSimulation) : ∀ i, i < s.G.cells.length → t.tAmb ≤ (steadyNU cfg s).2.temps.getD i 0 := by
  have hv := reachable_valid h
  have hat : cfg.an.ana.transient = false := by simp [Emu.Analysis.ana, hty]
  have hasm : Assembled id s.G cfg.an.ana s.mat := ⟨s.conns, hv.conns, hv.mat⟩
  obtain ⟨⟨S, fl, e1, -, e3⟩, -⟩ := C60_steady h ht hty hp hs hc
  intro i hi
  refine sub_nonneg.mp (solid_steady hv.grid ph fit hsh hh hasm hat ht (fun ch hch => absurd hch (no_channel hv.grid ch))
    (x := fun i => (steadyNU cfg s).2.temps.getD i 0 - t.tAmb) (b := fun i => S.getD i 0 - t.tAmb * (s.G.cells[i]?).elim 0 (toAmbient s.G)) ?_ ?_ i hi)
  · intro i hi
    have e := e3 i hi
    have hr := solid_row hv.grid ph hasm i hi
    rw [show storage cfg.an.ana (heatCapacity s.G s.G.cells[i]) = 0 by unfold storage; rw [hat]; rfl, zero_add] at hr
    beta_reduce at e ⊢
    simp only [mul_sub, Finset.sum_sub_distrib, ← Finset.sum_mul]
    rw [e, hr, List.getElem?_eq_getElem hi]
    simp only [Option.elim_some]
    ring
  · intro i hi
    have hb : Bnd { cfg with an := { cfg.an with slotLength := 1 } } d0 rs ns t 1 t.tAmb
        { s with temps := List.replicate s.G.cells.length t.tAmb } := by
      refine ⟨⟨hv.grid, hv.conns, hv.mat, hv.caps, hv.time⟩, ph, hfull, ht, by simp, ?_, ?_, ?_, ?_⟩
      · intro b hb; rw [one_mul]; exact hbot b hb
      · intro i hi
        have hi : i < s.G.cells.length := hi
        show 0 ≤ 1 * ((List.replicate s.G.cells.length t.tAmb).getD i 0 - t.tAmb)
        rw [List.getD_eq_getElem?_getD, List.getElem?_replicate_of_lt hi]; simp
      · intro e he v hv; rw [one_mul]; exact hpow e.powers (List.mem_map.mpr ⟨e, he, rfl⟩) v hv
      · intro hn
        exact absurd (Nat.mod_one _) hn
    have := hb.fresh e1 i hi
    rw [one_mul] at this
    simp only [List.getElem?_eq_getElem hi, Option.elim_some]
    exact this

/-- **C74 (steady state, monotone)** Higher next powers and ambient temperatures give a steady state that is nowhere colder. -/
theorem C74_steady_monotone {cfg : NCfg K π} {cfg' : NCfg K ρ} {s : NSim K π} {s' : NSim K ρ} (h : ReachableNU cfg d0 none rs ns s)
    (h' : ReachableNU cfg' d1 none rs' ns' s') (hc : CorrectNU cfg) (hc' : CorrectNU cfg') (hty : cfg.an.type = .steady) (hty' : cfg'.an.type = .steady)
    (fit : ChipFits s.G.d) (hsh : Sharp s.G) (hh : NoHoles s.G ns) (ph : PhysicalNU s.G) (hfull : Full s.G) {t : Sink K}
    (ht : s.G.g.top = some (.ambient t)) {a b : K} (hamb : t.tAmb ≤ a) (hbot : ∀ k, s.G.g.bottom = some k → k.tAmb ≤ b) (hG : SameGrid a b s.G s'.G)
    (hp : ∀ e ∈ elements s, e.powers ≠ []) (hpow : List.Forall₂ (List.Forall₂ (· ≤ ·)) (traces s) (traces s'))
    (hs : (steadyNU cfg s).1 = .endOfSimulation) (hs' : (steadyNU cfg' s').1 = .endOfSimulation) :
    ∀ i, i < s.G.cells.length → (steadyNU cfg s).2.temps.getD i 0 ≤ (steadyNU cfg' s').2.temps.getD i 0 := by
  have hv := reachable_valid h
  have hv' := reachable_valid h'
  have hat : cfg.an.ana.transient = false := by simp [Emu.Analysis.ana, hty]
  have hat' : cfg'.an.ana.transient = false := by simp [Emu.Analysis.ana, hty']
  have hasm : Assembled id s.G cfg.an.ana s.mat := ⟨s.conns, hv.conns, hv.mat⟩
  have hpw : List.Forall₂ ElLe (elements s) (elements s') := by
    unfold traces at hpow
    rw [List.forall₂_map_left_iff, List.forall₂_map_right_iff] at hpow
    exact hpow
  obtain ⟨⟨S, f1, e1, -, e3⟩, -⟩ := C60_steady h ht hty hp hs hc
  obtain ⟨⟨S', f2, e1', -, e3'⟩, -⟩ := C60_steady h' (hG.top ht) hty' ((empty_le hpw).mp hp) hs' hc'
  rw [hG.cells] at e3'
  have hrow : ∀ i j, i < s.G.cells.length → j < s.G.cells.length → s'.mat.entry i j = s.mat.entry i j := by
    intro i j hi hj
    have hx : Assembled id s'.G cfg'.an.ana s'.mat := ⟨s'.conns, hv'.conns, hv'.mat⟩
    obtain ⟨fl, nn, hGG, -, hnn⟩ := hG
    rw [hGG] at hx
    have hx := assembled_withAmb hnn hx
    have hana : fillMatrixNU id s.G.g cfg'.an.ana s.G.d s.G.ls.flatten = fillMatrixNU id s.G.g cfg.an.ana s.G.d s.G.ls.flatten := by
      funext L
      unfold fillMatrixNU triplets diagBase storage
      rw [hat, hat']
      rfl
    have hx' : Assembled id s.G cfg.an.ana s'.mat := by
      obtain ⟨L, q1, q2⟩ := hx
      exact ⟨L, q1, by rw [q2, hana]⟩
    rw [C44_schedule_independent hx' hasm]
  have e3'' : Solves s.G.cells.length s.mat.entry (fun i => (steadyNU cfg' s').2.temps.getD i 0) fun i => S'.getD i 0 := by
    intro i hi
    rw [← e3' i hi]
    exact Finset.sum_congr rfl fun j hj => by rw [hrow i j hi (Finset.mem_range.mp hj)]
  intro i hi
  refine sub_nonneg.mp (solid_steady hv.grid ph fit hsh hh hasm hat ht (fun ch hch => absurd hch (no_channel hv.grid ch))
    (x := fun i => (steadyNU cfg' s').2.temps.getD i 0 - (steadyNU cfg s).2.temps.getD i 0) (b := fun i => S'.getD i 0 - S.getD i 0) ?_ ?_ i hi)
  · intro i hi
    have e := e3 i hi
    have e' := e3'' i hi
    beta_reduce at e e' ⊢
    simp only [mul_sub, Finset.sum_sub_distrib]
    rw [e, e']
  · intro i hi
    obtain ⟨fl, nn, hGG, hbare, hnn⟩ := hG
    have hg := hv'.grid
    have hpe : List.Forall₂ ElLe (elsOf s.G.flps) (elsOf fl) := by
      unfold elements at hpw
      rw [hGG] at hpw
      exact hpw
    rw [hGG] at hg e1'
    exact sub_nonneg.mpr (sources_le hv.grid ph hfull ht hamb hbot hg hbare hpe e1 e1' i hi)

end Verif.NU
