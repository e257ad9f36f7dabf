import Verif.Props.NonUniformSame
import Verif.Props.Sources

set_option linter.unusedSectionVars false
set_option linter.unusedSimpArgs false
set_option linter.unusedVariables false

/-! # C56, second part: the sources of a non-uniform grid with the cells of the uniform one -/

namespace Verif.NU
open Verif.Dim Verif.TG Verif.Stk Verif.SM

variable {K : Type} [Field K] [LinearOrder K] [IsStrictOrderedRing K]
variable {d0 : Dims K} {rs : List (Raw K (List (FEl K)))} {ns : List (NElem K)} {G : Grid K} {a : Ana K} {m : Csc K}

/-! ## Specification -/

/-- The two programs have the same floorplans: in every layer the elements have the same rectangles, in the same order, and the same
next power value. -/
structure SameFloorplans (G : Grid K) (raws : Nat → List (Flp.RawEl K)) (els : Nat → List (Flp.FlpEl K)) : Prop where
  same : ∀ (l : Nat) es, G.flps[l]? = some (some es) →
    List.Forall₂ (fun e p => p.1.rects = [e.rect] ∧ Flp.next p.2 = nextPower e) es ((raws l).zip (els l))
  empty : ∀ l, (∀ es, G.flps[l]? ≠ some (some es)) → raws l = []

/-- The elements of a layer are rectangles with positive sides and do not overlap. -/
def GoodFloorplans (G : Grid K) : Prop :=
  ∀ (l : Nat) es, G.flps[l]? = some (some es) → NoOverlap es ∧ ∀ e ∈ es, 0 < e.rect.length ∧ 0 < e.rect.width

/-! ## Proofs -/

theorem common_zero {a b c d : K} (h : ¬ (max a c < min b d)) : Flp.common a b c d = 0 := by
  unfold Flp.common
  rw [max_eq_left]; linarith [not_lt.mp h]

theorem common_inside {a b c d : K} (h1 : a ≤ c) (h2 : c < d) (h3 : d ≤ b) : Flp.common a b c d = d - c := by
  unfold Flp.common
  rw [max_eq_right h1, min_eq_right h3, max_eq_right (by linarith)]

/-- The share of an element in one of its own parts. -/
theorem share_own {l r c : Nat} {q : Cell K} {e : FEl K} {s : Nat} (hq : IsCell G l r c q) (h1 : 0 < e.rect.length) (h2 : 0 < e.rect.width)
    (hs : s < e.dx * e.dy) (hin : InPart e.rect e.dx e.dy s q) :
    Flp.share G.d [e.rect] r c = 1 / ((e.dx * e.dy : Nat) : K) := by
  obtain ⟨i1, i2, i3, i4, i5, i6⟩ := inPart_inside h1 h2 hs hin
  obtain ⟨p1, p2, p3, p4⟩ := hin
  have hx : 0 < e.dx := by rcases Nat.eq_zero_or_pos e.dx with h | h; · rw [h] at hs; simp at hs
                           · exact h
  have hy : 0 < e.dy := by rcases Nat.eq_zero_or_pos e.dy with h | h; · rw [h] at hs; simp at hs
                           · exact h
  have hx' : (0 : K) < e.dx := by exact_mod_cast hx
  have hy' : (0 : K) < e.dy := by exact_mod_cast hy
  unfold Flp.share Flp.overlapArea Flp.rectArea
  simp only [List.map_cons, List.map_nil, List.sum_cons, List.sum_nil, add_zero]
  rw [← hq.x1, ← hq.y1, ← hq.x0, ← hq.y0, common_inside i1 i2 i3, common_inside i4 i5 i6, p1, p2, p3, p4]
  push_cast
  field_simp
  ring

/-- Rectangles that do not overlap have no share in the parts of each other. -/
theorem share_other {l r c : Nat} {q : Cell K} {e e' : FEl K} {s : Nat} (hq : IsCell G l r c q) (h1 : 0 < e.rect.length) (h2 : 0 < e.rect.width)
    (hs : s < e.dx * e.dy) (hin : InPart e.rect e.dx e.dy s q)
    (hno : ∀ x y, ¬ (inRect x y e.rect = true ∧ inRect x y e'.rect = true)) : Flp.share G.d [e'.rect] r c = 0 := by
  obtain ⟨i1, i2, i3, i4, i5, i6⟩ := inPart_inside h1 h2 hs hin
  unfold Flp.share Flp.overlapArea
  simp only [List.map_cons, List.map_nil, List.sum_cons, List.sum_nil, add_zero]
  rw [← hq.x1, ← hq.y1, ← hq.x0, ← hq.y0]
  by_cases hx : max e'.rect.x q.x0 < min (e'.rect.x + e'.rect.length) q.x1
  · by_cases hy : max e'.rect.y q.y0 < min (e'.rect.y + e'.rect.width) q.y1
    · exfalso
      apply hno (max e'.rect.x q.x0) (max e'.rect.y q.y0)
      rw [lt_min_iff] at hx hy
      have a1 := le_max_left e'.rect.x q.x0
      have a2 := le_max_right e'.rect.x q.x0
      have a3 := le_max_left e'.rect.y q.y0
      have a4 := le_max_right e'.rect.y q.y0
      unfold inRect
      rw [decide_eq_true_eq, decide_eq_true_eq]
      exact ⟨⟨i1.trans a2, hx.2.trans_le i3, i4.trans a4, hy.2.trans_le i6⟩, a1, hx.1, a3, hy.1⟩
    · rw [common_zero hy]; simp
  · rw [common_zero hx]; simp

theorem noOverlap_split {A B : List (FEl K)} {e e' : FEl K} (h : NoOverlap (A ++ e :: B)) (he : e' ∈ A ∨ e' ∈ B) (x y : K) :
    ¬ (inRect x y e.rect = true ∧ inRect x y e'.rect = true) := by
  rintro ⟨h1, h2⟩
  have := h x y
  rw [List.map_append, List.map_cons, List.countP_append, List.countP_cons_of_pos h1] at this
  rcases he with he | he
  · have : 0 < (A.map (·.rect)).countP (inRect x y) := List.countP_pos_iff.mpr ⟨_, List.mem_map_of_mem he, h2⟩
    omega
  · have : 0 < (B.map (·.rect)).countP (inRect x y) := List.countP_pos_iff.mpr ⟨_, List.mem_map_of_mem he, h2⟩
    omega

theorem zip_sum (d : Dims K) {es : List (FEl K)} {zs : List (Flp.RawEl K × Flp.FlpEl K)} {r c : Nat}
    (h : List.Forall₂ (fun e p => p.1.rects = [e.rect] ∧ Flp.next p.2 = nextPower e) es zs) :
    (zs.map fun p => Flp.next p.2 * Flp.share d p.1.rects r c).sum = (es.map fun e => nextPower e * Flp.share d [e.rect] r c).sum := by
  induction h with
  | nil => rfl
  | cons h _ ih => rw [List.map_cons, List.map_cons, List.sum_cons, List.sum_cons, ih, h.1, h.2]

theorem sum_zero {es : List (FEl K)} {f : FEl K → K} (h : ∀ e ∈ es, f e = 0) : (es.map f).sum = 0 := by
  induction es with
  | nil => rfl
  | cons e es ih => rw [List.map_cons, List.sum_cons, h e List.mem_cons_self, ih fun x hx => h x (List.mem_cons_of_mem _ hx), add_zero]

section
variable {L R C : Nat → Nat} (hf : FromFile d0 rs ns G) (ph : PhysicalNU G) (hc : SameCells G L R C)
  {sk : Sink K} (ht : G.g.top = some (.ambient sk))
include hf ph hc ht

/-- The heat the sinks give to a cell in the two programs: the conductance to the bottom ambient differs. -/
theorem both_sinks (hpb : ∀ b, G.g.bottom = some b → 0 < b.htc) {l r c : Nat} {p : Cell K} (hl : l < G.d.nLayers) (hr : r < G.d.nRows)
    (hcc : c < G.d.nCols) (hpm : p ∈ G.cells) (hp : IsCell G l r c p) :
    fromSinks G p = Emu.sinkTerm G.g G.d l r c +
      (match G.g.bottom with
        | some b => if p.layer = 0 then b.tAmb * (toBottomFace G p - toBottom G p) else 0
        | none => 0) := by
  have h := (same_ambient hf ph hc ht hpb hl hr hcc hpm hp).1
  have hlay := hp.layer
  unfold fromSinks Emu.sinkTerm
  rw [ht]
  unfold ambientTerm at h
  unfold Emu.topAmb Emu.botAmb
  rw [ht]
  have hz : p.layer + 1 ≠ G.d.nLayers → toAmbient G p = 0 := by
    intro h; unfold toAmbient; rw [ht]; simp only; rw [if_neg h]
  rcases type_cases hf ht hl with ⟨h1, h0, e⟩ | ⟨h1, h0, hsome, e⟩ | ⟨h1, h0, e⟩
  · have e0 : (match typeAt G.g l with
      | .solidAmb | .sourceAmb => gTop G.g G.d l r c
      | .solidPcb | .sourcePcb => gBottom G.g G.d l r c
      | _ => 0) = 0 := by rcases e with e | e <;> rw [e]
    have za := hz (by rw [hlay]; omega)
    cases hb : G.g.bottom with
    | none => rcases e with e | e <;> rw [e, za] <;> simp
    | some b =>
      have : ¬ p.layer = 0 := by rw [hlay]; intro h; rw [h0 h] at hb; cases hb
      rcases e with e | e <;> rw [e, za] <;> simp [this]
  · obtain ⟨b, hb⟩ := Option.isSome_iff_exists.mp hsome
    have za := hz (by rw [hlay]; omega)
    rw [za, zero_add] at h
    have hp0 : p.layer = 0 := by rw [hlay]; exact h0
    rw [hb]
    rcases e with e | e <;> rw [e] at h ⊢ <;> simp only at h ⊢ <;> rw [za, h, if_pos hp0, if_pos hp0] <;> simp only [Option.map_some, Option.getD_some] <;> ring
  · have zb : toBottom G p = 0 := by
      unfold toBottom
      cases e : G.g.bottom with
      | none => rfl
      | some b =>
        simp only; rw [if_neg]
        rw [hlay]; intro h; rw [h0 h] at e; cases e
    rw [zb, add_zero] at h
    cases hb : G.g.bottom with
    | none => rcases e with e | e <;> rw [e] at h ⊢ <;> simp only at h ⊢ <;> rw [h]
    | some b =>
      have : ¬ p.layer = 0 := by rw [hlay]; intro h; rw [h0 h] at hb; cases hb
      rcases e with e | e <;> rw [e] at h ⊢ <;> simp only at h ⊢ <;> rw [h, if_neg this, if_neg this]

theorem same_sink (hb : G.g.bottom = none) {l r c : Nat} {p : Cell K} (hl : l < G.d.nLayers) (hr : r < G.d.nRows) (hcc : c < G.d.nCols)
    (hpm : p ∈ G.cells) (hp : IsCell G l r c p) : fromSinks G p = Emu.sinkTerm G.g G.d l r c := by
  rw [both_sinks hf ph hc ht (fun b h => by rw [hb] at h; cases h) hl hr hcc hpm hp, hb, add_zero]

/-- The power of a cell in the two programs. -/
theorem same_power (hfull : Full G) (hgf : GoodFloorplans G) {raws : Nat → List (Flp.RawEl K)} {els : Nat → List (Flp.FlpEl K)}
    (hsf : SameFloorplans G raws els) {S : List K} {fl' : List (Option (List (FEl K)))} (h : sourcesNU G.g G.d G.cells G.flps = some (S, fl'))
    {i : Nat} (hi : i < G.cells.length) :
    S[i]? = some (fromSinks G G.cells[i] + Flp.powerIn G.d (raws (L i)) (els (L i)) (R i) (C i)) := by
  obtain ⟨hl, hr, hcc, hq⟩ := hc.is i _ (List.getElem?_eq_getElem hi)
  obtain ⟨-, h1, h2⟩ := C53_power_of_each_cell hf ph hfull h
  have hmem := List.getElem_mem hi
  by_cases hes : ∃ es, G.flps[L i]? = some (some es)
  · obtain ⟨es, hes⟩ := hes
    obtain ⟨lc, hlc, hlen, hget⟩ := floorplan_cells hf.stack hes
    have hloc := locate hf.stack (List.getElem?_eq_getElem hi) (lc := lc) (by rw [hq.layer]; exact hlc)
    rw [hq.layer, hlen] at hloc
    obtain ⟨s, hs⟩ := Nat.exists_eq_add_of_le hloc.1
    obtain ⟨A, e, B, s', e1, e2, e3⟩ := cellsOf_locate es (s := s) (by omega)
    obtain ⟨c', c1, c2, c3, c4⟩ := h1 _ es hes A e B e1 s' e3
    have hidx : firstCell G (L i) + cellsOf A + s' = i := by omega
    rw [hidx] at c1 c4
    rw [List.getElem?_eq_getElem hi, Option.some.injEq] at c1
    rw [← c1] at c3 c4
    rw [c4]
    congr 2
    obtain ⟨hno, hpos⟩ := hgf _ es hes
    have hpe := hpos e (by rw [e1]; simp)
    unfold Flp.powerIn
    rw [zip_sum G.d (hsf.same _ es hes), e1, List.map_append, List.map_cons, List.sum_append, List.sum_cons]
    have hz : ∀ e', e' ∈ A ∨ e' ∈ B → nextPower e' * Flp.share G.d [e'.rect] (R i) (C i) = 0 := by
      intro e' he'
      rw [share_other hq hpe.1 hpe.2 e3 c3 (noOverlap_split (by rw [← e1]; exact hno) he'), mul_zero]
    rw [sum_zero fun e' he' => hz e' (Or.inl he'), sum_zero fun e' he' => hz e' (Or.inr he'), share_own hq hpe.1 hpe.2 e3 c3, zero_add, add_zero, mul_one_div]
  · have hne : ∀ es, G.flps[L i]? ≠ some (some es) := fun es he => hes ⟨es, he⟩
    rw [h2 i _ (List.getElem?_eq_getElem hi) (by rw [hq.layer]; exact hne) (by rw [hq.layer]; exact hl), hsf.empty _ hne]
    simp [Flp.powerIn]

/-- If the cells of the non-uniform grid are those of the uniform grid, in any order, and the floorplans and the next power values are
the same, then during a slot the simulation in uniform mode has the sources that the program computes in non-uniform mode, but for the
bottom sink: its ambient temperature is multiplied by `toBottomFace`, which leaves out the heat transfer coefficient, in place of the
conductance to the ambient. Stacks of dies and layers with a conventional top sink. -/
theorem C56_sources {π : Type} (hpb : ∀ b, G.g.bottom = some b → 0 < b.htc) (hfull : Full G) (hgf : GoodFloorplans G) {cfg : Emu.Cfg K π}
    {s : Emu.Sim K π} (hd : cfg.d = G.d) (hg : s.g = G.g)
    (hr : Emu.Reachable cfg s) (hsl : cfg.an.slotLength ∣ s.time) {raws : Nat → List (Flp.RawEl K)} (hrf : Emu.ReadFrom cfg.d raws s)
    (hsf : SameFloorplans G raws (Emu.floorplan s)) {S : List K} {fl' : List (Option (List (FEl K)))}
    (h : sourcesNU G.g G.d G.cells G.flps = some (S, fl'))
    (k : Nat) (hk1 : 1 ≤ k) (hk : k ≤ cfg.an.slotLength) (hW : s.time + k < 2 ^ 32) (hok : ∀ r ∈ (Emu.steps cfg k s).1, Emu.Succeeded r)
    {i : Nat} {q : Cell K} (hq : G.cells[i]? = some q) :
    S[i]? = some (Emu.sourceAt cfg.d (Emu.steps cfg k s).2 (L i) (R i) (C i) +
      (match G.g.bottom with
        | some b => if q.layer = 0 then b.tAmb * (toBottomFace G q - toBottom G q) else 0
        | none => 0)) := by
  obtain ⟨hi, rfl⟩ := List.getElem?_eq_some_iff.mp hq
  obtain ⟨h1, h2, h3, h4⟩ := hc.is i _ (List.getElem?_eq_getElem hi)
  rw [Emu.C42_sources_of_the_slot hr hsl hrf k hk1 hk hW hok (by rw [hd]; exact h1) (by rw [hd]; exact h2) (by rw [hd]; exact h3),
    same_power hf ph hc ht hfull hgf hsf h hi, both_sinks hf ph hc ht hpb h1 h2 h3 (List.getElem_mem hi) h4]
  have h0 : Emu.inletTerm s.g cfg.d (L i) (R i) (C i) = 0 := by
    unfold Emu.inletTerm
    rw [if_neg]
    rw [hg]
    exact fun h => not_coolant hf ph hc ht h1 h.2
  rw [h0, hd, hg]
  congr 1; ring

/-- Without a bottom sink the sources are the same. -/
theorem C56_same_sources_partial {π : Type} (hb : G.g.bottom = none) (hfull : Full G) (hgf : GoodFloorplans G) {cfg : Emu.Cfg K π} {s : Emu.Sim K π}
    (hd : cfg.d = G.d) (hg : s.g = G.g)
    (hr : Emu.Reachable cfg s) (hsl : cfg.an.slotLength ∣ s.time) {raws : Nat → List (Flp.RawEl K)} (hrf : Emu.ReadFrom cfg.d raws s)
    (hsf : SameFloorplans G raws (Emu.floorplan s)) {S : List K} {fl' : List (Option (List (FEl K)))}
    (h : sourcesNU G.g G.d G.cells G.flps = some (S, fl'))
    (k : Nat) (hk1 : 1 ≤ k) (hk : k ≤ cfg.an.slotLength) (hW : s.time + k < 2 ^ 32) (hok : ∀ r ∈ (Emu.steps cfg k s).1, Emu.Succeeded r)
    {i : Nat} (hi : i < G.cells.length) :
    S[i]? = some (Emu.sourceAt cfg.d (Emu.steps cfg k s).2 (L i) (R i) (C i)) := by
  rw [C56_sources hf ph hc ht (fun b h => by rw [hb] at h; cases h) hfull hgf hd hg hr hsl hrf hsf h k hk1 hk hW hok (List.getElem?_eq_getElem hi), hb, add_zero]

end

end Verif.NU
