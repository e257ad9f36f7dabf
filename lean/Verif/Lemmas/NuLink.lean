import Verif.Lemmas.NuFlow

set_option linter.unusedSectionVars false
set_option linter.unusedSimpArgs false
set_option linter.unusedVariables false

/-! The pairs of connected cells of a non-uniform grid with channels. -/

namespace Verif.NU
open Verif.Dim Verif.TG Verif.Stk Verif.SM

variable {K : Type} [Field K] [LinearOrder K] [IsStrictOrderedRing K]
variable {d0 : Dims K} {decl : Option (Channel K)} {rs : List (Raw K (List (FEl K)))} {ns : List (NElem K)} {G : Grid K} {a : Ana K} {m : Csc K}

/-! ### Specification -/

/-- A channel of the 2RM or pin fin model that begins at the layer `o`: from below, lower surface (`o`), material between the channels
(`o + 1`), coolant (`o + 2`), upper surface (`o + 3`). -/
def TwoResistor (ns : List (NElem K)) (o : Nat) : Prop :=
  ∃ n ∈ ns, ∃ ch, n.elem.body = .channel ch ∧ ch.model ≠ .mc4rm ∧ o = n.elem.offset

/-- The layer `l` is in contact with the layer `l'` over it: the next one, except that in a 2RM or pin fin channel the coolant and the
material between the channels are side by side, so that both touch the lower surface and the upper one and not each other. -/
def Facing (ns : List (NElem K)) (l l' : Nat) : Prop :=
  (l + 1 = l' ∧ ¬ ∃ o, TwoResistor ns o ∧ l = o + 1) ∨ ∃ o, TwoResistor ns o ∧ ((l = o ∧ l' = o + 2) ∨ (l = o + 1 ∧ l' = o + 3))

/-! ### Proofs -/

section
variable (hf : FromStack d0 decl rs ns G)
include hf

/-- Record of the layers of an element. -/
theorem ty_elem {n : NElem K} (hn : n ∈ ns) {k : Nat} (hk : k < nLayersOf n.elem) :
    G.ty (n.elem.offset + k) = match n.elem.body with
      | .channel ch => (match ch.model with
        | .mc2rm => [1, 2, 2, 1].getD k 0 | .pfInline => [1, 3, 2, 1].getD k 0 | .pfStag => [1, 3, 2, 1].getD k 0 | _ => 0)
      | _ => 0 := by
  obtain ⟨-, -, h3⟩ := hf.layersAt hn hk
  rw [h3]
  unfold elemRecord
  cases hb : n.elem.body with
  | die b =>
    have e : (fixDiscr n).elem.body = .die { b with flp := b.flp.map (fixEl n) } := by rw [fixed_die hb]
    rw [e]; simp only
    rw [List.getD_eq_getElem?_getD, List.getElem?_replicate]; split_ifs <;> rfl
  | layer ly =>
    have e : fixDiscr n = n := by unfold fixDiscr; rw [hb]
    rw [e, hb]; simp only
    cases k <;> rfl
  | channel ch =>
    have e : fixDiscr n = n := by unfold fixDiscr; rw [hb]
    rw [e, hb]; simp only
    cases ch.model <;> simp only
    · rfl
    · cases k <;> rfl

/-- Over the layers. -/
theorem ty_top : G.ty G.d.nLayers = match G.g.top with | some (.pluggable _ _) => 4 | _ => 0 := by
  obtain ⟨p, -, -, -, -, -, -, hns⟩ := hf.spec
  have hlen : (G.ns.flatMap elemRecord).length = G.d.nLayers := by
    rw [hns, List.length_flatMap, ← hf.nLayers, stackLayers_length, List.map_map, List.map_map]
    congr 1
    refine List.map_congr_left fun n hn => ?_
    simp only [Function.comp]
    exact record_length (hf.elemOk hn)
  unfold Grid.ty recordOf
  rw [List.getD_eq_getElem?_getD, List.getElem?_append_right (by omega), hlen, Nat.sub_self]
  rcases hf.top with ⟨s, ht⟩ | ⟨s, mm, ht⟩ <;> rw [ht] <;> rfl

theorem twoResistor_types {o : Nat} (h : TwoResistor ns o) :
    o + 4 < G.d.nLayers ∧ G.ty o = 1 ∧ (G.ty (o + 1) = 2 ∨ G.ty (o + 1) = 3) ∧ G.ty (o + 2) = 2 ∧ G.ty (o + 3) = 1 := by
  obtain ⟨n, hn, ch, hb, hm, rfl⟩ := h
  obtain ⟨-, h2, -, h4, -⟩ := hf.channel hn hb
  have hL : nLayersOf n.elem = 4 := by
    unfold nLayersOf; rw [hb]; simp [chLayers, hm]
  have e0 := ty_elem hf hn (k := 0) (by omega)
  have e1 := ty_elem hf hn (k := 1) (by omega)
  have e2 := ty_elem hf hn (k := 2) (by omega)
  have e3 := ty_elem hf hn (k := 3) (by omega)
  have hc4 : chLayers ch = 4 := by unfold chLayers; rw [if_neg hm]
  rw [hb] at e0 e1 e2 e3
  rw [Nat.add_zero] at e0
  refine ⟨by omega, ?_⟩
  rw [e0, e1, e2, e3]
  simp only
  cases hmm : ch.model
  · exact absurd hmm h2
  · exact absurd hmm hm
  all_goals simp

/-- Where the program crosses the layers of a channel. -/
theorem crossing_iff {l : Nat} (hl : l ≤ G.d.nLayers) : crossing G.ty l ↔ ∃ o, TwoResistor ns o ∧ l = o + 2 := by
  constructor
  · intro h
    have h2 : G.ty l = 2 := by rcases h with h | h <;> exact h.2
    have h1 : G.ty (l - 1) = 2 ∨ G.ty (l - 1) = 3 := by rcases h with h | h <;> omega
    have hlt : l < G.d.nLayers := by
      by_contra hh
      have e : l = G.d.nLayers := by omega
      rw [e, ty_top hf] at h2
      rcases hf.top with ⟨s, ht⟩ | ⟨s, mm, ht⟩ <;> rw [ht] at h2 <;> simp at h2
    obtain ⟨n, hn, k, hk, rfl⟩ := hf.elemAt hlt
    have e := ty_elem hf hn hk
    rw [h2] at e
    cases hb : n.elem.body with
    | die b => rw [hb] at e; simp at e
    | layer b => rw [hb] at e; simp at e
    | channel ch =>
      obtain ⟨-, hmod, -⟩ := hf.channel hn hb
      rw [hb] at e
      have h4 : ch.model ≠ .mc4rm := by intro h; simp only [h] at e; omega
      have hT : TwoResistor ns n.elem.offset := ⟨n, hn, ch, hb, h4, rfl⟩
      obtain ⟨-, t0, t1, t2, t3⟩ := twoResistor_types hf hT
      have hk4 : k < 4 := by unfold nLayersOf at hk; rw [hb] at hk; simpa [chLayers, h4] using hk
      refine ⟨_, hT, ?_⟩
      have hkk : k = 0 ∨ k = 1 ∨ k = 2 ∨ k = 3 := by omega
      rcases hkk with rfl | rfl | rfl | rfl
      · rw [Nat.add_zero] at h2; omega
      · rw [Nat.add_sub_cancel] at h1; omega
      · rfl
      · omega
  · rintro ⟨o, hT, rfl⟩
    obtain ⟨-, t0, t1, t2, t3⟩ := twoResistor_types hf hT
    unfold crossing
    rw [show o + 2 - 1 = o + 1 by omega]
    omega

/-- The pairs of layers that the program compares. -/
theorem pairs_iff {l l' : Nat} (hl' : l' < G.d.nLayers ∨ (l' = G.d.nLayers ∧ ∃ s mm, G.g.top = some (.pluggable s mm))) :
    (l, l') ∈ allPairs G.d.nLayers G.ty ↔ Facing ns l l' := by
  have hle : l' ≤ G.d.nLayers := by rcases hl' with h | h <;> omega
  have hok : ¬ (l' = G.d.nLayers ∧ G.ty l' ≠ 4) := by
    rintro ⟨h1, h2⟩
    rcases hl' with h | ⟨-, s, mm, h⟩
    · omega
    · rw [h1, ty_top hf, h] at h2; exact h2 rfl
  unfold allPairs
  rw [List.mem_flatMap]
  constructor
  · rintro ⟨x, hx, hp⟩
    obtain ⟨h1, -⟩ := List.mem_filter.mp hx
    obtain ⟨h2, h3⟩ := List.mem_range'_1.mp h1
    have hxl : x ≤ G.d.nLayers := by omega
    unfold layerPairs at hp
    by_cases hc : crossing G.ty x
    · rw [if_pos hc] at hp
      obtain ⟨o, hT, rfl⟩ := (crossing_iff hf hxl).mp hc
      simp only [List.mem_cons, Prod.mk.injEq, List.not_mem_nil, or_false] at hp
      exact Or.inr ⟨o, hT, by omega⟩
    · rw [if_neg hc, List.mem_singleton, Prod.mk.injEq] at hp
      obtain ⟨rfl, rfl⟩ := hp
      refine Or.inl ⟨by omega, ?_⟩
      rintro ⟨o, hT, he⟩
      exact hc ((crossing_iff hf hxl).mpr ⟨o, hT, by omega⟩)
  · rintro (⟨rfl, hno⟩ | ⟨o, hT, h⟩)
    · refine ⟨l + 1, List.mem_filter.mpr ⟨List.mem_range'_1.mpr (by omega), decide_eq_true_eq.mpr hok⟩, ?_⟩
      unfold layerPairs
      rw [if_neg, List.mem_singleton]
      · rfl
      · intro hc
        obtain ⟨o, hT, he⟩ := (crossing_iff hf hle).mp hc
        exact hno ⟨o, hT, by omega⟩
    · obtain ⟨hlt, -⟩ := twoResistor_types hf hT
      refine ⟨o + 2, List.mem_filter.mpr ⟨List.mem_range'_1.mpr (by omega), decide_eq_true_eq.mpr (by omega)⟩, ?_⟩
      unfold layerPairs
      rw [if_pos ((crossing_iff hf (by omega)).mpr ⟨o, hT, rfl⟩)]
      simp only [List.mem_cons, Prod.mk.injEq, List.not_mem_nil, or_false]
      omega

/-- The connections of the program, pair by pair. -/
theorem joined {L : List (Conn K)} (hr : Runs (regions G.d.nLayers G.ty G.ls) L) (ph : PhysicalNU G)
    (hs : Sharp G) {i j : Nat} (hij : i < j) (hj : j < G.cells.length) (hi : i < G.cells.length) (cn : Conn K) :
    (cn ∈ L ∧ cn.node1 = i ∧ cn.node2 = j) ↔
      (let p := G.cells[i]
       let q := G.cells[j]
       (p.layer = q.layer ∧ (if TouchX p q then (if G.ty p.layer = 1 ∨ G.ty p.layer = 2 ∨ G.ty p.layer = 3 then none else
            some (⟨i, j, shortest (p.y0 - q.y1) (p.y1 - q.y0), 1⟩ : Conn K))
          else if TouchY p q then (if G.ty p.layer = 1 ∨ G.ty p.layer = 3 then none else some ⟨i, j, shortest (p.x0 - q.x1) (p.x1 - q.x0), 2⟩)
          else none) = some cn) ∨
       (Facing ns p.layer q.layer ∧ (if Overlap p q then some (⟨i, j, commonX p q * commonY p q, 0⟩ : Conn K) else none) = some cn)) := by
  obtain ⟨lc, pi0, pi1, pi2, pi3, -, pi4⟩ := hf.pos_layer hi
  obtain ⟨lc', pj0, pj1, pj2, pj3, -, pj4⟩ := hf.pos_layer hj
  have hA := hs _ (List.getElem_mem hi) _ (List.getElem_mem hj)
  have hp : Solid (G.cells[i]) := ph.cell _ (List.getElem_mem hi)
  have hq : Solid (G.cells[j]) := ph.cell _ (List.getElem_mem hj)
  have hbet := between_spec (cellAt_eq hi) (cellAt_eq hj) hp hq hA
  simp only
  rw [mem_pairs hr]
  constructor
  · rintro ⟨h, rfl, rfl⟩
    rcases h with ⟨l, hl, hnot, h1, h2, h3, h4⟩ | ⟨⟨l, l'⟩, hmem, h1, h2, h3, h4, h5⟩
    · left
      have e1 := hf.layer_of_pos hi h1 (by omega)
      have e2 := hf.layer_of_pos hj (by omega) h3
      refine ⟨by rw [e1, e2], ?_⟩
      rw [← h4, e1]
      exact (inLayer_cases (cellAt_eq hi) (cellAt_eq hj) hp hq hA).symm
    · right
      have e1 := hf.layer_of_pos hi h1 h2
      have e2 := hf.layer_of_pos hj h3 h4
      simp only at e1 e2
      refine ⟨?_, ?_⟩
      · rw [e1, e2]
        refine (pairs_iff hf ?_).mp hmem
        rw [← e2]; exact pj4
      · rw [← h5]
        exact hbet.symm
  · rintro (⟨hl, h⟩ | ⟨hl, h⟩)
    · have hnot : ¬ ((G.cells[i]).layer = G.d.nLayers ∧ G.ty (G.cells[i]).layer ≠ 4) := by
        rintro ⟨h1, h2⟩
        rcases pi4 with h | ⟨-, s, mm, h⟩
        · omega
        · rw [h1, ty_top hf, h] at h2; exact h2 rfl
      have e := inLayer_cases (ty := G.ty (G.cells[i]).layer) (cellAt_eq hi) (cellAt_eq hj) hp hq hA
      have h' := e.trans h
      obtain ⟨n1, n2⟩ := inLayer_nodes h'
      refine ⟨Or.inl ⟨(G.cells[i]).layer, by rcases pi4 with h | h <;> omega, hnot, ?_⟩, n1, n2⟩
      rw [n1, n2]
      exact ⟨pi1, hij, by rw [hl, pj3]; exact pj2, h'⟩
    · have h' := hbet.trans h
      obtain ⟨n1, n2⟩ := between_nodes h'
      refine ⟨Or.inr ⟨((G.cells[i]).layer, (G.cells[j]).layer), (pairs_iff hf pj4).mpr hl, ?_⟩, n1, n2⟩
      rw [n1, n2]
      exact ⟨pi1, by simp only; rw [pi3]; exact pi2, pj1, by simp only; rw [pj3]; exact pj2, h'⟩

/-- Coefficients of a pair of cells of the same layer, side by side. -/
theorem side_x {rnd : K → K} (ph : PhysicalNU G) (hs : Sharp G) (hm : Assembled rnd G a m) {i j : Nat} (hij : i < j) (hj : j < G.cells.length)
    (hi : i < G.cells.length) (hl : G.cells[i].layer = G.cells[j].layer) (hX : TouchX G.cells[i] G.cells[j])
    (ht : ¬ (G.ty G.cells[i].layer = 1 ∨ G.ty G.cells[i].layer = 2 ∨ G.ty G.cells[i].layer = 3)) :
    let v := shortest (G.cells[i].y0 - G.cells[j].y1) (G.cells[i].y1 - G.cells[j].y0)
    m.entry j i = - par (gx G.g G.d v G.cells[j]) (gx G.g G.d v G.cells[i]) ∧ m.entry i j = - par (gx G.g G.d v G.cells[j]) (gx G.g G.d v G.cells[i]) := by
  obtain ⟨L, hr, rfl⟩ := hm
  have hc := (joined hf hr ph hs hij hj hi (⟨i, j, shortest (G.cells[i].y0 - G.cells[j].y1) (G.cells[i].y1 - G.cells[j].y0), 1⟩ : Conn K)).mpr
    (Or.inl ⟨hl, by rw [if_pos hX, if_neg ht]⟩)
  rcases pair_entries (rnd := rnd) (a := a) hr hij hj with ⟨cn, hcn, e1, e2, e3, e4⟩ | ⟨hno, -, -⟩
  · have := List.inj_on_of_nodup_map (runs_proper G.okTy hr).once hcn hc.1 (by rw [e1, e2])
    rw [this, cellAt_eq hi, cellAt_eq hj] at e3 e4
    simp only
    rw [e3, e4]
    unfold conductance
    simp
  · exact absurd ⟨rfl, rfl⟩ (hno _ hc.1)

/-- The same along y. -/
theorem side_y {rnd : K → K} (ph : PhysicalNU G) (hs : Sharp G) (hm : Assembled rnd G a m) {i j : Nat} (hij : i < j) (hj : j < G.cells.length)
    (hi : i < G.cells.length) (hl : G.cells[i].layer = G.cells[j].layer) (hX : ¬ TouchX G.cells[i] G.cells[j]) (hY : TouchY G.cells[i] G.cells[j])
    (ht : ¬ (G.ty G.cells[i].layer = 1 ∨ G.ty G.cells[i].layer = 3)) (hch : G.cells[i].chan = false) :
    let v := shortest (G.cells[i].x0 - G.cells[j].x1) (G.cells[i].x1 - G.cells[j].x0)
    let note : K := if G.cells[j].y0 < G.cells[i].y0 then 1 else -1
    m.entry j i = - par (gy G.g G.d v G.cells[j] note) (gy G.g G.d v G.cells[i] (- note)) ∧
    m.entry i j = - par (gy G.g G.d v G.cells[j] note) (gy G.g G.d v G.cells[i] (- note)) := by
  obtain ⟨L, hr, rfl⟩ := hm
  have hc := (joined hf hr ph hs hij hj hi (⟨i, j, shortest (G.cells[i].x0 - G.cells[j].x1) (G.cells[i].x1 - G.cells[j].x0), 2⟩ : Conn K)).mpr
    (Or.inl ⟨hl, by rw [if_neg hX, if_pos hY, if_neg ht]⟩)
  rcases pair_entries (rnd := rnd) (a := a) hr hij hj with ⟨cn, hcn, e1, e2, e3, e4⟩ | ⟨hno, -, -⟩
  · have := List.inj_on_of_nodup_map (runs_proper G.okTy hr).once hcn hc.1 (by rw [e1, e2])
    rw [this, cellAt_eq hi, cellAt_eq hj] at e3 e4
    simp only
    rw [e3, e4]
    unfold conductance
    simp [hch]
  · exact absurd ⟨rfl, rfl⟩ (hno _ hc.1)

/-- Coefficients of a pair of cells of layers in contact. -/
theorem over {rnd : K → K} (ph : PhysicalNU G) (hs : Sharp G) (hm : Assembled rnd G a m) {i j : Nat} (hij : i < j) (hj : j < G.cells.length)
    (hi : i < G.cells.length) (hl : Facing ns G.cells[i].layer G.cells[j].layer) (hO : Overlap G.cells[i] G.cells[j]) :
    let v := commonX G.cells[i] G.cells[j] * commonY G.cells[i] G.cells[j]
    let g1 := gz G.g G.d v G.cells[j] false
    let g2 := gz G.g G.d v G.cells[i] true
    m.entry j i = (if g1 = 0 then - g2 else if g2 = 0 then - g1 else - par g1 g2) ∧
    m.entry i j = (if g1 = 0 then - g2 else if g2 = 0 then - g1 else - par g1 g2) := by
  obtain ⟨L, hr, rfl⟩ := hm
  have hc := (joined hf hr ph hs hij hj hi (⟨i, j, commonX G.cells[i] G.cells[j] * commonY G.cells[i] G.cells[j], 0⟩ : Conn K)).mpr
    (Or.inr ⟨hl, by rw [if_pos hO]⟩)
  have hlt : ¬ G.cells[j].layer < G.cells[i].layer := by
    rcases hl with ⟨h, -⟩ | ⟨o, -, h⟩ <;> omega
  rcases pair_entries (rnd := rnd) (a := a) hr hij hj with ⟨cn, hcn, e1, e2, e3, e4⟩ | ⟨hno, -, -⟩
  · have := List.inj_on_of_nodup_map (runs_proper G.okTy hr).once hcn hc.1 (by rw [e1, e2])
    rw [this, cellAt_eq hi, cellAt_eq hj] at e3 e4
    simp only
    rw [e3, e4]
    unfold conductance
    simp [hlt]
  · exact absurd ⟨rfl, rfl⟩ (hno _ hc.1)

/-- No other coefficients. -/
theorem apart {rnd : K → K} (ph : PhysicalNU G) (hs : Sharp G) (hm : Assembled rnd G a m) {i j : Nat} (hij : i < j) (hj : j < G.cells.length)
    (hi : i < G.cells.length)
    (h1 : G.cells[i].layer = G.cells[j].layer →
      (TouchX G.cells[i] G.cells[j] → G.ty G.cells[i].layer = 1 ∨ G.ty G.cells[i].layer = 2 ∨ G.ty G.cells[i].layer = 3) ∧
      (¬ TouchX G.cells[i] G.cells[j] → TouchY G.cells[i] G.cells[j] → G.ty G.cells[i].layer = 1 ∨ G.ty G.cells[i].layer = 3))
    (h2 : Facing ns G.cells[i].layer G.cells[j].layer → ¬ Overlap G.cells[i] G.cells[j]) :
    m.entry j i = 0 ∧ m.entry i j = 0 := by
  obtain ⟨L, hr, rfl⟩ := hm
  rcases pair_entries (rnd := rnd) (a := a) hr hij hj with ⟨cn, hcn, e1, e2, -⟩ | ⟨hno, e3, e4⟩
  · exfalso
    rcases (joined hf hr ph hs hij hj hi cn).mp ⟨hcn, e1, e2⟩ with ⟨hl, h⟩ | ⟨hl, h⟩
    · obtain ⟨hX, hY⟩ := h1 hl
      by_cases hx : TouchX G.cells[i] G.cells[j]
      · rw [if_pos hx, if_pos (hX hx)] at h; cases h
      · rw [if_neg hx] at h
        by_cases hy : TouchY G.cells[i] G.cells[j]
        · rw [if_pos hy, if_pos (hY hx hy)] at h; cases h
        · rw [if_neg hy] at h; cases h
    · rw [if_neg (h2 hl)] at h; cases h
  · exact ⟨e3, e4⟩

end

end Verif.NU
