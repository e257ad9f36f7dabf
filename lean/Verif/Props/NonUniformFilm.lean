import Verif.Props.NonUniformChannelLink

set_option linter.unusedSectionVars false
set_option linter.unusedSimpArgs false
set_option linter.unusedVariables false

/-! # C58: heat exchange of the channels with their surroundings on a non-uniform grid -/

namespace Verif.NU
open Verif.Dim Verif.TG Verif.Stk Verif.SM

variable {K : Type} [Field K] [LinearOrder K] [IsStrictOrderedRing K]
variable {d0 : Dims K} {decl : Option (Channel K)} {rs : List (Raw K (List (FEl K)))} {ns : List (NElem K)} {G : Grid K} {a : Ana K} {m : Csc K}

/-- Width of the cells of a channel: all rows are equal. -/
def rowWidth (G : Grid K) : K := G.d.chipWidth / (G.d.nRows : K)

/-- Conductances from the node of a cell of a 4RM channel in the column `c` to its vertical side: the coolant exchanges heat with the
wall through its film, heat crosses half of the length of a wall. -/
def coolantSide (G : Grid K) (ch : Channel K) : K := ch.coolant.htcSide * (rowWidth G * ch.height)
def wallSide (G : Grid K) (ch : Channel K) (c : Nat) : K := ch.wallMat.kx * (rowWidth G * ch.height) / (cellLength G.d c / 2)

/-! ## Proofs -/

/-- Two cells of the layers of a channel, seen from above. -/
theorem chan_overlap (hs : Sized G.d) (fit : ChipFits G.d) {mo : ChModel} {o k k' r c r' c' : Nat} (hr : r < G.d.nRows) (hc : c < G.d.nCols) (hr' : r' < G.d.nRows) (hc' : c' < G.d.nCols) :
    (Overlap (chanCell G.d mo o k r c) (chanCell G.d mo o k' r' c') ↔ r = r' ∧ c = c') ∧
    commonX (chanCell G.d mo o k r c) (chanCell G.d mo o k' r c) * commonY (chanCell G.d mo o k r c) (chanCell G.d mo o k' r c) = chanArea G c := by
  have hnR : (0 : K) < (G.d.nRows : K) := by exact_mod_cast (by omega : 0 < G.d.nRows)
  have hw : 0 < G.d.chipWidth / (G.d.nRows : K) := div_pos fit.chip hnR
  have hrow : ∀ r : Nat, G.d.chipWidth / (G.d.nRows : K) * (r : K) < G.d.chipWidth / (G.d.nRows : K) * ((r + 1 : Nat) : K) := by
    intro r; push_cast; nlinarith
  constructor
  · unfold Overlap commonX commonY
    change 0 < overlap (chanX0 G.d c) (chanX1 G.d c) (chanX0 G.d c') (chanX1 G.d c') ∧
      0 < overlap (G.d.chipWidth / (G.d.nRows : K) * (r : K)) (G.d.chipWidth / (G.d.nRows : K) * ((r + 1 : Nat) : K))
        (G.d.chipWidth / (G.d.nRows : K) * (r' : K)) (G.d.chipWidth / (G.d.nRows : K) * ((r' + 1 : Nat) : K)) ↔ _
    rw [overlap_pos (column_pos hs fit hc) (column_pos hs fit hc'), overlap_pos (hrow r) (hrow r')]
    constructor
    · rintro ⟨⟨h1, h2⟩, h3, h4⟩
      rw [sub_neg, mul_lt_mul_iff_right₀ hw, Nat.cast_lt] at h3
      rw [sub_pos, mul_lt_mul_iff_right₀ hw, Nat.cast_lt] at h4
      refine ⟨by omega, ?_⟩
      rcases Nat.lt_trichotomy c c' with h | h | h
      · have := columns_apart hs fit h hc'; linarith
      · exact h
      · have := columns_apart hs fit h hc; linarith
    · rintro ⟨rfl, rfl⟩
      have := column_pos hs fit hc
      have := hrow r
      refine ⟨⟨?_, ?_⟩, ?_, ?_⟩ <;> linarith
  · unfold commonX commonY overlap chanArea
    change (min (chanX1 G.d c) (chanX1 G.d c) - max (chanX0 G.d c) (chanX0 G.d c)) *
      (min (G.d.chipWidth / (G.d.nRows : K) * ((r + 1 : Nat) : K)) (G.d.chipWidth / (G.d.nRows : K) * ((r + 1 : Nat) : K)) -
        max (G.d.chipWidth / (G.d.nRows : K) * (r : K)) (G.d.chipWidth / (G.d.nRows : K) * (r : K))) = _
    rw [min_self, max_self, min_self, max_self, chan_len hs hc]
    push_cast; ring

section
variable (hf : FromStack d0 decl rs ns G) (fit : ChipFits G.d) (ph : PhysicalNU G) (hsh : Sharp G)
include hf fit ph hsh

/-- Position and content of a cell of a channel. -/
theorem chan_place {n : NElem K} (hn : n ∈ ns) {ch : Channel K} (hb : n.elem.body = .channel ch) {k r c : Nat} (hk : k < chLayers ch)
    (hr : r < G.d.nRows) (hc : c < G.d.nCols) :
    ∃ h : G.at (n.elem.offset + k) r c < G.cells.length, G.cells[G.at (n.elem.offset + k) r c] = chanCell G.d ch.model n.elem.offset k r c :=
  List.getElem?_eq_some_iff.mp (chan_get hf hn hb hk hr hc)

theorem chan_more (hn : n ∈ ns) {ch : Channel K} (hb : n.elem.body = .channel ch) : 1 < G.d.nLayers := by
  obtain ⟨-, -, h3, h4, -⟩ := hf.channel hn hb
  omega

/-- Wall of a 4RM channel. -/
theorem wallFace_pos {n : NElem K} (hn : n ∈ ns) {ch : Channel K} (hb : n.elem.body = .channel ch) (hr : 0 < G.d.nRows) (hc : 0 < G.d.nCols) :
    (∀ A, 0 < A → 0 < wallFace ch A) ∧ 0 < ch.wallMat.kx ∧ 0 < ch.wallMat.ky ∧ 0 < ch.height := by
  have hk : 0 < chLayers ch := by unfold chLayers; split_ifs <;> omega
  obtain ⟨hj, hcell⟩ := chan_place hf fit ph hsh hn hb hk hr hc
  obtain ⟨h1, h2, h3, h5, h6, -⟩ := hf.channel hn hb
  have hlt : n.elem.offset + 0 < G.d.nLayers := by omega
  have hlay : G.cells[G.at (n.elem.offset + 0) 0 0].layer = n.elem.offset + 0 := by rw [hcell]; rfl
  have hmat := ph.mat _ (List.getElem_mem hj) (by rw [hlay]; exact hlt)
  have ht : ∃ t, (chTypes ch.model)[0]? = some t ∧ isSource t = false := by
    cases hm : ch.model
    · exact absurd hm h2
    all_goals exact ⟨_, rfl, rfl⟩
  obtain ⟨t, ht, hns⟩ := ht
  obtain ⟨t1, t2, t3⟩ := h6 0 _ ht
  have hh := heightAt_pos hf.wf ph.hts hlt
  rw [t3] at hh
  unfold ownMat at hmat
  rw [hlay, t1, hns, if_neg (by simp), t2] at hmat
  exact ⟨fun A hA => div_pos (mul_pos hmat.2.2.1 hA) (by linarith), hmat.1, hmat.2.1, hh⟩

/-- **C58 (below)** A solid cell under a channel exchanges heat over the area it shares with a cell of the channel: through the film of
the coolant or half of the wall in the 4RM model, directly with the lower surface in the others. -/
theorem C58_below {rnd : K → K} (hm : Assembled rnd G a m) {n : NElem K} (hn : n ∈ ns) {ch : Channel K} (hb : n.elem.body = .channel ch) {i r c : Nat}
    (hi : i < G.cells.length) (hs : ¬ InChannel ns G.cells[i]) (hl : G.cells[i].layer + 1 = n.elem.offset) (hr : r < G.d.nRows) (hc : c < G.d.nCols) :
    ∃ cell, G.cells[G.at n.elem.offset r c]? = some cell ∧
      (¬ Overlap G.cells[i] cell → Conducts m i (G.at n.elem.offset r c) 0) ∧
      (Overlap G.cells[i] cell → ∀ A, A = commonX G.cells[i] cell * commonY G.cells[i] cell →
        (ch.model = .mc4rm → WetCol G ch c → 0 < ch.coolant.htcBottom →
          Conducts m i (G.at n.elem.offset r c) (series (toFace G G.cells[i] A) (ch.coolant.htcBottom * A))) ∧
        (ch.model = .mc4rm → ¬ WetCol G ch c → Conducts m i (G.at n.elem.offset r c) (series (toFace G G.cells[i] A) (wallFace ch A))) ∧
        (ch.model ≠ .mc4rm → Conducts m i (G.at n.elem.offset r c) (toFace G G.cells[i] A))) := by
  have hk : 0 < chLayers ch := by unfold chLayers; split_ifs <;> omega
  obtain ⟨hj, hcell⟩ := chan_place hf fit ph hsh hn hb hk hr hc
  simp only [Nat.add_zero] at hj hcell
  obtain ⟨-, ver, pos, -, -⟩ := solid_halves hf ph hi hs
  have hz := ver (Or.inl (chan_more hf fit ph hsh hn hb))
  have hlay : G.cells[G.at n.elem.offset r c].layer = n.elem.offset := by rw [hcell]; rfl
  have hface : Facing ns G.cells[i].layer G.cells[G.at n.elem.offset r c].layer := by
    rw [hlay]
    refine Or.inl ⟨hl, ?_⟩
    rintro ⟨o, ⟨n', hn', ch', hb', hmod, rfl⟩, e⟩
    have : chLayers ch' = 4 := by simp [chLayers, hmod]
    exact hs ⟨n', hn', ch', hb', by omega, by omega⟩
  refine ⟨G.cells[G.at n.elem.offset r c], List.getElem?_eq_getElem hj, fun hO => ?_, fun hO A hA => ?_⟩
  · obtain ⟨e1, e2⟩ := apart hf ph hsh hm (before_of_layer hf hi hj (by omega)) hj hi (fun h => by omega) (fun _ => hO)
    exact ⟨by rw [e2, neg_zero], by rw [e1, neg_zero]⟩
  · have hApos : 0 < A := by rw [hA]; exact mul_pos hO.1 hO.2
    subst hA
    obtain ⟨w1, w2, w3, w4, w5⟩ := gz_chan hf hn hb (k := 0) (r := r) hk hc (commonX G.cells[i] G.cells[G.at n.elem.offset r c] * commonY G.cells[i] G.cells[G.at n.elem.offset r c]) false
    have hz' : ∀ v, gz G.g G.d v G.cells[G.at n.elem.offset r c] false = gz G.g G.d v (chanCell G.d ch.model n.elem.offset 0 r c) false :=
      fun v => by rw [hcell]
    refine ⟨fun h4 hw hp => ?_, fun h4 hw => ?_, fun h4 => ?_⟩
    · refine (over_conducts hf ph hsh hm hi hj hface hO ?_ (hz _ _)).2.2 (mul_pos hp hApos) (pos _ hApos)
      rw [hz', w1 h4 hw]
      simp [filmDown, h4]
    · have hkz := (wallFace_pos hf fit ph hsh hn hb (by omega) (by omega)).1 _ hApos
      exact (over_conducts hf ph hsh hm hi hj hface hO (by rw [hz', w2 h4 hw]) (hz _ _)).2.2 hkz (pos _ hApos)
    · refine (over_conducts hf ph hsh hm hi hj hface hO (g1 := 0) ?_ (hz _ _)).1 rfl
      rw [hz', w3 h4 (Or.inl rfl)]

/-- The last layer of a channel touches the next one. -/
theorem top_facing {n : NElem K} (hn : n ∈ ns) {ch : Channel K} (hb : n.elem.body = .channel ch) :
    Facing ns (n.elem.offset + (chLayers ch - 1)) (n.elem.offset + chLayers ch) := by
  have hk : 0 < chLayers ch := by unfold chLayers; split_ifs <;> omega
  refine Or.inl ⟨by omega, ?_⟩
  rintro ⟨o, hT, e⟩
  obtain ⟨-, -, t1, -⟩ := twoResistor_types hf hT
  have ht := ty_elem hf hn (k := chLayers ch - 1) (by unfold nLayersOf; rw [hb]; simp only; omega)
  obtain ⟨-, h2, -⟩ := hf.channel hn hb
  rw [e, hb] at ht
  cases hm : ch.model
  · exact absurd hm h2
  all_goals (simp [chLayers, hm] at ht; omega)

/-- **C58 (above)** The same over a channel. -/
theorem C58_above {rnd : K → K} (hm : Assembled rnd G a m) {n : NElem K} (hn : n ∈ ns) {ch : Channel K} (hb : n.elem.body = .channel ch) {j r c : Nat}
    (hj : j < G.cells.length) (hs : ¬ InChannel ns G.cells[j]) (hl : G.cells[j].layer = n.elem.offset + chLayers ch) (hr : r < G.d.nRows) (hc : c < G.d.nCols) :
    ∃ cell, G.cells[G.at (n.elem.offset + (chLayers ch - 1)) r c]? = some cell ∧
      (¬ Overlap cell G.cells[j] → Conducts m (G.at (n.elem.offset + (chLayers ch - 1)) r c) j 0) ∧
      (Overlap cell G.cells[j] → ∀ A, A = commonX cell G.cells[j] * commonY cell G.cells[j] →
        (ch.model = .mc4rm → WetCol G ch c → 0 < ch.coolant.htcTop →
          Conducts m (G.at (n.elem.offset + (chLayers ch - 1)) r c) j (series (ch.coolant.htcTop * A) (toFace G G.cells[j] A))) ∧
        (ch.model = .mc4rm → ¬ WetCol G ch c → Conducts m (G.at (n.elem.offset + (chLayers ch - 1)) r c) j (series (wallFace ch A) (toFace G G.cells[j] A))) ∧
        (ch.model ≠ .mc4rm → Conducts m (G.at (n.elem.offset + (chLayers ch - 1)) r c) j (toFace G G.cells[j] A))) := by
  have hk : chLayers ch - 1 < chLayers ch := by unfold chLayers; split_ifs <;> omega
  obtain ⟨hi, hcell⟩ := chan_place hf fit ph hsh hn hb hk hr hc
  obtain ⟨-, ver, pos, -, -⟩ := solid_halves hf ph hj hs
  have hz := ver (Or.inl (chan_more hf fit ph hsh hn hb))
  have hlay : G.cells[G.at (n.elem.offset + (chLayers ch - 1)) r c].layer = n.elem.offset + (chLayers ch - 1) := by rw [hcell]; rfl
  have hface : Facing ns G.cells[G.at (n.elem.offset + (chLayers ch - 1)) r c].layer G.cells[j].layer := by
    rw [hlay, hl]; exact top_facing hf fit ph hsh hn hb
  refine ⟨G.cells[G.at (n.elem.offset + (chLayers ch - 1)) r c], List.getElem?_eq_getElem hi, fun hO => ?_, fun hO A hA => ?_⟩
  · obtain ⟨e1, e2⟩ := apart hf ph hsh hm (before_of_layer hf hi hj (by omega)) hj hi (fun h => by omega) (fun _ => hO)
    exact ⟨by rw [e2, neg_zero], by rw [e1, neg_zero]⟩
  · have hApos : 0 < A := by rw [hA]; exact mul_pos hO.1 hO.2
    obtain ⟨w1, w2, w3, w4, w5⟩ := gz_chan hf hn hb (k := chLayers ch - 1) (r := r) hk hc A true
    have hz' : gz G.g G.d A G.cells[G.at (n.elem.offset + (chLayers ch - 1)) r c] true = gz G.g G.d A (chanCell G.d ch.model n.elem.offset (chLayers ch - 1) r c) true := by
      rw [hcell]
    have oc := fun g1 g2 => over_conducts hf ph hsh hm hi hj hface hO (g1 := g1) (g2 := g2)
    rw [← hA] at oc
    refine ⟨fun h4 hw hp => ?_, fun h4 hw => ?_, fun h4 => ?_⟩
    · refine (oc _ _ (hz _ _) ?_).2.2 (pos _ hApos) (mul_pos hp hApos)
      rw [hz', w1 h4 hw]
      simp [filmUp, h4]
    · exact (oc _ _ (hz _ _) (by rw [hz', w2 h4 hw])).2.2 (pos _ hApos) ((wallFace_pos hf fit ph hsh hn hb (by omega) (by omega)).1 _ hApos)
    · refine (oc _ 0 (hz _ _) ?_).2.1 rfl
      rw [hz', w3 h4 (Or.inr (by simp [chLayers, h4]))]

/-- Cells of a channel, layer over layer. -/
theorem chan_over {rnd : K → K} (hm : Assembled rnd G a m) {n : NElem K} (hn : n ∈ ns) {ch : Channel K} (hb : n.elem.body = .channel ch) {k k' r c : Nat}
    (hk : k < chLayers ch) (hk' : k' < chLayers ch) (hr : r < G.d.nRows) (hc : c < G.d.nCols) (hF : Facing ns (n.elem.offset + k) (n.elem.offset + k')) {g1 g2 : K}
    (h1 : gz G.g G.d (chanArea G c) (chanCell G.d ch.model n.elem.offset k' r c) false = g1)
    (h2 : gz G.g G.d (chanArea G c) (chanCell G.d ch.model n.elem.offset k r c) true = g2) :
    (g1 = 0 → Conducts m (G.at (n.elem.offset + k) r c) (G.at (n.elem.offset + k') r c) g2) ∧
    (g2 = 0 → Conducts m (G.at (n.elem.offset + k) r c) (G.at (n.elem.offset + k') r c) g1) := by
  obtain ⟨hi, hci⟩ := chan_place hf fit ph hsh hn hb hk hr hc
  obtain ⟨hj, hcj⟩ := chan_place hf fit ph hsh hn hb hk' hr hc
  obtain ⟨o1, o2⟩ := chan_overlap (G := G) (mo := ch.model) (o := n.elem.offset) (k := k) (k' := k') hf.wf.sized fit hr hc hr hc
  rw [← o2] at h1 h2
  rw [← hci, ← hcj] at h1 h2
  have hF' : Facing ns G.cells[G.at (n.elem.offset + k) r c].layer G.cells[G.at (n.elem.offset + k') r c].layer := by rw [hci, hcj]; exact hF
  have hO : Overlap G.cells[G.at (n.elem.offset + k) r c] G.cells[G.at (n.elem.offset + k') r c] := by rw [hci, hcj]; exact o1.mpr ⟨rfl, rfl⟩
  exact ⟨(over_conducts hf ph hsh hm hi hj hF' hO h1 h2).1, (over_conducts hf ph hsh hm hi hj hF' hO h1 h2).2.1⟩

/-- Cells of a channel that are not in contact. -/
theorem chan_apart {rnd : K → K} (hm : Assembled rnd G a m) {n : NElem K} (hn : n ∈ ns) {ch : Channel K} (hb : n.elem.body = .channel ch) {k k' r c r' c' : Nat}
    (hk : k < chLayers ch) (hk' : k' < chLayers ch) (hr : r < G.d.nRows) (hc : c < G.d.nCols) (hr' : r' < G.d.nRows) (hc' : c' < G.d.nCols) (hlt : k < k')
    (hF : Facing ns (n.elem.offset + k) (n.elem.offset + k') → ¬ (r = r' ∧ c = c')) :
    Conducts m (G.at (n.elem.offset + k) r c) (G.at (n.elem.offset + k') r' c') 0 := by
  obtain ⟨hi, hci⟩ := chan_place hf fit ph hsh hn hb hk hr hc
  obtain ⟨hj, hcj⟩ := chan_place hf fit ph hsh hn hb hk' hr' hc'
  obtain ⟨o1, -⟩ := chan_overlap (G := G) (mo := ch.model) (o := n.elem.offset) (k := k) (k' := k') hf.wf.sized fit hr hc hr' hc'
  have li : G.cells[G.at (n.elem.offset + k) r c].layer = n.elem.offset + k := by rw [hci]; rfl
  have lj : G.cells[G.at (n.elem.offset + k') r' c'].layer = n.elem.offset + k' := by rw [hcj]; rfl
  obtain ⟨e1, e2⟩ := apart hf ph hsh hm (before_of_layer hf hi hj (by omega)) hj hi (fun h => by omega) (fun hf' => by
    rw [li, lj] at hf'
    rw [hci, hcj, o1]
    exact hF hf')
  exact ⟨by rw [e2, neg_zero], by rw [e1, neg_zero]⟩

/-- Which layers of a 2RM or pin fin channel touch. -/
theorem inner_facing {n : NElem K} (hn : n ∈ ns) {ch : Channel K} (hb : n.elem.body = .channel ch) (h4 : ch.model ≠ .mc4rm) {k k' : Nat} (hk : k < 4) (hk' : k' < 4) :
    Facing ns (n.elem.offset + k) (n.elem.offset + k') ↔ (k = 0 ∧ k' = 1) ∨ (k = 2 ∧ k' = 3) ∨ (k = 0 ∧ k' = 2) ∨ (k = 1 ∧ k' = 3) := by
  have hT : TwoResistor ns n.elem.offset := ⟨n, hn, ch, hb, h4, rfl⟩
  obtain ⟨-, a0, a1, a2, a3⟩ := twoResistor_types hf hT
  have same : ∀ o, TwoResistor ns o → (∀ i, i < 4 → n.elem.offset + i = o + 1 → i = 1) ∧ (∀ i, i < 2 → n.elem.offset + i = o → i = 0) := by
    intro o hO
    obtain ⟨-, b0, b1, b2, b3⟩ := twoResistor_types hf hO
    constructor
    · intro i hi e
      have hi' : i = 0 ∨ i = 1 ∨ i = 2 ∨ i = 3 := by omega
      rcases hi' with rfl | rfl | rfl | rfl
      · rw [← e] at b1; rw [Nat.add_zero] at b1; omega
      · rfl
      · have : o = n.elem.offset + 1 := by omega
        rw [this] at b0; omega
      · rw [← e] at b1; omega
    · intro i hi e
      have hi' : i = 0 ∨ i = 1 := by omega
      rcases hi' with rfl | rfl
      · rfl
      · rw [← e] at b0; omega
  constructor
  · rintro (⟨h1, h2⟩ | ⟨o, hO, h⟩)
    · have : k ≠ 1 := fun h => h2 ⟨_, hT, by rw [h]⟩
      omega
    · obtain ⟨s1, s2⟩ := same o hO
      rcases h with ⟨h, h'⟩ | ⟨h, h'⟩
      · have := s2 k (by omega) h; omega
      · have := s1 k hk h; omega
  · rintro (⟨rfl, rfl⟩ | ⟨rfl, rfl⟩ | ⟨rfl, rfl⟩ | ⟨rfl, rfl⟩)
    · exact Or.inl ⟨by omega, fun ⟨o, hO, e⟩ => by have := (same o hO).1 0 (by omega) (by omega); omega⟩
    · exact Or.inl ⟨by omega, fun ⟨o, hO, e⟩ => by have := (same o hO).1 2 (by omega) (by omega); omega⟩
    · exact Or.inr ⟨_, hT, Or.inl ⟨by omega, rfl⟩⟩
    · exact Or.inr ⟨_, hT, Or.inr ⟨rfl, rfl⟩⟩

/-- **C58 (2RM and pin fins)** Inside a channel of these models every cell exchanges heat with the ones exactly under and over it: the
coolant with the two surfaces through the film, the material between the channels with the two surfaces through half of its height, in
the part of the area that it takes. The coolant does not exchange heat with this material. Cells that are not in the same place of the
layer do not exchange heat across layers. -/
theorem C58_inside_2rm {rnd : K → K} (hm : Assembled rnd G a m) {n : NElem K} (hn : n ∈ ns) {ch : Channel K} (hb : n.elem.body = .channel ch) (h4 : ch.model ≠ .mc4rm)
    {r c : Nat} (hr : r < G.d.nRows) (hc : c < G.d.nCols) :
    Conducts m (G.at n.elem.offset r c) (G.at (n.elem.offset + 2) r c) (filmDown ch (chanArea G c)) ∧
    Conducts m (G.at (n.elem.offset + 2) r c) (G.at (n.elem.offset + 3) r c) (filmUp ch (chanArea G c)) ∧
    Conducts m (G.at n.elem.offset r c) (G.at (n.elem.offset + 1) r c) (wallFace ch ((1 - ch.porosity) * chanArea G c)) ∧
    Conducts m (G.at (n.elem.offset + 1) r c) (G.at (n.elem.offset + 3) r c) (wallFace ch ((1 - ch.porosity) * chanArea G c)) ∧
    Conducts m (G.at (n.elem.offset + 1) r c) (G.at (n.elem.offset + 2) r c) 0 ∧
    Conducts m (G.at n.elem.offset r c) (G.at (n.elem.offset + 3) r c) 0 ∧
    ∀ r' c' k k', r' < G.d.nRows → c' < G.d.nCols → k < k' → k' < 4 → (r, c) ≠ (r', c') →
      Conducts m (G.at (n.elem.offset + k) r c) (G.at (n.elem.offset + k') r' c') 0 := by
  have hL : chLayers ch = 4 := by simp [chLayers, h4]
  have gz' := fun k (hk : k < chLayers ch) => gz_chan hf hn hb (k := k) (r := r) hk hc (chanArea G c)
  have F := fun k k' (hk : k < 4) (hk' : k' < 4) => inner_facing hf fit ph hsh hn hb h4 hk hk'
  have e : (1 - ch.porosity) * wallFace ch (chanArea G c) = wallFace ch ((1 - ch.porosity) * chanArea G c) := by unfold wallFace; ring
  refine ⟨?_, ?_, ?_, ?_, ?_, ?_, ?_⟩
  · exact (chan_over hf fit ph hsh hm hn hb (k := 0) (k' := 2) (by omega) (by omega) hr hc ((F 0 2 (by omega) (by omega)).mpr (by omega))
      ((gz' 2 (by omega) false).2.2.2.2 h4 rfl) ((gz' 0 (by omega) true).2.2.1 h4 (Or.inl rfl))).2 rfl
  · exact (chan_over hf fit ph hsh hm hn hb (k := 2) (k' := 3) (by omega) (by omega) hr hc ((F 2 3 (by omega) (by omega)).mpr (by omega))
      ((gz' 3 (by omega) false).2.2.1 h4 (Or.inr rfl)) ((gz' 2 (by omega) true).2.2.2.2 h4 rfl)).1 rfl
  · rw [← e]
    exact (chan_over hf fit ph hsh hm hn hb (k := 0) (k' := 1) (by omega) (by omega) hr hc ((F 0 1 (by omega) (by omega)).mpr (by omega))
      ((gz' 1 (by omega) false).2.2.2.1 h4 rfl) ((gz' 0 (by omega) true).2.2.1 h4 (Or.inl rfl))).2 rfl
  · rw [← e]
    exact (chan_over hf fit ph hsh hm hn hb (k := 1) (k' := 3) (by omega) (by omega) hr hc ((F 1 3 (by omega) (by omega)).mpr (by omega))
      ((gz' 3 (by omega) false).2.2.1 h4 (Or.inr rfl)) ((gz' 1 (by omega) true).2.2.2.1 h4 rfl)).1 rfl
  · exact chan_apart hf fit ph hsh hm hn hb (k := 1) (k' := 2) (by omega) (by omega) hr hc hr hc (by omega)
      fun h => absurd ((F 1 2 (by omega) (by omega)).mp h) (by omega)
  · exact chan_apart hf fit ph hsh hm hn hb (k := 0) (k' := 3) (by omega) (by omega) hr hc hr hc (by omega)
      fun h => absurd ((F 0 3 (by omega) (by omega)).mp h) (by omega)
  · intro r' c' k k' hr' hc' hk hk' hne
    exact chan_apart hf fit ph hsh hm hn hb (by omega) (by omega) hr hc hr' hc' hk fun _ => by
      rintro ⟨rfl, rfl⟩; exact hne rfl

end

end Verif.NU
