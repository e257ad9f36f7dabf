import Verif.Props.NonUniformInlet
import Verif.Props.NonUniformFilm
import Verif.Lemmas.Network

set_option linter.unusedSectionVars false
set_option linter.unusedSimpArgs false
set_option linter.unusedVariables false

/-! # C62: on a non-uniform grid with channels the transient step has one solution -/

namespace Verif.NU
open Verif.Dim Verif.TG Verif.Stk Verif.SM

variable {K : Type} [Field K] [LinearOrder K] [IsStrictOrderedRing K]
variable {d0 : Dims K} {decl : Option (Channel K)} {rs : List (Raw K (List (FEl K)))} {ns : List (NElem K)} {G : Grid K} {a : Ana K} {m : Csc K}

/-! ## Specification -/

/-- Positive coolant and walls; heat transfer coefficients and flow that are not negative; porosity between 0 and 1. Fields that a
model does not use may be zero, as the parser leaves them (4RM: porosity and length; pin fins: heat transfer coefficients). -/
structure PosChannel (ch : Channel K) : Prop where
  side : 0 ≤ ch.coolant.htcSide
  up : 0 ≤ ch.coolant.htcTop
  down : 0 ≤ ch.coolant.htcBottom
  vhc : 0 < ch.coolant.vhc
  flow : 0 ≤ ch.coolant.flowRate
  darcy : 0 ≤ ch.coolant.darcy
  por : 0 ≤ ch.porosity ∧ ch.porosity < 1
  fluid : ch.model ≠ .mc4rm → 0 < ch.porosity
  eff : (ch.model = .pfInline → 0 ≤ ch.effInline ch.coolant.darcy) ∧ (ch.model = .pfStag → 0 ≤ ch.effStag ch.coolant.darcy)
  len : 0 ≤ ch.length
  height : 0 < ch.height
  wall : PosMat ch.wallMat

/-! ## Proofs -/

theorem sprTerm_nonneg (ph : PhysicalNU G) {f : Spreader K → Material K → K}
    (h : ∀ s m, 0 < s.cellLength ∧ 0 < s.cellWidth ∧ 0 < s.height ∧ PosMat m → 0 ≤ f s m) : 0 ≤ sprTerm G.g f := by
  unfold sprTerm
  split
  · rename_i s m e; exact h s m (ph.spr s m e)
  · exact le_refl _

theorem chan_nonneg {f : Channel K → K} (hp : ∀ ch, G.g.channel = some ch → PosChannel ch) (h : ∀ ch, PosChannel ch → 0 ≤ f ch) : 0 ≤ chan G.g f := by
  unfold chan
  cases e : G.g.channel with
  | none => simp
  | some ch => simpa using h ch (hp ch e)

/-- Vertical and lateral terms are not negative. -/
theorem terms_nonneg (wf : WF G.g G.d) (ph : PhysicalNU G) (hp : ∀ ch, G.g.channel = some ch → PosChannel ch) {c : Cell K} (hc : c ∈ G.cells) {v : K} (hv : 0 ≤ v)
    (up : Bool) (note : K) :
    0 ≤ gz G.g G.d v c up ∧ 0 ≤ gx G.g G.d v c ∧
      (c.chan = false → (∀ t ∈ [LType.ch2rm, .pfInline, .pfStag], c.layer < G.d.nLayers → typeAt G.g c.layer ≠ t) → 0 ≤ gy G.g G.d v c note) := by
  obtain ⟨hlen, hwid⟩ := ph.cell c hc
  have c1 := chan_nonneg (f := (·.coolant.htcTop)) hp fun ch h => h.up
  have c2 := chan_nonneg (f := (·.coolant.htcBottom)) hp fun ch h => h.down
  have c3 := chan_nonneg (f := (·.coolant.htcSide)) hp fun ch h => h.side
  have c4 : c.layer < G.d.nLayers → typeAt G.g c.layer = .pfInline → 0 ≤ chan G.g fun ch => ch.effInline ch.coolant.darcy := by
    intro hl ht
    obtain ⟨ch, e, hm⟩ := channel_some wf hl (by rw [ht]; rfl)
    rw [ht] at hm
    unfold chan; rw [e]
    exact (hp ch e).eff.1 hm
  have c5 : c.layer < G.d.nLayers → typeAt G.g c.layer = .pfStag → 0 ≤ chan G.g fun ch => ch.effStag ch.coolant.darcy := by
    intro hl ht
    obtain ⟨ch, e, hm⟩ := channel_some wf hl (by rw [ht]; rfl)
    rw [ht] at hm
    unfold chan; rw [e]
    exact (hp ch e).eff.2 hm
  have c6 : 0 ≤ 1 - chan G.g (·.porosity) := by
    unfold chan
    cases e : G.g.channel with
    | none => simp
    | some ch => simpa using (hp ch e).por.2.le
  by_cases hlt : c.layer < G.d.nLayers
  · have hh := heightAt_pos wf ph.hts hlt
    obtain ⟨k1, k2, k3, k4⟩ := ph.mat c hc hlt
    have hn : ¬ (c.layer ≥ G.d.nLayers) := by omega
    have hif : ∀ p : Prop, ∀ _ : Decidable p, 0 < (if p then height G.d c.layer / 2 else height G.d c.layer) ∧
        0 < (if p then height G.d c.layer else height G.d c.layer / 2) := by
      intro p _; split_ifs <;> exact ⟨by positivity, by positivity⟩
    unfold gz gx gy
    rw [if_neg hn, if_neg hn, if_neg hn]
    by_cases hsrc : isSource (typeAt G.g c.layer) = true
    · have : c.mat = ownMat G c := by unfold ownMat; rw [if_pos hsrc]
      rw [this]
      revert hsrc
      cases typeAt G.g c.layer <;> intro hsrc <;> simp only [isSource, Bool.false_eq_true] at hsrc <;>
        refine ⟨?_, ?_, fun _ _ => ?_⟩ <;> first | positivity | exact div_nonneg (by positivity) (hif _ _).1.le | exact div_nonneg (by positivity) (hif _ _).2.le
    · have hsrc' : isSource (typeAt G.g c.layer) = false := by simpa using hsrc
      unfold condZ condX condY
      have : cellMaterial (layerAt G.g c.layer) G.d 0 0 = ownMat G c := by unfold ownMat; rw [hsrc']; rfl
      rw [this]
      revert hsrc'
      have c4 := c4 hlt
      have c5 := c5 hlt
      cases hty : typeAt G.g c.layer <;> intro hsrc <;> simp only [isSource, Bool.true_eq_false] at hsrc <;>
        refine ⟨?_, ?_, fun hd ht => ?_⟩ <;>
        first
        | positivity
        | exact mul_nonneg (c4 hty) hv
        | exact mul_nonneg (c5 hty) hv
        | exact div_nonneg (by positivity) (hif _ _).1.le
        | exact div_nonneg (by positivity) (hif _ _).2.le
        | exact absurd rfl (ht .ch2rm (by simp) hlt)
        | exact absurd rfl (ht .pfInline (by simp) hlt)
        | exact absurd rfl (ht .pfStag (by simp) hlt)
        | (simp only [hd, Bool.false_eq_true, if_false]; positivity)
        | (simp only; split_ifs <;> positivity)
  · have hn : c.layer ≥ G.d.nLayers := by omega
    unfold gz gx gy
    rw [if_pos hn, if_pos hn, if_pos hn]
    refine ⟨sprTerm_nonneg ph ?_, sprTerm_nonneg ph ?_, fun _ _ => sprTerm_nonneg ph ?_⟩ <;>
      rintro s m ⟨h1, h2, h3, k1, k2, k3, k4⟩ <;> (try simp only [sprEW, sprNS]) <;> positivity

section
variable (hf : FromStack d0 decl rs ns G) (fit : ChipFits G.d) (ph : PhysicalNU G) (hsh : Sharp G)
include hf fit ph hsh

/-- In a layer of coolant only, all the cells are coolant. -/
theorem coolant_layer {i : Nat} (hi : i < G.cells.length) {t : LType} (ht : t ∈ [LType.ch2rm, .pfInline, .pfStag]) (hl : G.cells[i].layer < G.d.nLayers)
    (hty : typeAt G.g G.cells[i].layer = t) : G.cells[i].chan = true := by
  obtain ⟨n, hn, k, hk, e⟩ := hf.elemAt hl
  by_cases hch : isChannel n.elem = true
  · cases hb : n.elem.body with
    | channel ch =>
      obtain ⟨h1, h2, h3, h4, h5, h6⟩ := hf.channel hn hb
      have hk' : k < chLayers ch := by unfold nLayersOf at hk; rw [hb] at hk; exact hk
      obtain ⟨r, c, hr, hc, ei⟩ := chan_of_layer hf hn hb hk' hi e
      have hg := chan_get hf hn hb hk' hr hc
      rw [← ei, List.getElem?_eq_getElem hi, Option.some.injEq] at hg
      rw [hg]
      show chanFlag G.d ch.model k c = true
      rw [wet_flag hk' h2 hc]
      rw [e] at hty
      have key : ∀ t', (chTypes ch.model)[k]? = some t' → t' = t := fun t' h => (h5 k t' h).1.symm.trans hty
      unfold coolantPos WetCol chLayers at *
      cases hm : ch.model <;> simp only [hm, if_true, reduceCtorEq, if_false] at hk' key h2 ⊢
      · exact absurd rfl h2
      · obtain rfl : k = 0 := by omega
        have := key _ rfl
        rw [← this] at ht; simp at ht
      all_goals
        have : k = 0 ∨ k = 1 ∨ k = 2 ∨ k = 3 := by omega
        rcases this with rfl | rfl | rfl | rfl <;> have := key _ rfl <;> rw [← this] at ht <;> simp at ht ⊢
    | die b => simp [isChannel, hb] at hch
    | layer l => simp [isChannel, hb] at hch
  · have := hf.solidAt hn (by simpa using hch) hk
    rw [← e, hty] at this
    simp only [List.mem_cons, List.not_mem_nil, or_false] at ht
    rcases ht with rfl | rfl | rfl <;> simp [solidish] at this

/-- Cells side by side along the flow: if one is coolant, both are. -/
theorem flow_wet {L : List (Conn K)} (hr : Runs (regions G.d.nLayers G.ty G.ls) L) {cn : Conn K} (hc : cn ∈ L) {i j : Nat} (e1 : cn.node1 = i) (e2 : cn.node2 = j)
    (hj : j < G.cells.length) (hdir : cn.dir = 2) (hch : (cellAt G.cells j).chan = true) : (cellAt G.cells i).chan = true := by
  have hij : i < j := by have := (runs_proper G.okTy hr).lt cn hc; omega
  have hi : i < G.cells.length := by omega
  rw [cellAt_eq hj] at hch
  obtain ⟨n, hn, ch, hb, k, r, c, hk, hr1, hc1, ej, hfl⟩ := coolant_cell hf hj hch
  have hmod := (hf.channel hn hb).2.1
  obtain ⟨rfl, hw⟩ := (wet_flag hk hmod hc1).mp hfl
  have hcj := chan_cell hf hn hb coolantPos_lt hr1 hc1
  rw [← ej] at hcj
  rcases (mem_pairs hr cn).mp hc with ⟨l, hl, hnot, h1, h2, h3, h4⟩ | ⟨p, hp, h1, h2, h3, h4, h5⟩
  · rw [e1] at h1; rw [e2] at h3; rw [e1, e2] at h2 h4
    have li := hf.layer_of_pos hi h1 (by omega)
    have lj := hf.layer_of_pos hj (by omega) h3
    have hjl : G.cells[j].layer = n.elem.offset + coolantPos ch := by rw [← cellAt_eq hj, hcj]; rfl
    obtain ⟨r', c', hr2, hc2, ei⟩ := chan_of_layer hf hn hb coolantPos_lt hi (by rw [li, ← lj, hjl])
    have hci := chan_cell hf hn hb coolantPos_lt hr2 hc2
    rw [← ei] at hci
    have hA := hsh _ (List.getElem_mem hi) _ (List.getElem_mem hj)
    have hp : Solid (G.cells[i]) := ph.cell _ (List.getElem_mem hi)
    have hq : Solid (G.cells[j]) := ph.cell _ (List.getElem_mem hj)
    have hsp := inLayer_cases (ty := G.ty l) (cellAt_eq hi) (cellAt_eq hj) hp hq hA
    change inLayer G.cells (G.ty l) i j = _ at h4
    rw [h4] at hsp
    rw [← cellAt_eq hi, ← cellAt_eq hj, hci, hcj] at hsp
    by_cases hX : TouchX (chanCell G.d ch.model n.elem.offset (coolantPos ch) r' c') (chanCell G.d ch.model n.elem.offset (coolantPos ch) r c)
    · rw [if_pos hX] at hsp
      split_ifs at hsp
      have := congrArg Conn.dir (Option.some.inj hsp)
      simp only at this; omega
    · rw [if_neg hX] at hsp
      by_cases hY : TouchY (chanCell G.d ch.model n.elem.offset (coolantPos ch) r' c') (chanCell G.d ch.model n.elem.offset (coolantPos ch) r c)
      · obtain ⟨rfl, -⟩ := (touchY_iff hf fit ph hsh hn hb coolantPos_lt hr2 hc2 hr1 hc1).mp hY
        rw [hci]
        exact (wet_flag coolantPos_lt hmod hc1).mpr ⟨rfl, hw⟩
      · rw [if_neg hY] at hsp; cases hsp
  · exfalso
    unfold between at h5
    simp only at h5
    split_ifs at h5
    have := congrArg Conn.dir (Option.some.inj h5)
    simp only at this
    omega

/-- The coefficients of two different cells: their sum is not positive. -/
theorem pair_nonpos (hp : ∀ ch, G.g.channel = some ch → PosChannel ch) {rnd : K → K} (hm : Assembled rnd G a m) {i j : Nat} (hij : i < j) (hj : j < G.cells.length) :
    m.entry i j + m.entry j i ≤ 0 := by
  rcases pair_flow hf fit ph hsh hm hij hj with e | ⟨n, hn, ch, hb, r, c, hr, hc, hw, -, -, e1, e2⟩
  swap
  · rw [e1, e2]; simp
  obtain ⟨L, hr, rfl⟩ := hm
  have hi : i < G.cells.length := by omega
  have hv := value_nonneg ph hr
  rcases pair_entries (rnd := rnd) (a := a) hr hij hj with ⟨cn, hc, e1, e2, e3, e4⟩ | ⟨-, e3, e4⟩
  · rw [e3] at e
    rw [e4] at e
    rw [e3, e4]
    have T := fun {x : Nat} (hx : x < G.cells.length) up note => terms_nonneg hf.wf ph hp (c := cellAt G.cells x) (by rw [cellAt_eq hx]; exact List.getElem_mem hx) (hv cn hc) up note
    have X := fun up note => T hj up note
    have Y := fun up note => T hi up note
    revert e
    unfold conductance
    simp only
    generalize (if (cellAt G.cells j).y0 < (cellAt G.cells i).y0 then (1 : K) else -1) = note
    split_ifs with h0 h1 h2 h3 h4 h5 h6 <;> intro e <;> simp only [one_mul] at e ⊢
    · have := (Y (!(decide ((cellAt G.cells j).layer < (cellAt G.cells i).layer))) 0).1; linarith
    · have := (X (decide ((cellAt G.cells j).layer < (cellAt G.cells i).layer)) 0).1; linarith
    · have := par_nonneg (X (decide ((cellAt G.cells j).layer < (cellAt G.cells i).layer)) 0).1 (Y (!(decide ((cellAt G.cells j).layer < (cellAt G.cells i).layer))) 0).1
      linarith
    · have := par_nonneg (X true 0).2.1 (Y true 0).2.1; linarith
    · linarith
    · have hdi : (cellAt G.cells i).chan = false := by simpa using h5
      have hdj : (cellAt G.cells j).chan = false := by
        cases hcc : (cellAt G.cells j).chan
        · rfl
        · rw [flow_wet hf fit ph hsh hr hc e1 e2 hj h4 hcc] at hdi; cases hdi
      have ncl : ∀ x, x < G.cells.length → (cellAt G.cells x).chan = false → ∀ t ∈ [LType.ch2rm, .pfInline, .pfStag],
          (cellAt G.cells x).layer < G.d.nLayers → typeAt G.g (cellAt G.cells x).layer ≠ t := by
        intro x hx hd t ht hl hty
        rw [cellAt_eq hx] at hd hl hty
        rw [coolant_layer hf fit ph hsh hx ht hl hty] at hd
        cases hd
      have := par_nonneg ((X true note).2.2 hdj (ncl j hj hdj)) ((Y true (-note)).2.2 hdi (ncl i hi hdi))
      linarith
    · simp
  · rw [e3, e4]; simp

theorem pair_nonpos' (hp : ∀ ch, G.g.channel = some ch → PosChannel ch) {rnd : K → K} (hm : Assembled rnd G a m) {i j : Nat} (hij : i ≠ j) (hi : i < G.cells.length)
    (hj : j < G.cells.length) : m.entry i j + m.entry j i ≤ 0 := by
  rcases Nat.lt_or_gt_of_ne hij with h | h
  · exact pair_nonpos hf fit ph hsh hp hm h hj
  · rw [add_comm]; exact pair_nonpos hf fit ph hsh hp hm h hi

/-- What the coolant of a column carries. -/
theorem stream_nonneg {ch : Channel K} (hp : PosChannel ch) {c : Nat} (hc : c < G.d.nCols) : 0 ≤ stream ch G.d c := by
  have hl : 0 < cellLength G.d c := by rw [← chan_len hf.wf.sized hc]; linarith [column_pos hf.wf.sized fit hc]
  have h1 := hp.vhc
  have h2 := hp.flow
  have h3 := hp.por.1
  have h4 := hp.len
  have h5 := hp.darcy
  have h6 := hp.height
  unfold stream
  cases ch.model <;> simp only <;> positivity

/-- Sums of the row and of the column of a cell: not negative, and positive unless the cell is a surface of a channel. -/
theorem sums_nonneg (hp : ∀ ch, G.g.channel = some ch → PosChannel ch) (hm : Assembled id G a m) (hat : a.transient = true) (ha : 0 < a.stepTime) {i : Nat}
    (hi : i < G.cells.length) :
    0 ≤ ∑ j ∈ Finset.range G.cells.length, m.entry i j ∧ 0 ≤ ∑ j ∈ Finset.range G.cells.length, m.entry j i ∧
    (0 < ∑ j ∈ Finset.range G.cells.length, m.entry i j ∨
      ∃ n ∈ ns, ∃ ch, n.elem.body = .channel ch ∧ ch.model ≠ .mc4rm ∧ ∃ k r c, (k = 0 ∨ k = 3) ∧ r < G.d.nRows ∧ c < G.d.nCols ∧ i = G.at (n.elem.offset + k) r c) := by
  have hst : ∀ x : K, storage a x = x / a.stepTime := fun x => by unfold storage; rw [hat]; rfl
  obtain ⟨hlen, hwid⟩ := ph.cell _ (List.getElem_mem hi)
  by_cases hin : InChannel ns G.cells[i]
  · obtain ⟨n, hn, ch, hb, b1, b2⟩ := hin
    have hk : G.cells[i].layer - n.elem.offset < chLayers ch := by omega
    obtain ⟨r, c, hr, hc, ei⟩ := chan_of_layer hf hn hb hk hi (by omega)
    generalize hkk : G.cells[i].layer - n.elem.offset = k at hk ei
    obtain ⟨g1, g2, -⟩ := hf.channel hn hb
    have pc := hp ch g1
    have q1 := pc.vhc
    have q2 := pc.height
    obtain ⟨q3, q4⟩ := pc.por
    have q5 := pc.wall.2.2.2
    have hs := stream_nonneg hf fit ph hsh pc hc
    have hi' : i = G.at (n.elem.offset + k) r c := ei
    by_cases hw : k = coolantPos ch ∧ WetCol G ch c
    · obtain ⟨rfl, hw⟩ := hw
      obtain ⟨-, cell, h1, h2, h3, h4⟩ := C58_stream hf fit ph hsh hm hn hb hr hc hw
      rw [coolantLayer_eq, ← hi'] at h1 h3 h4
      rw [List.getElem?_eq_getElem hi, Option.some.injEq] at h1
      have hpos : 0 < storage a (coolantHeat ch cell) := by
        rw [hst, ← h1]; unfold coolantHeat area
        split_ifs with hmo
        · positivity
        · have := pc.fluid hmo; positivity
      have e1 : 0 ≤ if r + 1 = G.d.nRows then stream ch G.d c else 0 := by split_ifs <;> first | exact hs | exact le_refl _
      have e2 : 0 ≤ if r = 0 then stream ch G.d c else 0 := by split_ifs <;> first | exact hs | exact le_refl _
      rw [h3, h4]
      exact ⟨by linarith, by linarith, Or.inl (by linarith)⟩
    · obtain ⟨cell, h1, h2, h3, h4⟩ := C58_walls hf fit ph hsh hm hn hb hk hr hc (fun h hww => hw ⟨by rw [coolantLayer_eq] at h; omega, hww⟩)
      rw [← hi'] at h1 h3 h4
      rw [List.getElem?_eq_getElem hi, Option.some.injEq] at h1
      rw [h3, h4, hst, ← h1]
      have q6 : 0 < 1 - ch.porosity := by linarith
      unfold wallHeat area
      by_cases h4 : ch.model = .mc4rm
      · rw [if_pos h4]
        exact ⟨by positivity, by positivity, Or.inl (by positivity)⟩
      · rw [if_neg h4]
        by_cases hk1 : k = 1
        · rw [if_pos hk1]
          exact ⟨by positivity, by positivity, Or.inl (by positivity)⟩
        · rw [if_neg hk1]
          have hk03 : k = 0 ∨ k = 3 := by
            have : coolantPos ch = 2 := by unfold coolantPos; rw [if_neg h4]
            have hL : chLayers ch = 4 := by simp [chLayers, h4]
            have : ¬ k = 2 := fun h => hw ⟨by omega, fun h' => absurd h' h4⟩
            omega
          exact ⟨by simp, by simp, Or.inr ⟨n, hn, ch, hb, h4, k, r, c, hk03, hr, hc, hi'⟩⟩
  · obtain ⟨h1, h2⟩ := C58_solid hf fit ph hsh hm hi hin
    have h3 : 0 < heatCapacity G G.cells[i] := by
      unfold heatCapacity
      split_ifs with hlt
      · have hh := heightAt_pos hf.wf ph.hts hlt
        obtain ⟨k1, k2, k3, k4⟩ := ph.mat _ (List.getElem_mem hi) hlt
        unfold area; positivity
      · obtain ⟨-, -, -, -, -, -, hl⟩ := hf.pos_layer hi
        obtain ⟨e, s, m, ht⟩ := hl.resolve_left hlt
        obtain ⟨h1, h2, h3, k1, k2, k3, k4⟩ := ph.spr s m ht
        unfold sprTerm; rw [ht]; unfold sprCapacity; positivity
    have h4 : 0 ≤ toAmbient G G.cells[i] := by
      unfold toAmbient
      split
      · rename_i s ht
        split_ifs with hl
        · have hlt : G.cells[i].layer < G.d.nLayers := by omega
          have hh := heightAt_pos hf.wf ph.hts hlt
          obtain ⟨k1, k2, k3, k4⟩ := ph.mat _ (List.getElem_mem hi) hlt
          have := ph.htc s ht
          unfold series area; positivity
        · exact le_refl _
      · exact le_refl _
    have h5 : 0 < storage a (heatCapacity G G.cells[i]) := by rw [hst]; positivity
    rw [h1, h2]
    exact ⟨by linarith, by linarith, Or.inl (by linarith)⟩

/-- **C62** With any model of the coolant, positive sizes, materials and coefficients, and a flow that is not negative, the linear system of
a transient step on a non-uniform grid has exactly one solution for every right-hand side. -/
theorem C62_step_unique (hp : ∀ ch, G.g.channel = some ch → PosChannel ch) (hm : Assembled id G a m) (hat : a.transient = true) (ha : 0 < a.stepTime) (b : Nat → K) :
    OneSolution G.cells.length m.entry b := by
  refine one_of_unique _ _ ?_
  have hsum : ∀ i : Fin G.cells.length, ∑ j : Fin G.cells.length, (m.entry i j + m.entry j i) / 2 =
      (∑ j ∈ Finset.range G.cells.length, m.entry i j + ∑ j ∈ Finset.range G.cells.length, m.entry j i) / 2 := by
    intro i
    rw [← sum_fin G.cells.length (fun j => m.entry i j), ← sum_fin G.cells.length (fun j => m.entry j i), ← Finset.sum_add_distrib, Finset.sum_div]
  have hS := fun i : Fin G.cells.length => sums_nonneg hf fit ph hsh hp hm hat ha i.2
  refine Net2.unique_of_network (S := Matrix.of fun (i j : Fin G.cells.length) => (m.entry i j + m.entry j i) / 2) (F := Matrix.of fun (i j : Fin G.cells.length) => (m.entry i j - m.entry j i) / 2) ?_ ?_ ?_ ?_ ?_ ?_ _
  · funext i j
    simp only [Matrix.add_apply, Matrix.of_apply]
    ring
  · intro i j; simp only [Matrix.of_apply]; ring
  · intro i j; simp only [Matrix.of_apply]; ring
  · intro i j hij
    simp only [Matrix.of_apply]
    have := pair_nonpos' hf fit ph hsh hp hm (fun h => hij (Fin.ext h)) i.2 j.2
    linarith
  · intro i
    simp only [Matrix.of_apply]
    rw [hsum i]
    obtain ⟨h1, h2, -⟩ := hS i
    linarith
  · intro i
    simp only [Matrix.of_apply]
    obtain ⟨h1, h2, h3⟩ := hS i
    rcases h3 with h3 | ⟨n, hn, ch, hb, h4, k, r, c, hk, hr, hc, e⟩
    · left; rw [hsum i]; linarith
    · right
      obtain ⟨g1, g2, -⟩ := hf.channel hn hb
      have pc := hp ch g1
      have hL : chLayers ch = 4 := by simp [chLayers, h4]
      have hlt : G.at (n.elem.offset + 1) r c < G.cells.length := chan_lt hf hn hb (k := 1) (by omega) hr hc
      have hw : ∃ v : K, 0 < v ∧ m.entry i (G.at (n.elem.offset + 1) r c) = - v ∧ m.entry (G.at (n.elem.offset + 1) r c) i = - v := by
        have hl : 0 < cellLength G.d c := by rw [← chan_len hf.wf.sized hc]; linarith [column_pos hf.wf.sized fit hc]
        have hnR : (0 : K) < (G.d.nRows : K) := by exact_mod_cast (by omega : 0 < G.d.nRows)
        have hwp : 0 < G.d.chipWidth / (G.d.nRows : K) := div_pos fit.chip hnR
        refine ⟨wallFace ch ((1 - ch.porosity) * chanArea G c), ?_, ?_⟩
        · have q6 : 0 < 1 - ch.porosity := by linarith [pc.por.2]
          have q7 := pc.wall.2.2.1
          have q8 := pc.height
          unfold wallFace chanArea
          positivity
        · obtain ⟨-, -, w1, w2, -⟩ := C58_inside_2rm hf fit ph hsh hm hn hb h4 hr hc
          rw [e]
          rcases hk with rfl | rfl
          · exact w1
          · exact ⟨w2.2, w2.1⟩
      obtain ⟨v, hv, v1, v2⟩ := hw
      refine ⟨⟨G.at (n.elem.offset + 1) r c, hlt⟩, ?_, ?_, ?_⟩
      · intro h
        have := congrArg Fin.val h
        simp only at this
        rw [e] at this
        have := (chan_cell hf hn hb (k := 1) (by omega) hr hc).symm.trans
          ((congrArg (cellAt G.cells) this).trans (chan_cell hf hn hb (k := k) (by omega) hr hc))
        have := congrArg Cell.layer this
        simp only [chanCell] at this
        omega
      · rw [hsum ⟨_, hlt⟩]
        obtain ⟨t1, t2, -⟩ := hS ⟨_, hlt⟩
        obtain ⟨cell, w1, -, -, w2⟩ := C58_walls hf fit ph hsh hm hn hb (k := 1) (by omega) hr hc (fun h hww => by
          rw [coolantLayer_eq] at h; unfold coolantPos at h; rw [if_neg h4] at h; omega)
        have w3 := ph.cell _ (List.mem_of_getElem? w1)
        have w4 : 0 < storage a (wallHeat ch 1 cell) := by
          have q6 : 0 < 1 - ch.porosity := by linarith [pc.por.2]
          have q7 := pc.wall.2.2.2
          have q8 := pc.height
          obtain ⟨q9, q10⟩ := w3
          unfold storage wallHeat area; rw [hat, if_neg h4]; simp only [if_true]; positivity
        simp only at t2 ⊢
        rw [w2]; linarith
      · simp only [v1, v2]
        intro h; linarith
end

end Verif.NU
