import Verif.Lemmas.NuFlow

set_option linter.unusedSectionVars false
set_option linter.unusedSimpArgs false
set_option linter.unusedVariables false

/-! # C58: channels on a non-uniform grid

`FromStack d0 decl rs ns G`: `G` is the non-uniform grid built from an accepted stack file; `decl` is the declared channel. The heat
carried by the coolant (`stream`) and the layer of the coolant (`coolantLayer`) are those of C57. -/

namespace Verif.NU
open Verif.Dim Verif.TG Verif.Stk Verif.SM

variable {K : Type} [Field K] [LinearOrder K] [IsStrictOrderedRing K]
variable {d0 : Dims K} {decl : Option (Channel K)} {rs : List (Raw K (List (FEl K)))} {ns : List (NElem K)} {G : Grid K} {a : Ana K} {m : Csc K}

/-! ## Specification -/

/-- Position of the cell at row `r` and column `c` of a layer whose cells form rows and columns. -/
def Grid.at (G : Grid K) (l r c : Nat) : Nat := firstCell G l + (r * G.d.nCols + c)

/-- Columns with coolant: every second one, between the two outer walls, for 4RM; all of them otherwise. -/
def WetCol (G : Grid K) (ch : Channel K) (c : Nat) : Prop := ch.model = .mc4rm → c % 2 = 1 ∧ c + 1 < G.d.nCols

/-- Heat capacity of a coolant cell: the whole cell is coolant in the 4RM model, a part of it (the porosity) in the others. -/
def coolantHeat (ch : Channel K) (c : Cell K) : K :=
  if ch.model = .mc4rm then ch.coolant.vhc * (area c * ch.height) else ch.coolant.vhc * (ch.porosity * (area c * ch.height))

/-- Is this cell filled with coolant? -/
def Filled (G : Grid K) (ns : List (NElem K)) (i : Nat) : Prop :=
  ∃ n ∈ ns, ∃ ch, n.elem.body = .channel ch ∧ ∃ r c, r < G.d.nRows ∧ c < G.d.nCols ∧ WetCol G ch c ∧ i = G.at (coolantLayer n.elem ch) r c

/-- Does the cell belong to a layer of a channel? -/
def InChannel (ns : List (NElem K)) (c : Cell K) : Prop :=
  ∃ n ∈ ns, ∃ ch, n.elem.body = .channel ch ∧ n.elem.offset ≤ c.layer ∧ c.layer < n.elem.offset + chLayers ch

/-- Heat capacity of a cell of the `k`-th layer of a channel that has no coolant: solid material in the 4RM model; in the others the
material between the channels (or the pins) is the second layer, and the layers below and above are surfaces. -/
def wallHeat (ch : Channel K) (k : Nat) (c : Cell K) : K :=
  if ch.model = .mc4rm then ch.wallMat.vhc * (area c * ch.height)
  else if k = 1 then ch.wallMat.vhc * ((1 - ch.porosity) * (area c * ch.height)) else 0

/-! ## Proofs -/

/-- The layer of the coolant, counted in the channel. -/
def coolantPos (ch : Channel K) : Nat := if ch.model = .mc4rm then 0 else 2

theorem coolantPos_lt {ch : Channel K} : coolantPos ch < chLayers ch := by unfold coolantPos chLayers; split_ifs <;> omega

theorem at_eq (G : Grid K) (n : NElem K) (ch : Channel K) (r c : Nat) : G.at (coolantLayer n.elem ch) r c = chanIdx G n (coolantPos ch) r c := by
  unfold Grid.at chanIdx coolantLayer coolantPos
  split_ifs <;> rfl

theorem wet_flag {ch : Channel K} {k c : Nat} (hk : k < chLayers ch) (hm : ch.model ≠ .none) (hc : c < G.d.nCols) :
    chanFlag G.d ch.model k c = true ↔ k = coolantPos ch ∧ WetCol G ch c := by
  unfold chanFlag coolantPos WetCol chLayers at *
  cases h : ch.model <;> simp [h] at hk hm ⊢ <;> omega

/-- Filled cells are the ones marked as channel by the program. -/
theorem filled_iff (hf : FromStack d0 decl rs ns G) {i : Nat} (hi : i < G.cells.length) : Filled G ns i ↔ G.cells[i].chan = true := by
  constructor
  · rintro ⟨n, hn, ch, hb, r, c, hr, hc, hw, rfl⟩
    have hm := (hf.channel hn hb).2.1
    have hget := chan_get hf hn hb coolantPos_lt hr hc
    rw [← at_eq, List.getElem?_eq_getElem hi, Option.some.injEq] at hget
    rw [hget]
    exact (wet_flag coolantPos_lt hm hc).mpr ⟨rfl, hw⟩
  · intro h
    obtain ⟨n, hn, ch, hb, k, r, c, hk, hr, hc, e, hfl⟩ := coolant_cell hf hi h
    have hm := (hf.channel hn hb).2.1
    obtain ⟨rfl, hw⟩ := (wet_flag hk hm hc).mp hfl
    exact ⟨n, hn, ch, hb, r, c, hr, hc, hw, by rw [at_eq]; exact e⟩

theorem coolant_type (hf : FromStack d0 decl rs ns G) {n : NElem K} (hn : n ∈ ns) {ch : Channel K} (hb : n.elem.body = .channel ch) :
    typeAt G.g (n.elem.offset + coolantPos ch) = (match ch.model with
      | .mc4rm => LType.ch4rm | .mc2rm => .ch2rm | .pfInline => .pfInline | .pfStag => .pfStag | .none => .none) ∧
    height G.d (n.elem.offset + coolantPos ch) = ch.height ∧ n.elem.offset + coolantPos ch < G.d.nLayers ∧
    G.ty (n.elem.offset + coolantPos ch) ≠ 1 ∧ G.ty (n.elem.offset + coolantPos ch) ≠ 3 := by
  obtain ⟨h1, h2, h3, h4, h5, h6⟩ := hf.channel hn hb
  have h7 := (h6 (coolantPos ch) coolantPos_lt).2
  have h8 : n.elem.offset + coolantPos ch < G.d.nLayers := by have := coolantPos_lt (ch := ch); omega
  rw [h7]
  unfold elemRecord
  rw [hb]
  revert h5
  unfold coolantPos at *
  cases hm : ch.model <;> simp only [hm] at h2 <;> intro h5
  · exact absurd rfl h2
  · simp only [if_true]; obtain ⟨t1, t2, t3⟩ := h5 0 .ch4rm rfl; refine ⟨t1, t3, by simpa [hm] using h8, by simp [hm], by simp [hm]⟩
  · simp only [reduceCtorEq, if_false]; obtain ⟨t1, t2, t3⟩ := h5 2 .ch2rm rfl; refine ⟨t1, t3, by simpa [hm] using h8, by simp [hm], by simp [hm]⟩
  · simp only [reduceCtorEq, if_false]; obtain ⟨t1, t2, t3⟩ := h5 2 .pfInline rfl; refine ⟨t1, t3, by simpa [hm] using h8, by simp [hm], by simp [hm]⟩
  · simp only [reduceCtorEq, if_false]; obtain ⟨t1, t2, t3⟩ := h5 2 .pfStag rfl; refine ⟨t1, t3, by simpa [hm] using h8, by simp [hm], by simp [hm]⟩

/-- Transport term of a coolant cell. -/
theorem gy_coolant (hf : FromStack d0 decl rs ns G) {n : NElem K} (hn : n ∈ ns) {ch : Channel K} (hb : n.elem.body = .channel ch) {r c : Nat}
    (hr : r < G.d.nRows) (hc : c < G.d.nCols) (hw : WetCol G ch c) (note v : K)
    (hv : ch.model ≠ .mc4rm → v = cellLength G.d c) :
    gy G.g G.d v (chanCell G.d ch.model n.elem.offset (coolantPos ch) r c) note = note * (stream ch G.d c / 2) := by
  obtain ⟨h1, h2, -⟩ := hf.channel hn hb
  obtain ⟨ht, hh, hl, -⟩ := coolant_type hf hn hb
  have hfl := (wet_flag (G := G) (coolantPos_lt (ch := ch)) h2 hc).mpr ⟨rfl, hw⟩
  unfold gy
  have e1 : (chanCell G.d ch.model n.elem.offset (coolantPos ch) r c).layer = n.elem.offset + coolantPos ch := rfl
  have e2 : (chanCell G.d ch.model n.elem.offset (coolantPos ch) r c).chan = true := hfl
  rw [e1, e2, if_neg (by omega), ht]
  unfold convective convectiveNU stream
  rw [h1]
  cases hm : ch.model <;> simp only [hm] at h2 hv ⊢
  · exact absurd rfl h2
  · simp only [if_true]; congr 1; simp only [div_eq_mul_inv, mul_inv]; ring
  · rw [hv (by simp)]; congr 1; simp only [div_eq_mul_inv, mul_inv]; ring
  · rw [hv (by simp), hh]; congr 1; simp only [div_eq_mul_inv, mul_inv]; ring
  · rw [hv (by simp), hh]; congr 1; simp only [div_eq_mul_inv, mul_inv]; ring

section
variable (hf : FromStack d0 decl rs ns G) (fit : ChipFits G.d) (ph : PhysicalNU G) (hsh : Sharp G)
include hf fit ph hsh

/-- Cells of a layer of a channel side by side along the flow. -/
theorem touchY_iff {n : NElem K} (hn : n ∈ ns) {ch : Channel K} (hb : n.elem.body = .channel ch) {k r c r' c' : Nat}
    (hk : k < chLayers ch) (hr : r < G.d.nRows) (hc : c < G.d.nCols) (hr' : r' < G.d.nRows) (hc' : c' < G.d.nCols) :
    TouchY (chanCell G.d ch.model n.elem.offset k r c) (chanCell G.d ch.model n.elem.offset k r' c') ↔ c = c' ∧ (r' = r + 1 ∨ r = r' + 1) := by
  have hs := hf.wf.sized
  have hnR : (0 : K) < (G.d.nRows : K) := by exact_mod_cast (by omega : 0 < G.d.nRows)
  have hw : G.d.chipWidth / (G.d.nRows : K) ≠ 0 := ne_of_gt (div_pos fit.chip hnR)
  have hcol := column_pos hs fit hc
  have hcol' := column_pos hs fit hc'
  have hy : ∀ x y : Nat, G.d.chipWidth / (G.d.nRows : K) * (x : K) = G.d.chipWidth / (G.d.nRows : K) * (y : K) ↔ x = y := by
    intro x y
    rw [mul_right_inj' hw, Nat.cast_inj]
  unfold TouchY commonX
  have ho := overlap_pos hcol hcol'
  change _ ∧ 0 < overlap (chanX0 G.d c) (chanX1 G.d c) (chanX0 G.d c') (chanX1 G.d c') ↔ _
  rw [ho]
  show (G.d.chipWidth / (G.d.nRows : K) * ((r + 1 : Nat) : K) = G.d.chipWidth / (G.d.nRows : K) * (r' : K) ∨
    G.d.chipWidth / (G.d.nRows : K) * ((r' + 1 : Nat) : K) = G.d.chipWidth / (G.d.nRows : K) * (r : K)) ∧
    chanX0 G.d c - chanX1 G.d c' < 0 ∧ 0 < chanX1 G.d c - chanX0 G.d c' ↔ _
  rw [hy, hy, sub_neg, sub_pos]
  constructor
  · rintro ⟨h1, h2, h3⟩
    refine ⟨?_, by omega⟩
    rcases Nat.lt_trichotomy c c' with h | h | h
    · exact absurd (columns_apart hs fit h hc') (not_le.mpr h3)
    · exact h
    · exact absurd (columns_apart hs fit h hc) (not_le.mpr h2)
  · rintro ⟨rfl, h⟩
    exact ⟨by omega, hcol, hcol⟩

/-- The coefficients of two cells of a pair are equal, unless the two are consecutive coolant cells of a column. -/
theorem pair_flow {rnd : K → K} (hm : Assembled rnd G a m) {i j : Nat} (hij : i < j) (hj : j < G.cells.length) :
    m.entry i j = m.entry j i ∨ ∃ n ∈ ns, ∃ ch, n.elem.body = .channel ch ∧ ∃ r c, r + 1 < G.d.nRows ∧ c < G.d.nCols ∧ WetCol G ch c ∧
      i = G.at (coolantLayer n.elem ch) r c ∧ j = G.at (coolantLayer n.elem ch) (r + 1) c ∧
      m.entry j i = - (stream ch G.d c / 2) ∧ m.entry i j = stream ch G.d c / 2 := by
  obtain ⟨L, hr, rfl⟩ := hm
  have hi : i < G.cells.length := by omega
  rcases pair_entries (rnd := rnd) (a := a) hr hij hj with ⟨cn, hc, e1, e2, e3, e4⟩ | ⟨-, e3, e4⟩
  · by_cases hdir : cn.dir = 2 ∧ (cellAt G.cells i).chan = true
    · right
      rw [cellAt_eq hi] at hdir
      obtain ⟨n, hn, ch, hb, k, r, c, hk, hr1, hc1, ei, hfl⟩ := coolant_cell hf hi hdir.2
      have hmod := (hf.channel hn hb).2.1
      obtain ⟨rfl, hw⟩ := (wet_flag hk hmod hc1).mp hfl
      have hci := chan_cell hf hn hb coolantPos_lt hr1 hc1
      rw [← ei] at hci
      -- the connection is in the layer
      rcases (mem_pairs hr cn).mp hc with ⟨l, hl, hnot, h1, h2, h3, h4⟩ | ⟨p, hp, h1, h2, h3, h4, h5⟩
      · rw [e1] at h1; rw [e2] at h3; rw [e1, e2] at h2 h4
        have li := hf.layer_of_pos hi h1 (by omega)
        have lj := hf.layer_of_pos hj (by omega) h3
        have hil : G.cells[i].layer = n.elem.offset + coolantPos ch := by rw [← cellAt_eq hi, hci]; rfl
        obtain ⟨r', c', hr2, hc2, ej⟩ := chan_of_layer hf hn hb coolantPos_lt hj (by rw [lj, ← li, hil])
        have hcj := chan_cell hf hn hb coolantPos_lt hr2 hc2
        rw [← ej] at hcj
        have hA := hsh _ (List.getElem_mem hi) _ (List.getElem_mem hj)
        have hp : Solid (G.cells[i]) := ph.cell _ (List.getElem_mem hi)
        have hq : Solid (G.cells[j]) := ph.cell _ (List.getElem_mem hj)
        have hsp := inLayer_cases (ty := G.ty l) (cellAt_eq hi) (cellAt_eq hj) hp hq hA
        change inLayer G.cells (G.ty l) i j = _ at h4
        rw [h4] at hsp
        rw [← cellAt_eq hi, ← cellAt_eq hj, hci, hcj] at hsp
        obtain ⟨ht, hh, -, ty1, ty3⟩ := coolant_type hf hn hb
        have hll : l = n.elem.offset + coolantPos ch := by rw [← li, hil]
        rw [← hll] at ty1 ty3
        by_cases hX : TouchX (chanCell G.d ch.model n.elem.offset (coolantPos ch) r c) (chanCell G.d ch.model n.elem.offset (coolantPos ch) r' c')
        · rw [if_pos hX] at hsp
          split_ifs at hsp
          have := congrArg Conn.dir (Option.some.inj hsp)
          simp only at this; omega
        · rw [if_neg hX] at hsp
          by_cases hY : TouchY (chanCell G.d ch.model n.elem.offset (coolantPos ch) r c) (chanCell G.d ch.model n.elem.offset (coolantPos ch) r' c')
          · rw [if_pos hY, if_neg (by omega)] at hsp
            obtain ⟨rfl, hrr⟩ := (touchY_iff hf fit ph hsh hn hb coolantPos_lt hr1 hc1 hr2 hc2).mp hY
            have hpos : 0 < G.d.nCols := by omega
            have hr3 : r' = r + 1 := by
              rcases hrr with h | h
              · exact h
              · exfalso
                rw [ei, ej, h] at hij
                unfold chanIdx at hij
                have : (r' + 1) * G.d.nCols = r' * G.d.nCols + G.d.nCols := by ring
                omega
            subst hr3
            have hval : cn.value = cellLength G.d c := by
              have := congrArg Conn.value (Option.some.inj hsp)
              rw [this]
              have hs := hf.wf.sized
              have hp := column_pos hs fit hc1
              show shortest (chanX0 G.d c - chanX1 G.d c) (chanX1 G.d c - chanX0 G.d c) = _
              rw [shortest_eq (by linarith) (by linarith), neg_sub, min_self, chan_len hs hc1]
            have hcond : conductance G.g G.d cn (cellAt G.cells j) (cellAt G.cells i) = (- (stream ch G.d c / 2), -1) := by
              unfold conductance
              rw [hci, hcj, if_neg (by omega), if_neg (by omega), if_pos hdir.1]
              have hchan : (chanCell G.d ch.model n.elem.offset (coolantPos ch) r c).chan = true := hfl
              simp only [hchan, if_true]
              have hy : ¬ (chanCell G.d ch.model n.elem.offset (coolantPos ch) (r + 1) c).y0 < (chanCell G.d ch.model n.elem.offset (coolantPos ch) r c).y0 := by
                show ¬ G.d.chipWidth / (G.d.nRows : K) * ((r + 1 : Nat) : K) < G.d.chipWidth / (G.d.nRows : K) * (r : K)
                have hnR : (0 : K) < (G.d.nRows : K) := by exact_mod_cast (by omega : 0 < G.d.nRows)
                have : 0 < G.d.chipWidth / (G.d.nRows : K) := div_pos fit.chip hnR
                push_cast
                rw [not_lt]; nlinarith
              rw [if_neg hy, gy_coolant hf hn hb hr1 hc1 hw _ _ (fun _ => hval)]
              simp
            refine ⟨n, hn, ch, hb, r, c, hr2, hc1, hw, by rw [at_eq]; exact ei, by rw [at_eq]; exact ej, ?_, ?_⟩
            · rw [e3, hcond]
            · rw [e4, hcond]; simp
          · rw [if_neg hY] at hsp; cases hsp
      · exfalso
        unfold between at h5
        simp only at h5
        split_ifs at h5
        have := congrArg Conn.dir (Option.some.inj h5)
        simp only at this
        omega
    · left
      rw [e3, e4]
      have : (conductance G.g G.d cn (cellAt G.cells j) (cellAt G.cells i)).2 = 1 := by
        unfold conductance
        simp only
        split_ifs with h1 h2 h3 h4 <;> first | rfl | exact absurd ⟨‹_›, ‹_›⟩ hdir
      rw [this, one_mul]
  · left; rw [e3, e4]

/-- Two consecutive coolant cells of a column. -/
theorem flow_entries {rnd : K → K} (hm : Assembled rnd G a m) {n : NElem K} (hn : n ∈ ns) {ch : Channel K} (hb : n.elem.body = .channel ch) {r c : Nat}
    (hr : r + 1 < G.d.nRows) (hc : c < G.d.nCols) (hw : WetCol G ch c) :
    m.entry (G.at (coolantLayer n.elem ch) (r + 1) c) (G.at (coolantLayer n.elem ch) r c) = - (stream ch G.d c / 2) ∧
    m.entry (G.at (coolantLayer n.elem ch) r c) (G.at (coolantLayer n.elem ch) (r + 1) c) = stream ch G.d c / 2 := by
  obtain ⟨L, hrun, rfl⟩ := hm
  rw [at_eq, at_eq]
  have hr1 : r < G.d.nRows := by omega
  have hi := chan_lt hf hn hb (coolantPos_lt (ch := ch)) hr1 hc
  have hj := chan_lt hf hn hb (coolantPos_lt (ch := ch)) hr hc
  have hij : chanIdx G n (coolantPos ch) r c < chanIdx G n (coolantPos ch) (r + 1) c := by
    unfold chanIdx
    have : (r + 1) * G.d.nCols = r * G.d.nCols + G.d.nCols := by ring
    omega
  have hci := chan_cell hf hn hb (coolantPos_lt (ch := ch)) hr1 hc
  have hcj := chan_cell hf hn hb (coolantPos_lt (ch := ch)) hr hc
  have hmod := (hf.channel hn hb).2.1
  obtain ⟨ht, hh, hl, ty1, ty3⟩ := coolant_type hf hn hb
  have hA := hsh _ (List.getElem_mem hi) _ (List.getElem_mem hj)
  have hp : Solid (G.cells[chanIdx G n (coolantPos ch) r c]) := ph.cell _ (List.getElem_mem hi)
  have hq : Solid (G.cells[chanIdx G n (coolantPos ch) (r + 1) c]) := ph.cell _ (List.getElem_mem hj)
  have hsp := inLayer_cases (ty := G.ty (n.elem.offset + coolantPos ch)) (cellAt_eq hi) (cellAt_eq hj) hp hq hA
  have hY := (touchY_iff hf fit ph hsh hn hb (coolantPos_lt (ch := ch)) hr1 hc hr hc).mpr ⟨rfl, Or.inl rfl⟩
  rw [← cellAt_eq hi, ← cellAt_eq hj, hci, hcj] at hsp
  rw [← cellAt_eq hi, hci] at hp
  rw [← cellAt_eq hj, hcj] at hq
  have hX : ¬ TouchX (chanCell G.d ch.model n.elem.offset (coolantPos ch) r c) (chanCell G.d ch.model n.elem.offset (coolantPos ch) (r + 1) c) := by
    intro hX
    obtain ⟨h1, -⟩ := hX
    have := column_pos hf.wf.sized fit hc
    rcases h1 with h1 | h1
    · change chanX1 G.d c = chanX0 G.d c at h1; linarith
    · change chanX1 G.d c = chanX0 G.d c at h1; linarith
  rw [if_neg hX, if_pos hY, if_neg (by omega)] at hsp
  have hval : shortest ((chanCell G.d ch.model n.elem.offset (coolantPos ch) r c).x0 - (chanCell G.d ch.model n.elem.offset (coolantPos ch) (r + 1) c).x1)
      ((chanCell G.d ch.model n.elem.offset (coolantPos ch) r c).x1 - (chanCell G.d ch.model n.elem.offset (coolantPos ch) (r + 1) c).x0) = cellLength G.d c := by
    have hs := hf.wf.sized
    have hp := column_pos hs fit hc
    show shortest (chanX0 G.d c - chanX1 G.d c) (chanX1 G.d c - chanX0 G.d c) = _
    rw [shortest_eq (by linarith) (by linarith), neg_sub, min_self, chan_len hs hc]
  rw [hval] at hsp
  generalize hcn : (⟨chanIdx G n (coolantPos ch) r c, chanIdx G n (coolantPos ch) (r + 1) c, cellLength G.d c, 2⟩ : Conn K) = cn at hsp
  have hmem : cn ∈ L := by
    rw [mem_pairs hrun]
    left
    have hlen : start G.ls (n.elem.offset + coolantPos ch + 1) = start G.ls (n.elem.offset + coolantPos ch) + G.d.nCols * G.d.nRows := by
      rw [start_succ, ((hf.channel hn hb).2.2.2.2.2 _ coolantPos_lt).1]
      simp [channelLayer_length]
    have hb1 := rc_lt hr hc
    refine ⟨n.elem.offset + coolantPos ch, by omega, by omega, ?_, ?_, ?_, ?_⟩ <;> rw [← hcn]
    · show start G.ls _ ≤ chanIdx _ _ _ _ _; unfold chanIdx firstCell start; omega
    · exact hij
    · rw [hlen]; show chanIdx _ _ _ _ _ < _; unfold chanIdx firstCell start; omega
    · exact hsp.trans (congrArg some hcn.symm)
  rcases pair_entries (rnd := rnd) (a := a) hrun hij hj with ⟨cn', hc', e1, e2, e3, e4⟩ | ⟨hno, -, -⟩
  · have hcc : cn' = cn := by
      have h1 := runs_proper G.okTy hrun
      refine List.inj_on_of_nodup_map h1.once hc' hmem ?_
      rw [← hcn, e1, e2]
    have hcond : conductance G.g G.d cn' (cellAt G.cells (chanIdx G n (coolantPos ch) (r + 1) c)) (cellAt G.cells (chanIdx G n (coolantPos ch) r c)) =
        (- (stream ch G.d c / 2), -1) := by
      rw [hcc, ← hcn]
      unfold conductance
      rw [hci, hcj, if_neg (show ¬ (2 : Nat) = 0 by decide), if_neg (show ¬ (2 : Nat) = 1 by decide), if_pos rfl]
      have hchan : (chanCell G.d ch.model n.elem.offset (coolantPos ch) r c).chan = true := (wet_flag coolantPos_lt hmod hc).mpr ⟨rfl, hw⟩
      simp only [hchan, if_true]
      have hy : ¬ (chanCell G.d ch.model n.elem.offset (coolantPos ch) (r + 1) c).y0 < (chanCell G.d ch.model n.elem.offset (coolantPos ch) r c).y0 := by
        show ¬ G.d.chipWidth / (G.d.nRows : K) * ((r + 1 : Nat) : K) < G.d.chipWidth / (G.d.nRows : K) * (r : K)
        have hnR : (0 : K) < (G.d.nRows : K) := by exact_mod_cast (by omega : 0 < G.d.nRows)
        have : 0 < G.d.chipWidth / (G.d.nRows : K) := div_pos fit.chip hnR
        push_cast
        rw [not_lt]; nlinarith
      rw [if_neg hy, gy_coolant hf hn hb hr1 hc hw _ _ (fun _ => rfl)]
      simp
    rw [e3, e4, hcond]
    simp
  · exact absurd ⟨by rw [← hcn], by rw [← hcn]⟩ (hno cn hmem)

/-- Difference between the coefficients of the row and of the column of a cell that is not coolant. -/
theorem dry_symm {rnd : K → K} (hm : Assembled rnd G a m) {i j : Nat} (hi : i < G.cells.length) (hj : j < G.cells.length)
    (hd : ¬ Filled G ns i) : m.entry i j = m.entry j i := by
  rcases Nat.lt_trichotomy i j with h | h | h
  · rcases pair_flow hf fit ph hsh hm h hj with e | ⟨n, hn, ch, hb, r, c, hr, hc, hw, ei, -⟩
    · exact e
    · exact absurd ⟨n, hn, ch, hb, r, c, by omega, hc, hw, ei⟩ hd
  · rw [h]
  · rcases pair_flow hf fit ph hsh hm h hi with e | ⟨n, hn, ch, hb, r, c, hr, hc, hw, -, ej, -⟩
    · exact e.symm
    · exact absurd ⟨n, hn, ch, hb, r + 1, c, hr, hc, hw, ej⟩ hd

/-- Two positions of coolant cells are equal only for the same channel, row and column. -/
theorem at_inj {n n' : NElem K} (hn : n ∈ ns) (hn' : n' ∈ ns) {ch ch' : Channel K} (hb : n.elem.body = .channel ch)
    (hb' : n'.elem.body = .channel ch') {r c r' c' : Nat} (hr : r < G.d.nRows) (hc : c < G.d.nCols) (hr' : r' < G.d.nRows) (hc' : c' < G.d.nCols)
    (h : G.at (coolantLayer n.elem ch) r c = G.at (coolantLayer n'.elem ch') r' c') : ch = ch' ∧ r = r' ∧ c = c' ∧ coolantLayer n.elem ch = coolantLayer n'.elem ch' := by
  have hch : ch = ch' := by
    have h1 := (hf.channel hn hb).1
    rw [(hf.channel hn' hb').1] at h1
    exact (Option.some.inj h1).symm
  subst hch
  have g1 := chan_get hf hn hb (coolantPos_lt (ch := ch)) hr hc
  have g2 := chan_get hf hn' hb' (coolantPos_lt (ch := ch)) hr' hc'
  rw [← at_eq] at g1 g2
  rw [← h, g1, Option.some.injEq] at g2
  have hl := congrArg Cell.layer g2
  change n.elem.offset + coolantPos ch = n'.elem.offset + coolantPos ch at hl
  have hL : coolantLayer n.elem ch = coolantLayer n'.elem ch := by
    unfold coolantLayer; split_ifs <;> omega
  unfold Grid.at at h
  rw [hL] at h
  have h := Nat.add_left_cancel h
  have e1 : r = r' := by
    have := congrArg (· / G.d.nCols) h
    rwa [Nat.add_comm, Nat.add_mul_div_right _ _ (by omega), Nat.div_eq_of_lt hc, Nat.zero_add, Nat.add_comm (r' * G.d.nCols),
      Nat.add_mul_div_right _ _ (by omega), Nat.div_eq_of_lt hc', Nat.zero_add] at this
  subst e1
  exact ⟨rfl, rfl, by omega, hL⟩

/-- Difference between the row and the column of a coolant cell. -/
theorem wet_diff {rnd : K → K} (hm : Assembled rnd G a m) {n : NElem K} (hn : n ∈ ns) {ch : Channel K} (hb : n.elem.body = .channel ch) {r c j : Nat}
    (hr : r < G.d.nRows) (hc : c < G.d.nCols) (hw : WetCol G ch c) (hj : j < G.cells.length) :
    m.entry (G.at (coolantLayer n.elem ch) r c) j - m.entry j (G.at (coolantLayer n.elem ch) r c) =
      (if j = G.at (coolantLayer n.elem ch) (r + 1) c then (if r + 1 < G.d.nRows then stream ch G.d c else 0) else 0) +
      (if j + G.d.nCols = G.at (coolantLayer n.elem ch) r c then (if 0 < r then - stream ch G.d c else 0) else 0) := by
  have hi : G.at (coolantLayer n.elem ch) r c < G.cells.length := by rw [at_eq]; exact chan_lt hf hn hb coolantPos_lt hr hc
  have hnext : G.at (coolantLayer n.elem ch) (r + 1) c = G.at (coolantLayer n.elem ch) r c + G.d.nCols := by unfold Grid.at; ring
  have hprev : ∀ r0, r = r0 + 1 → G.at (coolantLayer n.elem ch) r c = G.at (coolantLayer n.elem ch) r0 c + G.d.nCols := by
    intro r0 h; subst h; unfold Grid.at; ring
  rcases Nat.lt_trichotomy (G.at (coolantLayer n.elem ch) r c) j with h | h | h
  · rw [if_neg (show ¬ (j + G.d.nCols = _) by omega), add_zero]
    by_cases he : j = G.at (coolantLayer n.elem ch) (r + 1) c ∧ r + 1 < G.d.nRows
    · obtain ⟨rfl, hr1⟩ := he
      obtain ⟨f1, f2⟩ := flow_entries hf fit ph hsh hm hn hb hr1 hc hw
      rw [if_pos rfl, if_pos hr1, f1, f2]; ring
    · have hz : (if j = G.at (coolantLayer n.elem ch) (r + 1) c then (if r + 1 < G.d.nRows then stream ch G.d c else 0) else (0 : K)) = 0 := by
        split_ifs with h1 h2
        · exact absurd ⟨h1, h2⟩ he
        · rfl
        · rfl
      rw [hz]
      rcases pair_flow hf fit ph hsh hm h hj with e | ⟨n', hn', ch', hb', r', c', hr', hc', hw', ei, ej, -⟩
      · rw [e]; ring
      · exfalso
        obtain ⟨rfl, rfl, rfl, hL⟩ := at_inj hf fit ph hsh hn hn' hb hb' hr hc (by omega) hc' ei
        exact he ⟨by rw [ej]; unfold Grid.at; rw [hL], hr'⟩
  · rw [h, sub_self, if_neg (by omega), if_neg (by omega), add_zero]
  · rw [if_neg (show ¬ (j = _) by omega), zero_add]
    by_cases he : j + G.d.nCols = G.at (coolantLayer n.elem ch) r c ∧ 0 < r
    · obtain ⟨e1, hr0⟩ := he
      obtain ⟨r0, rfl⟩ : ∃ r0, r = r0 + 1 := ⟨r - 1, by omega⟩
      have hp := hprev r0 rfl
      have hjj : j = G.at (coolantLayer n.elem ch) r0 c := by omega
      obtain ⟨f1, f2⟩ := flow_entries hf fit ph hsh hm hn hb hr hc hw
      rw [if_pos e1, if_pos hr0, hjj, f1, f2]; ring
    · have hz : (if j + G.d.nCols = G.at (coolantLayer n.elem ch) r c then (if 0 < r then - stream ch G.d c else 0) else (0 : K)) = 0 := by
        split_ifs with h1 h2
        · exact absurd ⟨h1, h2⟩ he
        · rfl
        · rfl
      rw [hz]
      rcases pair_flow hf fit ph hsh hm h hi with e | ⟨n', hn', ch', hb', r', c', hr', hc', hw', ei, ej, -⟩
      · rw [e]; ring
      · exfalso
        obtain ⟨rfl, e2, rfl, hL⟩ := at_inj hf fit ph hsh hn hn' hb hb' hr hc hr' hc' ej
        refine he ⟨?_, by omega⟩
        rw [hprev r' e2, ei]
        unfold Grid.at; rw [hL]

/-- Sum of the coefficients of the column of a coolant cell. -/
theorem base_coolant {n : NElem K} (hn : n ∈ ns) {ch : Channel K} (hb : n.elem.body = .channel ch) {r c : Nat}
    (hr : r < G.d.nRows) (hc : c < G.d.nCols) (hw : WetCol G ch c) :
    diagBase G.g a G.d (chanCell G.d ch.model n.elem.offset (coolantPos ch) r c) =
      storage a (coolantHeat ch (chanCell G.d ch.model n.elem.offset (coolantPos ch) r c)) + (if r + 1 = G.d.nRows then stream ch G.d c else 0) := by
  obtain ⟨h1, h2, -⟩ := hf.channel hn hb
  obtain ⟨ht, hh, hl, -⟩ := coolant_type hf hn hb
  have hfl := (wet_flag (G := G) (coolantPos_lt (ch := ch)) h2 hc).mpr ⟨rfl, hw⟩
  have hnl := hf.wf.nl
  have hgy := fun v hv => gy_coolant hf hn hb hr hc hw 1 v hv
  have hlen : (chanCell G.d ch.model n.elem.offset (coolantPos ch) r c).length = cellLength G.d c := chan_len hf.wf.sized hc
  have hout : ((chanCell G.d ch.model n.elem.offset (coolantPos ch) r c).chan = true ∧ (chanCell G.d ch.model n.elem.offset (coolantPos ch) r c).y0 +
      (chanCell G.d ch.model n.elem.offset (coolantPos ch) r c).width = G.d.chipWidth) ↔ r + 1 = G.d.nRows := by
    have hnR : (0 : K) < (G.d.nRows : K) := by exact_mod_cast (by omega : 0 < G.d.nRows)
    have e : (chanCell G.d ch.model n.elem.offset (coolantPos ch) r c).y0 + (chanCell G.d ch.model n.elem.offset (coolantPos ch) r c).width =
        G.d.chipWidth / (G.d.nRows : K) * ((r + 1 : Nat) : K) := by
      show G.d.chipWidth / (G.d.nRows : K) * (r : K) + (G.d.chipWidth / (G.d.nRows : K) * ((r + 1 : Nat) : K) - G.d.chipWidth / (G.d.nRows : K) * (r : K)) = _
      ring
    rw [e]
    have hW := ne_of_gt fit.chip
    constructor
    · rintro ⟨-, h⟩
      rw [div_mul_eq_mul_div, div_eq_iff (ne_of_gt hnR), mul_right_inj' hW, Nat.cast_inj] at h
      exact h
    · intro h
      refine ⟨hfl, ?_⟩
      rw [h, div_mul_cancel₀ _ (ne_of_gt hnR)]
  unfold diagBase
  congr 1
  · congr 1
    unfold capacityNU coolantHeat area
    have e1 : (chanCell G.d ch.model n.elem.offset (coolantPos ch) r c).layer = n.elem.offset + coolantPos ch := rfl
    have e2 : (chanCell G.d ch.model n.elem.offset (coolantPos ch) r c).chan = true := hfl
    rw [e1, e2, hnl, if_neg (by omega), ht, hh]
    simp only [chan, h1, Option.map_some, Option.getD_some]
    generalize (chanCell G.d ch.model n.elem.offset (coolantPos ch) r c).length = x
    generalize (chanCell G.d ch.model n.elem.offset (coolantPos ch) r c).width = y
    cases hm : ch.model <;> simp only [hm] at h2
    · exact absurd rfl h2
    all_goals simp; ring
  · unfold boundary
    have e1 : (chanCell G.d ch.model n.elem.offset (coolantPos ch) r c).layer = n.elem.offset + coolantPos ch := rfl
    rw [e1, if_pos hl, ht]
    have hz : ∀ x : K, (if r + 1 = G.d.nRows then 2 * x else 0) = if r + 1 = G.d.nRows then 2 * x else 0 := fun _ => rfl
    simp only [hout, hlen]
    have h0 : ch.model = .mc4rm → gy G.g G.d 0 (chanCell G.d ch.model n.elem.offset (coolantPos ch) r c) 1 = stream ch G.d c / 2 := by
      intro h4; rw [hgy 0 (fun h => absurd h4 h), one_mul]
    have h1' : gy G.g G.d (cellLength G.d c) (chanCell G.d ch.model n.elem.offset (coolantPos ch) r c) 1 = stream ch G.d c / 2 := by
      rw [hgy _ (fun _ => rfl), one_mul]
    rw [h1']
    cases hm : ch.model with
    | none => exact absurd hm h2
    | mc4rm => simp only [hm] at h0 ⊢; rw [h0 trivial]; split_ifs <;> ring
    | mc2rm => simp only; split_ifs <;> ring
    | pfInline => simp only; split_ifs <;> ring
    | pfStag => simp only; split_ifs <;> ring

/-! ## C58 -/

/-- **C58 (coolant)** Along the flow a coolant cell is coupled to the next one by half the heat that the stream carries per kelvin, with
opposite signs in the two directions. In the columns of the matrix only the last row of the channel has, besides the stored heat, a
loss: the whole stream; in its rows only the first row has a gain: the whole stream. This includes channels of a single row. -/
theorem C58_stream (hm : Assembled id G a m) {n : NElem K} (hn : n ∈ ns) {ch : Channel K} (hb : n.elem.body = .channel ch) {r c : Nat}
    (hr : r < G.d.nRows) (hc : c < G.d.nCols) (hw : WetCol G ch c) :
    (r + 1 < G.d.nRows →
      m.entry (G.at (coolantLayer n.elem ch) (r + 1) c) (G.at (coolantLayer n.elem ch) r c) = - (stream ch G.d c / 2) ∧
      m.entry (G.at (coolantLayer n.elem ch) r c) (G.at (coolantLayer n.elem ch) (r + 1) c) = stream ch G.d c / 2) ∧
    ∃ cell, G.cells[G.at (coolantLayer n.elem ch) r c]? = some cell ∧ cell.layer = coolantLayer n.elem ch ∧
      ∑ i ∈ Finset.range G.cells.length, m.entry i (G.at (coolantLayer n.elem ch) r c) =
        storage a (coolantHeat ch cell) + (if r + 1 = G.d.nRows then stream ch G.d c else 0) ∧
      ∑ j ∈ Finset.range G.cells.length, m.entry (G.at (coolantLayer n.elem ch) r c) j =
        storage a (coolantHeat ch cell) + (if r = 0 then stream ch G.d c else 0) := by
  refine ⟨fun h => flow_entries hf fit ph hsh hm hn hb h hc hw, chanCell G.d ch.model n.elem.offset (coolantPos ch) r c, ?_, ?_, ?_⟩
  · rw [at_eq]; exact chan_get hf hn hb coolantPos_lt hr hc
  · show n.elem.offset + coolantPos ch = _; unfold coolantLayer coolantPos; split_ifs <;> rfl
  · have hi : G.at (coolantLayer n.elem ch) r c < G.cells.length := by rw [at_eq]; exact chan_lt hf hn hb coolantPos_lt hr hc
    have hcol : ∑ i ∈ Finset.range G.cells.length, m.entry i (G.at (coolantLayer n.elem ch) r c) =
        storage a (coolantHeat ch (chanCell G.d ch.model n.elem.offset (coolantPos ch) r c)) + (if r + 1 = G.d.nRows then stream ch G.d c else 0) := by
      rw [colSum_base hm _ hi, at_eq, chan_cell hf hn hb coolantPos_lt hr hc, base_coolant hf fit ph hsh hn hb hr hc hw]
    refine ⟨hcol, ?_⟩
    have hsum : ∑ j ∈ Finset.range G.cells.length, m.entry (G.at (coolantLayer n.elem ch) r c) j =
        ∑ j ∈ Finset.range G.cells.length, m.entry j (G.at (coolantLayer n.elem ch) r c) +
        ∑ j ∈ Finset.range G.cells.length, ((if j = G.at (coolantLayer n.elem ch) (r + 1) c then (if r + 1 < G.d.nRows then stream ch G.d c else 0) else 0) +
      (if j + G.d.nCols = G.at (coolantLayer n.elem ch) r c then (if 0 < r then - stream ch G.d c else 0) else 0)) := by
      rw [← Finset.sum_add_distrib]
      refine Finset.sum_congr rfl fun j hj => ?_
      rw [← wet_diff hf fit ph hsh hm hn hb hr hc hw (Finset.mem_range.mp hj)]; ring
    rw [hsum, hcol, Finset.sum_add_distrib, Finset.sum_ite_eq']
    have h2 : ∑ j ∈ Finset.range G.cells.length, (if j + G.d.nCols = G.at (coolantLayer n.elem ch) r c then (if 0 < r then - stream ch G.d c else 0) else 0) =
        if 0 < r then - stream ch G.d c else (0 : K) := by
      by_cases h0 : 0 < r
      · have hge : G.d.nCols ≤ G.at (coolantLayer n.elem ch) r c := by
          unfold Grid.at
          have : 1 * G.d.nCols ≤ r * G.d.nCols := Nat.mul_le_mul_right _ h0
          omega
        have : ∀ j, (if j + G.d.nCols = G.at (coolantLayer n.elem ch) r c then (if 0 < r then - stream ch G.d c else 0) else (0 : K)) =
            if j = G.at (coolantLayer n.elem ch) r c - G.d.nCols then (if 0 < r then - stream ch G.d c else 0) else 0 := by
          intro j
          have : j + G.d.nCols = G.at (coolantLayer n.elem ch) r c ↔ j = G.at (coolantLayer n.elem ch) r c - G.d.nCols := by omega
          simp only [this]
        simp only [this]
        rw [Finset.sum_ite_eq', if_pos (Finset.mem_range.mpr (by omega))]
      · simp only [h0, if_false, ite_self, Finset.sum_const_zero]
    rw [h2]
    by_cases h1 : r + 1 < G.d.nRows
    · have hi' : G.at (coolantLayer n.elem ch) (r + 1) c < G.cells.length := by rw [at_eq]; exact chan_lt hf hn hb coolantPos_lt h1 hc
      rw [if_pos (Finset.mem_range.mpr hi'), if_pos h1, if_neg (by omega)]
      by_cases h0 : r = 0
      · rw [if_pos h0, if_neg (by omega)]; ring
      · rw [if_neg h0, if_pos (by omega)]; ring
    · have hz : (if G.at (coolantLayer n.elem ch) (r + 1) c ∈ Finset.range G.cells.length then (if r + 1 < G.d.nRows then stream ch G.d c else 0) else (0 : K)) = 0 := by
        rw [if_neg h1, ite_self]
      rw [hz, if_pos (by omega)]
      by_cases h0 : r = 0
      · rw [if_pos h0, if_neg (by omega)]; ring
      · rw [if_neg h0, if_pos (by omega)]; ring

/-- Sums of the coefficients of a cell that is not filled with coolant. -/
theorem dry_sums (hm : Assembled id G a m) {i : Nat} (hi : i < G.cells.length) (hd : ¬ Filled G ns i) :
    ∑ j ∈ Finset.range G.cells.length, m.entry j i = diagBase G.g a G.d G.cells[i] ∧
    ∑ j ∈ Finset.range G.cells.length, m.entry i j = diagBase G.g a G.d G.cells[i] := by
  have h1 : cellAt G.cells i = G.cells[i] := by
    unfold cellAt; rw [List.getD_eq_getElem?_getD, List.getElem?_eq_getElem hi]; rfl
  have h2 := colSum_base hm i hi
  rw [h1] at h2
  refine ⟨h2, ?_⟩
  rw [← h2]
  exact Finset.sum_congr rfl fun j hj => dry_symm hf fit ph hsh hm hi (Finset.mem_range.mp hj) hd

/-- **C58 (solid cells)** In a stack with channels, the row and the column of a cell of a die, of a solid layer or of the spreader sum to
the stored heat and the exchange with the ambient, as without channels (C44). -/
theorem C58_solid (hm : Assembled id G a m) {i : Nat} (hi : i < G.cells.length) (hc : ¬ InChannel ns G.cells[i]) :
    ∑ j ∈ Finset.range G.cells.length, m.entry j i = storage a (heatCapacity G G.cells[i]) + toAmbient G G.cells[i] ∧
    ∑ j ∈ Finset.range G.cells.length, m.entry i j = storage a (heatCapacity G G.cells[i]) + toAmbient G G.cells[i] := by
  have hd : ¬ Filled G ns i := by
    intro h
    obtain ⟨n, hn, ch, hb, k, r, c, hk, hr, hcc, e, -⟩ := coolant_cell hf hi ((filled_iff hf hi).mp h)
    have := chan_get hf hn hb hk hr hcc
    rw [← e, List.getElem?_eq_getElem hi, Option.some.injEq] at this
    refine hc ⟨n, hn, ch, hb, ?_, ?_⟩ <;> rw [this] <;> simp only [chanCell] <;> omega
  have hbase : diagBase G.g a G.d G.cells[i] = storage a (heatCapacity G G.cells[i]) + toAmbient G G.cells[i] := by
    obtain ⟨-, -, -, -, -, -, hl⟩ := hf.pos_layer hi
    refine diagBase_solid hf ph _ (List.getElem_mem hi) (fun hlt => ?_) hl
    obtain ⟨n, hn, k, hk, e⟩ := hf.elemAt hlt
    rw [e]
    refine hf.solidAt hn ?_ hk
    cases hb : n.elem.body with
    | die d => unfold isChannel; rw [hb]
    | layer l => unfold isChannel; rw [hb]
    | channel ch =>
      unfold nLayersOf at hk; rw [hb] at hk
      exact absurd ⟨n, hn, ch, hb, by omega, by rw [e]; exact Nat.add_lt_add_left hk _⟩ hc
  obtain ⟨h1, h2⟩ := dry_sums hf fit ph hsh hm hi hd
  rw [h1, h2, hbase]
  exact ⟨rfl, rfl⟩

theorem base_wall {n : NElem K} (hn : n ∈ ns) {ch : Channel K} (hb : n.elem.body = .channel ch) {k r c : Nat}
    (hk : k < chLayers ch) (hc : c < G.d.nCols) (hw : ¬ (k = coolantPos ch ∧ WetCol G ch c)) :
    diagBase G.g a G.d (chanCell G.d ch.model n.elem.offset k r c) = storage a (wallHeat ch k (chanCell G.d ch.model n.elem.offset k r c)) := by
  obtain ⟨h1, h2, -, h4, h5, -⟩ := hf.channel hn hb
  have hnl := hf.wf.nl
  have hfl : (chanCell G.d ch.model n.elem.offset k r c).chan = false := by
    have := (wet_flag (G := G) hk h2 hc).not.mpr hw
    simpa [chanCell] using this
  have e1 : (chanCell G.d ch.model n.elem.offset k r c).layer = n.elem.offset + k := rfl
  have hl : n.elem.offset + k < G.d.nLayers := by omega
  have hpor : G.g.channel = some ch := h1
  unfold diagBase
  have hcap : ∀ l : Nat, layerAt G.g l = wallLayer ch → heatCap G.g G.d l 0 0 = ch.wallMat.vhc := by
    intro l h; unfold heatCap; rw [h]; rfl
  have hb0 : boundary G.g G.d (chanCell G.d ch.model n.elem.offset k r c) = 0 := by
    unfold boundary
    rw [e1, if_pos hl, hfl]
    have hs : ∃ t, (chTypes ch.model)[k]? = some t := by
      have hlen : k < (chTypes ch.model).length := by
        unfold chLayers at hk
        cases hmm : ch.model <;> simp [hmm, chTypes] at hk h2 ⊢ <;> omega
      exact ⟨_, List.getElem?_eq_getElem hlen⟩
    obtain ⟨t, ht⟩ := hs
    rw [(h5 k t ht).1]
    have hmem := List.mem_of_getElem? ht
    unfold chTypes at hmem
    cases hmm : ch.model <;> rw [hmm] at hmem <;> simp at hmem
    all_goals first
      | (subst hmem; simp)
      | (rcases hmem with rfl | rfl | rfl | rfl <;> simp)
  rw [hb0, add_zero]
  congr 1
  unfold capacityNU wallHeat area
  rw [e1, hnl, if_neg (by omega), hfl]
  generalize (chanCell G.d ch.model n.elem.offset k r c).length = x
  generalize (chanCell G.d ch.model n.elem.offset k r c).width = y
  simp only [chan, h1, Option.map_some, Option.getD_some]
  unfold chLayers at hk
  unfold coolantPos at hw
  have key : ∀ t, (chTypes ch.model)[k]? = some t → typeAt G.g (n.elem.offset + k) = t ∧ heatCap G.g G.d (n.elem.offset + k) 0 0 = ch.wallMat.vhc ∧
      height G.d (n.elem.offset + k) = ch.height := fun t ht => ⟨(h5 k t ht).1, hcap _ (h5 k t ht).2.1, (h5 k t ht).2.2⟩
  revert key
  generalize typeAt G.g (n.elem.offset + k) = ty
  generalize heatCap G.g G.d (n.elem.offset + k) 0 0 = hcv
  generalize height G.d (n.elem.offset + k) = hh
  intro key
  unfold WetCol at hw
  cases hmm : ch.model <;> simp only [hmm] at hk hw h2 key
  · exact absurd rfl h2
  · have hk0 : k = 0 := by simpa using hk
    subst hk0
    obtain ⟨rfl, rfl, rfl⟩ := key .ch4rm rfl
    simp; ring
  · have hk' : k = 0 ∨ k = 1 ∨ k = 3 := by simp at hk hw; omega
    rcases hk' with rfl | rfl | rfl
    · obtain ⟨rfl, rfl, rfl⟩ := key _ rfl; simp
    · obtain ⟨rfl, rfl, rfl⟩ := key _ rfl; simp; ring
    · obtain ⟨rfl, rfl, rfl⟩ := key _ rfl; simp
  · have hk' : k = 0 ∨ k = 1 ∨ k = 3 := by simp at hk hw; omega
    rcases hk' with rfl | rfl | rfl
    · obtain ⟨rfl, rfl, rfl⟩ := key _ rfl; simp
    · obtain ⟨rfl, rfl, rfl⟩ := key _ rfl; simp; ring
    · obtain ⟨rfl, rfl, rfl⟩ := key _ rfl; simp
  · have hk' : k = 0 ∨ k = 1 ∨ k = 3 := by simp at hk hw; omega
    rcases hk' with rfl | rfl | rfl
    · obtain ⟨rfl, rfl, rfl⟩ := key _ rfl; simp
    · obtain ⟨rfl, rfl, rfl⟩ := key _ rfl; simp; ring
    · obtain ⟨rfl, rfl, rfl⟩ := key _ rfl; simp

/-- **C58 (walls)** The row and the column of a cell of a channel that has no coolant sum to the heat stored in its wall. -/
theorem C58_walls (hm : Assembled id G a m) {n : NElem K} (hn : n ∈ ns) {ch : Channel K} (hb : n.elem.body = .channel ch) {k r c : Nat}
    (hk : k < chLayers ch) (hr : r < G.d.nRows) (hc : c < G.d.nCols) (hw : n.elem.offset + k = coolantLayer n.elem ch → ¬ WetCol G ch c) :
    ∃ cell, G.cells[G.at (n.elem.offset + k) r c]? = some cell ∧ cell.layer = n.elem.offset + k ∧
      ∑ i ∈ Finset.range G.cells.length, m.entry i (G.at (n.elem.offset + k) r c) = storage a (wallHeat ch k cell) ∧
      ∑ j ∈ Finset.range G.cells.length, m.entry (G.at (n.elem.offset + k) r c) j = storage a (wallHeat ch k cell) := by
  have hw' : ¬ (k = coolantPos ch ∧ WetCol G ch c) := by
    rintro ⟨h1, h2⟩
    refine hw ?_ h2
    unfold coolantLayer coolantPos at *; split_ifs at * <;> omega
  have hget : G.cells[G.at (n.elem.offset + k) r c]? = some (chanCell G.d ch.model n.elem.offset k r c) := chan_get hf hn hb hk hr hc
  obtain ⟨hi, hcell⟩ := List.getElem?_eq_some_iff.mp hget
  have hd : ¬ Filled G ns (G.at (n.elem.offset + k) r c) := by
    intro h
    have := (filled_iff hf hi).mp h
    rw [hcell] at this
    exact hw' ((wet_flag hk (hf.channel hn hb).2.1 hc).mp this)
  refine ⟨_, hget, rfl, ?_⟩
  obtain ⟨h1, h2⟩ := dry_sums hf fit ph hsh hm hi hd
  rw [h1, h2, hcell, base_wall hf fit ph hsh hn hb hk hc hw']
  exact ⟨rfl, rfl⟩

end

end Verif.NU
