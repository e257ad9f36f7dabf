import Verif.Lemmas.NuInlet

set_option linter.unusedSectionVars false
set_option linter.unusedSimpArgs false
set_option linter.unusedVariables false

/-! # C59: sources, heat balance and equilibrium of a non-uniform grid with channels -/

namespace Verif.NU
open Verif.Dim Verif.TG Verif.Stk Verif.SM

variable {K : Type} [Field K] [LinearOrder K] [IsStrictOrderedRing K]
variable {d0 : Dims K} {decl : Option (Channel K)} {rs : List (Raw K (List (FEl K)))} {ns : List (NElem K)} {G : Grid K} {a : Ana K} {m : Csc K}

/-! ## Specification -/

/-- Is this cell the first one of a column of coolant? -/
def IsInlet (G : Grid K) (ns : List (NElem K)) (i : Nat) : Prop :=
  ∃ n ∈ ns, ∃ ch, n.elem.body = .channel ch ∧ ∃ c, c < G.d.nCols ∧ WetCol G ch c ∧ i = G.at (coolantLayer n.elem ch) 0 c

/-- A sum over the columns of coolant of all the channels of the stack. -/
def overColumns (G : Grid K) (ns : List (NElem K)) (f : NElem K → Channel K → Nat → K) : K :=
  (ns.map fun n => match n.elem.body with
    | .channel ch => ∑ c ∈ Finset.range G.d.nCols, if WetCol G ch c then f n ch c else 0
    | _ => 0).sum

/-- `x` is the heat capacity of the `i`-th cell: of its volume of solid, of coolant or of wall. -/
def IsCapacity (G : Grid K) (ns : List (NElem K)) (i : Nat) (x : K) : Prop :=
  ∀ cell, G.cells[i]? = some cell →
    (¬ InChannel ns cell → x = heatCapacity G cell) ∧
    ∀ n ∈ ns, ∀ ch, n.elem.body = .channel ch → ∀ k r c, k < chLayers ch → r < G.d.nRows → c < G.d.nCols → i = G.at (n.elem.offset + k) r c →
      x = if n.elem.offset + k = coolantLayer n.elem ch ∧ WetCol G ch c then coolantHeat ch cell else wallHeat ch k cell

/-! ## Proofs -/

/-- Cells of channels do not see the sinks. -/
theorem channel_inner (hf : FromStack d0 decl rs ns G) {c : Cell K} (h : InChannel ns c) : 0 < c.layer ∧ c.layer + 1 < G.d.nLayers := by
  obtain ⟨n, hn, ch, hb, h1, h2⟩ := h
  obtain ⟨-, -, h3, h4, -⟩ := hf.channel hn hb
  omega

theorem toAmbient_inner {c : Cell K} (h : 0 < c.layer ∧ c.layer + 1 < G.d.nLayers) : toAmbient G c = 0 := by
  unfold toAmbient
  split
  · rw [if_neg (by omega)]
  · rfl

theorem fromSinks_inner {c : Cell K} (h : 0 < c.layer ∧ c.layer + 1 < G.d.nLayers) : fromSinks G c = 0 := by
  unfold fromSinks
  rw [toAmbient_inner h]
  cases G.g.bottom with
  | none => simp only [mul_zero, add_zero]; split <;> rfl
  | some s => simp only [mul_zero]; rw [if_neg (by omega), add_zero]; split <;> rfl

theorem fromSinks_spreader (hf : FromStack d0 decl rs ns G) {c : Cell K} (hc : c ∈ G.cells) (h : ¬ c.layer < G.d.nLayers) : fromSinks G c = 0 := by
  have hp := hf.wf.L1
  unfold fromSinks
  have hb : (match G.g.bottom with
    | some s => if c.layer = 0 then s.tAmb * toBottomFace G c else 0
    | none => 0) = (0 : K) := by
    cases G.g.bottom with
    | none => rfl
    | some s => simp only; rw [if_neg (by omega)]
  rcases hf.top with ⟨s, ht⟩ | ⟨s, mm, ht⟩
  · exact absurd (below_top hf ht hc) h
  · rw [ht]; simp only; rw [zero_add]; exact hb

theorem coolantLayer_eq (n : NElem K) (ch : Channel K) : coolantLayer n.elem ch = n.elem.offset + coolantPos ch := by
  unfold coolantLayer coolantPos; split_ifs <;> rfl

/-- Source of a cell of the coolant layer. -/
theorem coolant_source (hf : FromStack d0 decl rs ns G) (hodd : OddColumns G) (ph : PhysicalNU G) (hfull : Full G) {S : List K}
    {fl' : List (Option (List (FEl K)))} (h : sourcesNU G.g G.d G.cells G.flps = some (S, fl')) {n : NElem K} (hn : n ∈ ns) {ch : Channel K}
    (hb : n.elem.body = .channel ch) {r c : Nat} (hr : r < G.d.nRows) (hc : c < G.d.nCols) :
    S[G.at (coolantLayer n.elem ch) r c]? = some (if r = 0 ∧ WetCol G ch c then stream ch G.d c * ch.coolant.tIn else 0) := by
  obtain ⟨-, -, h3, h4, -, h6⟩ := hf.channel hn hb
  obtain ⟨ht, hh, hl, -⟩ := coolant_type hf hn hb
  have hlc := (h6 (coolantPos ch) coolantPos_lt).1
  have hs : r * G.d.nCols + c < (channelLayer G.d ch.model n.elem.offset (coolantPos ch)).length := by rw [channelLayer_length]; exact rc_lt hr hc
  obtain ⟨h7, h8⟩ := source_at hf.laid ph hfull h hl hlc hs
  rw [coolantLayer_eq]
  unfold Grid.at
  rw [h7]
  have hlay := hf.layered _ _ hlc _ (List.getElem_mem hs)
  rw [fromSinks_inner (by have := coolantPos_lt (ch := ch); omega), zero_add]
  congr 1
  have hno : ∀ es, G.flps[n.elem.offset + coolantPos ch]? ≠ some (some es) := by
    rcases hf.laid.type hl with ⟨t, ht1, hts, hty⟩ | ⟨-, -, b3, -⟩
    · have := solid_not_coolant hf.laid ht1 hty
      rw [coolant_is hf hn hb coolantPos_lt] at this
      simp at this
    · exact b3
  have hp : ∀ lc, powerPart G (n.elem.offset + coolantPos ch) lc =
      (inlets G.g G.d (n.elem.offset + coolantPos ch)).map (·.getD 0) ++ List.replicate (lc.length - (inlets G.g G.d (n.elem.offset + coolantPos ch)).length) 0 := by
    intro lc
    unfold powerPart
    split
    · rename_i es he; exact absurd he (hno es)
    · rw [if_pos (by rw [coolant_is hf hn hb coolantPos_lt]; simp)]
  rw [hp, inlets_get hf hodd hn hb]
  by_cases h0 : r = 0
  · subst h0
    rw [List.getElem?_append_left (by simp; omega)]
    simp only [Nat.zero_mul, Nat.zero_add, true_and, List.getElem?_map, List.getElem?_range hc, Option.map_some, Option.getD_some]
    split_ifs <;> rfl
  · rw [List.getElem?_append_right (by
      simp only [List.length_map, List.length_range]
      have : 1 * G.d.nCols ≤ r * G.d.nCols := Nat.mul_le_mul_right _ (by omega)
      omega), List.getElem?_replicate, if_neg (show ¬ (r = 0 ∧ WetCol G ch c) from fun hx => h0 hx.1)]
    split_ifs <;> rfl

theorem inletSum_channel (hf : FromStack d0 decl rs ns G) (hodd : OddColumns G) {n : NElem K} (hn : n ∈ ns) {ch : Channel K} (hb : n.elem.body = .channel ch) :
    ∑ j ∈ Finset.range (nLayersOf n.elem), inletSum G (n.elem.offset + j) =
      ∑ c ∈ Finset.range G.d.nCols, if WetCol G ch c then stream ch G.d c * ch.coolant.tIn else 0 := by
  have hnl : nLayersOf n.elem = chLayers ch := by unfold nLayersOf; rw [hb]
  rw [hnl, Finset.sum_eq_single (coolantPos ch)]
  · unfold inletSum
    rw [if_pos (by rw [coolant_is hf hn hb coolantPos_lt]; simp), inlets_get hf hodd hn hb, List.map_map, Finset.sum_range]
    rw [← List.sum_ofFn, List.ofFn_eq_map]
    congr 1
    rw [← List.map_coe_finRange_eq_range, List.map_map]
    refine List.map_congr_left fun c _ => ?_
    simp only [Function.comp]
    split_ifs <;> rfl
  · intro k hk hne
    unfold inletSum
    rw [coolant_is hf hn hb (Finset.mem_range.mp hk)]
    simp [hne]
  · intro h; exact absurd (Finset.mem_range.mpr coolantPos_lt) h

/-! ## C59: sources -/

/-- **C59 (sources)** Whenever the sources of a stack with channels are computed, every coolant cell of the first row receives the heat
carried by the stream at the temperature of the inlet; each cell of a floorplan element in the source layer of its die receives an equal
part of the power of that element besides the heat of the sinks; all the other cells (of walls, of coolant further down the stream, of
solid layers, of the spreader) receive the heat of the sinks only. -/
theorem C59_sources (hf : FromStack d0 decl rs ns G) (hodd : OddColumns G) (ph : PhysicalNU G) (hfull : Full G) {S : List K}
    {fl' : List (Option (List (FEl K)))} (h : sourcesNU G.g G.d G.cells G.flps = some (S, fl')) :
    S.length = G.cells.length ∧
    (∀ n ∈ ns, ∀ ch, n.elem.body = .channel ch → ∀ c, c < G.d.nCols → WetCol G ch c →
      S[G.at (coolantLayer n.elem ch) 0 c]? = some (stream ch G.d c * ch.coolant.tIn)) ∧
    (∀ (l : Nat) es, G.flps[l]? = some (some es) → ∀ A e B, es = A ++ e :: B → ∀ s, s < e.dx * e.dy →
      ∃ c, G.cells[firstCell G l + cellsOf A + s]? = some c ∧ c.layer = l ∧ InPart e.rect e.dx e.dy s c ∧
        S[firstCell G l + cellsOf A + s]? = some (fromSinks G c + nextPower e / ((e.dx * e.dy : Nat) : K))) ∧
    (∀ (i : Nat) c, G.cells[i]? = some c → (∀ es, G.flps[c.layer]? ≠ some (some es)) → ¬ IsInlet G ns i → S[i]? = some (fromSinks G c)) := by
  obtain ⟨h1, h2, h3⟩ := power_of_each hf hf.laid ph hfull h
  refine ⟨h1, ?_, h2, ?_⟩
  · intro n hn ch hb c hc hw
    rw [coolant_source hf hodd ph hfull h hn hb hf.wf.acc.rows hc, if_pos ⟨rfl, hw⟩]
  · intro i c hc hno hin
    obtain ⟨hi, hce⟩ := List.getElem?_eq_some_iff.mp hc
    by_cases hlt : c.layer < G.d.nLayers
    · cases hty : coolantType (typeAt G.g c.layer) with
      | false => exact h3 i c hc hno hlt hty
      | true =>
        obtain ⟨n, hn, k, hk, e⟩ := hf.elemAt hlt
        cases hb : n.elem.body with
        | channel ch =>
          have hk' : k < chLayers ch := by unfold nLayersOf at hk; rw [hb] at hk; exact hk
          rw [e, coolant_is hf hn hb hk'] at hty
          have hkp : k = coolantPos ch := by simpa using hty
          subst hkp
          obtain ⟨r, c', hr, hc', ei⟩ := chan_of_layer hf hn hb hk' hi (by rw [hce]; exact e)
          rw [← at_eq] at ei
          have hin0 : fromSinks G c = 0 := fromSinks_inner (channel_inner hf ⟨n, hn, ch, hb, by omega, by rw [e]; exact Nat.add_lt_add_left hk' _⟩)
          rw [ei, coolant_source hf hodd ph hfull h hn hb hr hc', hin0, if_neg]
          rintro ⟨rfl, hw⟩
          exact hin ⟨n, hn, ch, hb, c', hc', hw, ei⟩
        | die b =>
          have := solid_dry (hf.solidAt hn (by unfold isChannel; rw [hb]) hk)
          rw [← e, hty] at this; cases this
        | layer b =>
          have := solid_dry (hf.solidAt hn (by unfold isChannel; rw [hb]) hk)
          rw [← e, hty] at this; cases this
    · rw [fromSinks_spreader hf (List.mem_of_getElem? hc) hlt]
      obtain ⟨hS, -⟩ := sources_eq hf.laid hfull h
      have hel := expected_length hf.laid (le_refl G.d.nLayers)
      have hge : start G.ls G.d.nLayers ≤ i := by
        have e : G.cells = (G.ls.take G.d.nLayers).flatten ++ (G.ls.drop G.d.nLayers).flatten := by
          unfold Grid.cells; rw [← List.flatten_append, List.take_append_drop]
        have hfc : start G.ls G.d.nLayers = (G.ls.take G.d.nLayers).flatten.length := by rw [List.length_flatten]; rfl
        by_contra hlt2
        rw [e, List.getElem?_append_left (by omega)] at hc
        exact hlt (hf.layered.before _ c (List.mem_of_getElem? hc))
      have hi' : i < G.ls.flatten.length := hi
      rw [hS, List.getElem?_append_right (by omega), List.getElem?_replicate, if_pos (by omega)]

/-- **C59 (total)** The sources add up to the powers of all the elements, the heat of the sinks and the heat brought in by the coolant. -/
theorem C59_total_sources (hf : FromStack d0 decl rs ns G) (hodd : OddColumns G) (ph : PhysicalNU G) (hfull : Full G)
    (hd : ∀ (l : Nat) es, G.flps[l]? = some (some es) → ∀ e ∈ es, e.dx * e.dy ≠ 0) {S : List K}
    {fl' : List (Option (List (FEl K)))} (h : sourcesNU G.g G.d G.cells G.flps = some (S, fl')) :
    S.sum = totalPower G + (G.cells.map (fromSinks G)).sum + overColumns G ns fun _ ch c => stream ch G.d c * ch.coolant.tIn := by
  rw [total_sources hf hf.laid ph hfull hd h]
  congr 1
  have : ((List.range G.d.nLayers).map (inletSum G)).sum = ∑ l ∈ Finset.range G.d.nLayers, inletSum G l := by
    rw [Finset.sum_range, ← List.sum_ofFn, List.ofFn_eq_map]
    congr 1
    rw [← List.map_coe_finRange_eq_range, List.map_map]; rfl
  rw [this, hf.sum_layers]
  unfold overColumns
  congr 1
  refine List.map_congr_left fun n hn => ?_
  cases hb : n.elem.body with
  | channel ch => exact inletSum_channel hf hodd hn hb
  | die b =>
    refine Finset.sum_eq_zero fun k hk => ?_
    unfold inletSum
    rw [solid_dry (hf.solidAt hn (by unfold isChannel; rw [hb]) (Finset.mem_range.mp hk))]; rfl
  | layer b =>
    refine Finset.sum_eq_zero fun k hk => ?_
    unfold inletSum
    rw [solid_dry (hf.solidAt hn (by unfold isChannel; rw [hb]) (Finset.mem_range.mp hk))]; rfl

/-! ## C59: heat balance -/

theorem cap_of_base (g : TGrid K) (d : Dims K) (c : Cell K) : diagBase g ⟨true, 1⟩ d c - diagBase g ⟨false, 1⟩ d c = capacityNU g d c := by
  unfold diagBase storage
  simp

section
variable (hf : FromStack d0 decl rs ns G) (fit : ChipFits G.d) (ph : PhysicalNU G) (hsh : Sharp G)
include hf fit ph hsh

/-- **C59 (capacities)** The heat capacity computed by the program for a cell is the one of its volume of solid, coolant or wall. -/
theorem C59_capacities (i : Nat) (cell : Cell K) (hc : G.cells[i]? = some cell) : IsCapacity G ns i (capacityNU G.g G.d cell) := by
  intro cell' hc'
  obtain rfl : cell = cell' := Option.some.inj (hc.symm.trans hc')
  obtain ⟨hi, hce⟩ := List.getElem?_eq_some_iff.mp hc
  constructor
  · intro hn
    obtain ⟨-, -, -, -, -, -, hl⟩ := hf.pos_layer hi
    rw [hce] at hl
    have hb : ∀ a, diagBase G.g a G.d cell = storage a (heatCapacity G cell) + toAmbient G cell := fun a => by
      refine diagBase_solid hf ph _ (List.mem_of_getElem? hc) (fun hlt => ?_) hl
      obtain ⟨n, hn', k, hk, e⟩ := hf.elemAt hlt
      rw [e]
      refine hf.solidAt hn' ?_ hk
      cases hb : n.elem.body with
      | die d => unfold isChannel; rw [hb]
      | layer l => unfold isChannel; rw [hb]
      | channel ch =>
        unfold nLayersOf at hk; rw [hb] at hk
        exact absurd ⟨n, hn', ch, hb, by omega, by rw [e]; exact Nat.add_lt_add_left hk _⟩ hn
    rw [← cap_of_base, hb, hb]
    unfold storage; simp
  · intro n hn ch hb k r c hk hr hcc hat
    have hget := chan_get hf hn hb hk hr hcc
    rw [show chanIdx G n k r c = i from hat.symm, hc, Option.some.injEq] at hget
    have hkp : n.elem.offset + k = coolantLayer n.elem ch ↔ k = coolantPos ch := by rw [coolantLayer_eq]; omega
    simp only [hkp]
    by_cases hw : k = coolantPos ch ∧ WetCol G ch c
    · rw [if_pos hw]
      obtain ⟨rfl, hw⟩ := hw
      rw [← cap_of_base, hget, base_coolant hf fit ph hsh hn hb hr hcc hw, base_coolant hf fit ph hsh hn hb hr hcc hw]
      unfold storage; simp
    · rw [if_neg hw, ← cap_of_base, hget, base_wall hf fit ph hsh hn hb hk hcc hw, base_wall hf fit ph hsh hn hb hk hcc hw]
      unfold storage; simp

/-- Column sums, with the heat leaving at the outlet. -/
theorem column_channel (hm : Assembled id G a m) {C : Nat → K} (hC : ∀ i, IsCapacity G ns i (C i)) {n : NElem K} (hn : n ∈ ns) {ch : Channel K}
    (hb : n.elem.body = .channel ch) {k r c : Nat} (hk : k < chLayers ch) (hr : r < G.d.nRows) (hc : c < G.d.nCols) :
    (∑ i ∈ Finset.range G.cells.length, m.entry i (G.at (n.elem.offset + k) r c) = storage a (C (G.at (n.elem.offset + k) r c)) +
      if k = coolantPos ch ∧ WetCol G ch c ∧ r + 1 = G.d.nRows then stream ch G.d c else 0) ∧
    (∑ j ∈ Finset.range G.cells.length, m.entry (G.at (n.elem.offset + k) r c) j = storage a (C (G.at (n.elem.offset + k) r c)) +
      if k = coolantPos ch ∧ WetCol G ch c ∧ r = 0 then stream ch G.d c else 0) := by
  have hkp : n.elem.offset + k = coolantLayer n.elem ch ↔ k = coolantPos ch := by rw [coolantLayer_eq]; omega
  by_cases hw : k = coolantPos ch ∧ WetCol G ch c
  · obtain ⟨rfl, hw⟩ := hw
    obtain ⟨-, cell, h1, h2, h3, h4⟩ := C58_stream hf fit ph hsh hm hn hb hr hc hw
    have hcap := (hC _ cell h1).2 n hn ch hb _ r c hk hr hc (by rw [← coolantLayer_eq])
    rw [if_pos ⟨hkp.mpr rfl, hw⟩] at hcap
    rw [← coolantLayer_eq, h3, h4, hcap]
    constructor
    · congr 1; simp [hw]
    · congr 1; simp [hw]
  · obtain ⟨cell, h1, h2, h3, h4⟩ := C58_walls hf fit ph hsh hm hn hb hk hr hc (fun h hww => hw ⟨hkp.mp h, hww⟩)
    have hcap := (hC _ cell h1).2 n hn ch hb k r c hk hr hc rfl
    rw [if_neg (by rw [hkp]; exact hw)] at hcap
    rw [h3, h4, hcap, if_neg (by tauto), if_neg (by tauto), add_zero]
    exact ⟨rfl, rfl⟩

/-- **C59 (heat balance)** In each step, and in the steady state, the heat stored by all the cells is the power of the floorplans, plus
what is exchanged with the ambient, plus what the coolant carries from the inlet to the outlet: for each column of coolant the stream
times the difference between the temperature of the inlet and the one of the last cell of the column. -/
theorem C59_heat_balance (hodd : OddColumns G) (hfull : Full G) (hm : Assembled id G a m)
    (hd : ∀ (l : Nat) es, G.flps[l]? = some (some es) → ∀ e ∈ es, e.dx * e.dy ≠ 0) {C : Nat → K} (hC : ∀ i, IsCapacity G ns i (C i)) {S : List K}
    {fl' : List (Option (List (FEl K)))} (h : sourcesNU G.g G.d G.cells G.flps = some (S, fl')) {T T' : Nat → K}
    (hsol : Solves G.cells.length m.entry T' fun i => storage a (C i) * T i + S.getD i 0) :
    ∑ i ∈ Finset.range G.cells.length, storage a (C i) * (T' i - T i) =
      totalPower G +
      ((G.cells.map (fromSinks G)).sum - ∑ i ∈ Finset.range G.cells.length, (G.cells[i]?).elim 0 (toAmbient G) * T' i) +
      overColumns G ns fun n ch c => stream ch G.d c * (ch.coolant.tIn - T' (G.at (coolantLayer n.elem ch) (G.d.nRows - 1) c)) := by
  have hSlen := (C59_sources hf hodd ph hfull h).1
  have hS : ∑ i ∈ Finset.range G.cells.length, S.getD i 0 = S.sum := by
    rw [← hSlen, Finset.sum_range]
    conv_rhs => rw [← List.ofFn_getElem (xs := S), List.sum_ofFn]
    refine Finset.sum_congr rfl fun i _ => ?_
    rw [List.getD_eq_getElem?_getD, List.getElem?_eq_getElem i.2]; rfl
  -- all the equations together
  have hall : ∑ j ∈ Finset.range G.cells.length, (∑ i ∈ Finset.range G.cells.length, m.entry i j) * T' j =
      ∑ i ∈ Finset.range G.cells.length, storage a (C i) * T i + S.sum := by
    rw [← hS, ← Finset.sum_add_distrib]
    simp only [Finset.sum_mul]
    rw [Finset.sum_comm]
    exact Finset.sum_congr rfl fun i hi => hsol i (Finset.mem_range.mp hi)
  -- what leaves at the outlets
  have hout : ∑ j ∈ Finset.range G.cells.length, ((∑ i ∈ Finset.range G.cells.length, m.entry i j) - storage a (C j) - (G.cells[j]?).elim 0 (toAmbient G)) * T' j =
      overColumns G ns fun n ch c => stream ch G.d c * T' (G.at (coolantLayer n.elem ch) (G.d.nRows - 1) c) := by
    have hzero : ∀ j, j < G.cells.length → ¬ InChannel ns (cellAt G.cells j) →
        ((∑ i ∈ Finset.range G.cells.length, m.entry i j) - storage a (C j) - (G.cells[j]?).elim 0 (toAmbient G)) * T' j = 0 := by
      intro j hj hnc
      have e : cellAt G.cells j = G.cells[j] := by
        unfold cellAt; rw [List.getD_eq_getElem?_getD, List.getElem?_eq_getElem hj]; rfl
      rw [e] at hnc
      rw [(C58_solid hf fit ph hsh hm hj hnc).1, List.getElem?_eq_getElem hj, (hC j _ (List.getElem?_eq_getElem hj)).1 hnc]
      simp only [Option.elim_some]; ring
    generalize hF : (fun j => ((∑ i ∈ Finset.range G.cells.length, m.entry i j) - storage a (C j) - (G.cells[j]?).elim 0 (toAmbient G)) * T' j) = F at hzero ⊢
    have hF' : ∀ j, ((∑ i ∈ Finset.range G.cells.length, m.entry i j) - storage a (C j) - (G.cells[j]?).elim 0 (toAmbient G)) * T' j = F j := fun j => by rw [← hF]
    simp only [hF'] at hzero ⊢
    have hcl : G.cells.length = start G.ls G.ls.length := (start_all G.ls).symm
    have hle : G.d.nLayers ≤ G.ls.length := by have := hf.layers; omega
    rw [hcl, sum_by_layer _ _ _ (le_refl _)]
    obtain ⟨q, hq⟩ : ∃ q, G.ls.length = G.d.nLayers + q := ⟨_, (Nat.add_sub_of_le hle).symm⟩
    -- cells of one layer
    have hlayer : ∀ (l : Nat) lc, G.ls[l]? = some lc → ∀ s, s < lc.length → start G.ls l + s < G.cells.length ∧ (cellAt G.cells (start G.ls l + s)).layer = l := by
      intro l lc hlc s hs
      have hg := flatten_get G.ls hlc hs
      rw [List.getElem?_eq_getElem hs] at hg
      have hlt : start G.ls l + s < G.cells.length := (List.getElem?_eq_some_iff.mp hg).1
      refine ⟨hlt, ?_⟩
      have e : cellAt G.cells (start G.ls l + s) = G.cells[start G.ls l + s] := by
        unfold cellAt; rw [List.getD_eq_getElem?_getD, List.getElem?_eq_getElem hlt]; rfl
      rw [e]
      have h1 : start G.ls (l + 1) = start G.ls l + lc.length := by rw [start_succ, hlc]; rfl
      exact hf.layer_of_pos hlt (by omega) (by omega)
    have hspr : ∑ l ∈ Finset.range q, ∑ s ∈ Finset.range ((G.ls[G.d.nLayers + l]?).getD []).length, F (start G.ls (G.d.nLayers + l) + s) = 0 := by
      refine Finset.sum_eq_zero fun l hl => Finset.sum_eq_zero fun s hs => ?_
      have hlt : G.d.nLayers + l < G.ls.length := by have := Finset.mem_range.mp hl; omega
      rw [List.getElem?_eq_getElem hlt] at hs
      obtain ⟨h1, h2⟩ := hlayer _ _ (List.getElem?_eq_getElem hlt) s (Finset.mem_range.mp hs)
      refine hzero _ h1 fun hc => ?_
      have := channel_inner hf hc
      omega
    rw [hq, Finset.sum_range_add, hspr, add_zero, hf.sum_layers]
    unfold overColumns
    congr 1
    refine List.map_congr_left fun n hn => ?_
    have hdry : (∀ ch, n.elem.body ≠ .channel ch) → ∑ k ∈ Finset.range (nLayersOf n.elem),
        ∑ s ∈ Finset.range ((G.ls[n.elem.offset + k]?).getD []).length, F (start G.ls (n.elem.offset + k) + s) = 0 := by
      intro hno
      refine Finset.sum_eq_zero fun k hk => ?_
      cases hlc : G.ls[n.elem.offset + k]? with
      | none => simp
      | some lc =>
        simp only [Option.getD_some]
        refine Finset.sum_eq_zero fun s hs => ?_
        obtain ⟨h1, h2⟩ := hlayer _ _ hlc s (Finset.mem_range.mp hs)
        refine hzero _ h1 ?_
        rintro ⟨n', hn', ch, hb', h3, h4⟩
        rw [h2] at h3 h4
        have hsol := hf.solidAt hn (by
          unfold isChannel
          cases hbb : n.elem.body with
          | channel ch => exact absurd hbb (hno ch)
          | _ => rfl) (Finset.mem_range.mp hk)
        obtain ⟨-, hmod, -, -, h5, -⟩ := hf.channel hn' hb'
        have hk' : n.elem.offset + k - n'.elem.offset < chLayers ch := by omega
        have hlen : n.elem.offset + k - n'.elem.offset < (chTypes ch.model).length := by
          unfold chLayers at hk'
          cases hmm : ch.model <;> simp [hmm, chTypes] at hk' hmod ⊢ <;> omega
        have ht := List.getElem?_eq_getElem hlen
        have hty := (h5 _ _ ht).1
        rw [show n'.elem.offset + (n.elem.offset + k - n'.elem.offset) = n.elem.offset + k by omega] at hty
        rw [hty] at hsol
        have hmem := List.getElem_mem hlen
        revert hsol
        generalize (chTypes ch.model)[n.elem.offset + k - n'.elem.offset] = t at hmem
        unfold chTypes at hmem
        cases hmm : ch.model <;> rw [hmm] at hmem <;> simp at hmem
        all_goals first
          | (subst hmem; simp [solidish])
          | (rcases hmem with rfl | rfl | rfl | rfl <;> simp [solidish])
    cases hb : n.elem.body with
    | die b => exact hdry fun ch h => by rw [hb] at h; cases h
    | layer b => exact hdry fun ch h => by rw [hb] at h; cases h
    | channel ch =>
      simp only
      have hnl : nLayersOf n.elem = chLayers ch := by unfold nLayersOf; rw [hb]
      obtain ⟨-, -, -, -, -, h6⟩ := hf.channel hn hb
      have hat : ∀ k r c, k < chLayers ch → r < G.d.nRows → c < G.d.nCols → F (start G.ls (n.elem.offset + k) + (r * G.d.nCols + c)) =
          if k = coolantPos ch ∧ WetCol G ch c ∧ r + 1 = G.d.nRows then stream ch G.d c * T' (G.at (coolantLayer n.elem ch) r c) else 0 := by
        intro k r c hk hr hc
        have hcol := (column_channel hf fit ph hsh hm hC hn hb hk hr hc).1
        have hget : G.cells[G.at (n.elem.offset + k) r c]? = some (chanCell G.d ch.model n.elem.offset k r c) := chan_get hf hn hb hk hr hc
        have hin : InChannel ns (chanCell G.d ch.model n.elem.offset k r c) :=
          ⟨n, hn, ch, hb, by show n.elem.offset ≤ n.elem.offset + k; omega, by show n.elem.offset + k < _; omega⟩
        show F (G.at (n.elem.offset + k) r c) = _
        rw [← hF' (G.at (n.elem.offset + k) r c), hcol, hget]
        simp only [Option.elim_some]
        rw [toAmbient_inner (channel_inner hf hin)]
        by_cases hx : k = coolantPos ch ∧ WetCol G ch c ∧ r + 1 = G.d.nRows
        · rw [if_pos hx, if_pos hx, coolantLayer_eq, hx.1]; ring
        · rw [if_neg hx, if_neg hx]; ring
      rw [hnl, Finset.sum_eq_single (coolantPos ch)]
      · rw [(h6 _ coolantPos_lt).1, Option.getD_some, channelLayer_length, sum_rows]
        have hrows := hf.wf.acc.rows
        rw [Finset.sum_eq_single (G.d.nRows - 1)]
        · refine Finset.sum_congr rfl fun c hc => ?_
          rw [hat _ _ _ coolantPos_lt (by omega) (Finset.mem_range.mp hc)]
          have : G.d.nRows - 1 + 1 = G.d.nRows := by omega
          simp [this]
        · intro r hr hne
          refine Finset.sum_eq_zero fun c hc => ?_
          rw [hat _ _ _ coolantPos_lt (Finset.mem_range.mp hr) (Finset.mem_range.mp hc), if_neg]
          rintro ⟨-, -, h⟩; omega
        · intro hh; exact absurd (Finset.mem_range.mpr (by omega)) hh
      · intro k hk hne
        rw [(h6 _ (Finset.mem_range.mp hk)).1, Option.getD_some, channelLayer_length, sum_rows]
        refine Finset.sum_eq_zero fun r hr => Finset.sum_eq_zero fun c hc => ?_
        rw [hat _ _ _ (Finset.mem_range.mp hk) (Finset.mem_range.mp hr) (Finset.mem_range.mp hc), if_neg (by tauto)]
      · intro hh; exact absurd (Finset.mem_range.mpr coolantPos_lt) hh
  have htot := C59_total_sources hf hodd ph hfull hd h
  have hcols : overColumns G ns (fun n ch c => stream ch G.d c * (ch.coolant.tIn - T' (G.at (coolantLayer n.elem ch) (G.d.nRows - 1) c))) =
      overColumns G ns (fun _ ch c => stream ch G.d c * ch.coolant.tIn) -
      overColumns G ns (fun n ch c => stream ch G.d c * T' (G.at (coolantLayer n.elem ch) (G.d.nRows - 1) c)) := by
    rw [eq_sub_iff_add_eq]
    unfold overColumns
    rw [← List.sum_map_add]
    congr 1
    refine List.map_congr_left fun n _ => ?_
    cases n.elem.body with
    | channel ch =>
      simp only
      rw [← Finset.sum_add_distrib]
      refine Finset.sum_congr rfl fun c _ => ?_
      split_ifs <;> ring
    | die b => simp
    | layer b => simp
  rw [hcols, ← hout]
  simp only [sub_mul, mul_sub, Finset.sum_sub_distrib]
  rw [hall, htot]
  ring

/-! ## C59: equilibrium -/

/-- **C59 (equilibrium)** Without power and without a bottom sink, when the ambient of the top sink and the coolant at the inlet are at the
temperature of the whole stack, this temperature does not change, in the steady state and in every time step. -/
theorem C59_equilibrium_partial (hodd : OddColumns G) (hfull : Full G) (hm : Assembled id G a m) (hno : NoPower G) {C : Nat → K}
    (hC : ∀ i, IsCapacity G ns i (C i)) {T : K} (htop : ∀ s, G.g.top = some (.ambient s) → s.tAmb = T) (hbot : G.g.bottom = none)
    (hin : ∀ ch, G.g.channel = some ch → ch.coolant.tIn = T) {S : List K}
    {fl' : List (Option (List (FEl K)))} (h : sourcesNU G.g G.d G.cells G.flps = some (S, fl')) :
    Solves G.cells.length m.entry (fun _ => T) (fun i => storage a (C i) * T + S.getD i 0) := by
  intro i hi
  show ∑ j ∈ Finset.range G.cells.length, m.entry i j * T = _
  rw [← Finset.sum_mul]
  simp only
  by_cases hnc : InChannel ns G.cells[i]
  · obtain ⟨n, hn, ch, hb, h1, h2⟩ := hnc
    have hk : G.cells[i].layer - n.elem.offset < chLayers ch := by omega
    obtain ⟨r, c, hr, hc, ei⟩ := chan_of_layer hf hn hb hk hi (by omega)
    generalize G.cells[i].layer - n.elem.offset = k at hk ei
    have ei' : i = G.at (n.elem.offset + k) r c := ei
    rw [ei', (column_channel hf fit ph hsh hm hC hn hb hk hr hc).2, add_mul]
    congr 1
    have hch := (hf.channel hn hb).1
    by_cases hkp : k = coolantPos ch
    · subst hkp
      rw [List.getD_eq_getElem?_getD, ← coolantLayer_eq, coolant_source hf hodd ph hfull h hn hb hr hc, Option.getD_some, hin ch hch]
      by_cases hx : r = 0 ∧ WetCol G ch c
      · rw [if_pos hx, if_pos ⟨rfl, hx.2, hx.1⟩]
      · rw [if_neg hx, if_neg (by tauto), zero_mul]
    · rw [if_neg (by tauto), zero_mul, ← ei']
      obtain ⟨-, -, -, hrest⟩ := C59_sources hf hodd ph hfull h
      have hget := List.getElem?_eq_getElem hi
      have hlt : G.cells[i].layer < G.d.nLayers := by have := (hf.channel hn hb).2.2.2.1; omega
      have hlay : G.cells[i].layer = n.elem.offset + k := by
        have := chan_get hf hn hb hk hr hc
        rw [← ei, hget, Option.some.injEq] at this
        rw [this]; rfl
      have hdry : coolantType (typeAt G.g G.cells[i].layer) = false := by rw [hlay, coolant_is hf hn hb hk]; simpa using hkp
      have := source_nopower hf hf.laid ph hfull hno h hget hlt hdry
      rw [List.getD_eq_getElem?_getD, this, Option.getD_some, fromSinks_inner]
      have := (hf.channel hn hb).2.2
      omega
  · rw [(C58_solid hf fit ph hsh hm hi hnc).2, (hC i _ (List.getElem?_eq_getElem hi)).1 hnc, add_mul]
    congr 1
    have hget := List.getElem?_eq_getElem hi
    have hS : S[i]? = some (fromSinks G G.cells[i]) := by
      by_cases hlt : G.cells[i].layer < G.d.nLayers
      · refine source_nopower hf hf.laid ph hfull hno h hget hlt ?_
        obtain ⟨n, hn, k, hk, e⟩ := hf.elemAt hlt
        rw [e]
        refine solid_dry (hf.solidAt hn ?_ hk)
        cases hb : n.elem.body with
        | die d => unfold isChannel; rw [hb]
        | layer l => unfold isChannel; rw [hb]
        | channel ch =>
          unfold nLayersOf at hk; rw [hb] at hk
          exact absurd ⟨n, hn, ch, hb, by omega, by rw [e]; exact Nat.add_lt_add_left hk _⟩ hnc
      · obtain ⟨-, -, -, hrest⟩ := C59_sources hf hodd ph hfull h
        refine hrest i _ hget (fun es hes => ?_) ?_
        · have := (List.getElem?_eq_some_iff.mp hes).1
          rw [flps_length hf] at this; exact hlt this
        · rintro ⟨n, hn, ch, hb, c, hc, hw, ei⟩
          have := chan_get hf hn hb (coolantPos_lt (ch := ch)) hf.wf.acc.rows hc
          rw [← at_eq, ← ei, hget, Option.some.injEq] at this
          refine hlt ?_
          rw [this]
          show n.elem.offset + coolantPos ch < _
          have h4 := (hf.channel hn hb).2.2.2.1
          have := coolantPos_lt (ch := ch); omega
    rw [List.getD_eq_getElem?_getD, hS, Option.getD_some]
    unfold fromSinks
    rw [hbot]
    simp only [add_zero]
    rcases hf.top with ⟨s, ht⟩ | ⟨s, mm, ht⟩
    · rw [ht]; simp only; rw [htop s ht, mul_comm]
    · rw [ht]; simp only; unfold toAmbient; rw [ht]; simp

end

end Verif.NU
