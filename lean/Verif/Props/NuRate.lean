import Verif.Lemmas.NuRate
import Verif.Props.NuEnergy

/-!
# C61: another flow rate of the coolant on a non-uniform grid

`update_coolant_flow_rate` changes the flow rate of the channel, fills the matrix again and writes the new terms of the coolant inlets.
The matrix is right. The inlet terms are written as if all the layers had one cell per row and column of the stack file: when the layers
below the coolant have another number of cells, other cells get them. The next slot is right again.
-/

set_option linter.unusedSectionVars false
set_option linter.unusedSimpArgs false
set_option linter.unusedVariables false

namespace Verif.NU
open Verif.Dim Verif.TG Verif.Stk Verif.SM
open Verif.Emu (SimResult Succeeded flowToUm3 setFlow withFlow isCh chanCol)

variable {K : Type} [Field K] [LinearOrder K] [IsStrictOrderedRing K] {π : Type}
variable {d0 : Dims K} {decl : Option (Channel K)} {rs : List (Raw K (List (FEl K)))} {ns : List (NElem K)} {G : Grid K}

/-! ## Specification -/

/-- Heat brought per second by the coolant that enters a column when the flow rate is `f` (ml/min). -/
def inflow (ch : Channel K) (d : Dims K) (f : K) (c : Nat) : K := stream (setFlow (flowToUm3 f) ch) d c * ch.coolant.tIn

/-- Place of the inlet of column `c` of a coolant layer, if each layer below had one cell per row and column. -/
def uniformInlet (d : Dims K) (l c : Nat) : Nat := l * (d.nRows * d.nCols) + c

/-- The inlet of every channel is where a uniform grid would have it. -/
def InletsInPlace (G : Grid K) (ns : List (NElem K)) : Prop :=
  ∀ n ∈ ns, ∀ ch, n.elem.body = .channel ch → ∀ c, G.at (coolantLayer n.elem ch) 0 c = uniformInlet G.d (coolantLayer n.elem ch) c

/-! ## Proofs -/

theorem isCh_coolant (t : LType) : isCh t = coolantType t := by cases t <;> rfl

theorem coolant_elem (hf : FromStack d0 decl rs ns G) {l : Nat} (hl : l < G.d.nLayers) (h : coolantType (typeAt G.g l) = true) :
    ∃ n ∈ ns, ∃ ch, n.elem.body = .channel ch ∧ l = coolantLayer n.elem ch := by
  obtain ⟨n, hn, k, hk, rfl⟩ := hf.elemAt hl
  by_cases hc : isChannel n.elem = true
  · unfold isChannel at hc
    cases hb : n.elem.body with
    | channel ch =>
      have hk' : k < chLayers ch := by unfold nLayersOf at hk; rw [hb] at hk; exact hk
      rw [coolant_is hf hn hb hk'] at h
      exact ⟨n, hn, ch, hb, by rw [coolantLayer_eq, of_decide_eq_true h]⟩
    | die b => rw [hb] at hc; cases hc
    | layer b => rw [hb] at hc; cases hc
  · have := hf.solidAt hn (by simpa using hc) hk
    revert h this
    cases typeAt G.g (n.elem.offset + k) <;> simp [coolantType, solidish]

theorem wet_iff (hf : FromStack d0 decl rs ns G) (hodd : OddColumns G) {ch : Channel K} (hch : G.g.channel = some ch) {c : Nat} (hc : c < G.d.nCols) :
    chanCol G.g c = true ↔ WetCol G ch c := by
  unfold chanCol WetCol chModel
  rw [hch]
  simp only [Option.map_some, Option.getD_some]
  by_cases hm : ch.model = .mc4rm
  · have := hodd ch hch hm
    simp only [hm, if_true, isChannelCol, decide_eq_true_eq, forall_const]
    constructor
    · intro h; exact ⟨h, by omega⟩
    · exact fun h => h.1
  · simp [hm]

/-! ## Theorems -/

/-- **C61** Whatever calls were made before: the matrix, the grid, the connections and the stored capacities are those of the simulation
built from the same stack file in which the channel is declared with the new flow rate. -/
theorem C61_matrix_as_rebuilt {cfg : NCfg K π} {s : NSim K π} (h : ReachableNU cfg d0 decl rs ns s) {f : K}
    (hok : (flowNU cfg s f).2 = true) :
    ∃ b, Begun cfg d0 (decl.map (setFlow (flowToUm3 f))) rs (ns.map (flowEl (flowToUm3 f))) b ∧
      (flowNU cfg s f).1.mat = b.mat ∧ (flowNU cfg s f).1.caps = b.caps ∧ (flowNU cfg s f).1.conns = b.conns ∧
      (flowNU cfg s f).1.G = { b.G with flps := s.G.flps } := by
  have hv := valid_flow (reachable_valid h) f
  obtain ⟨e1, e2, e3, e4, -, -, -, e8⟩ := flow_state cfg s f
  obtain ⟨p, g, fl, h1, h2, h3, h4⟩ := hv.grid.parsed
  have hc := hv.conns
  rw [e1] at h3 hc
  rw [e2] at hc
  refine ⟨⟨{ s.G with g := withFlow s.G.g (flowToUm3 f), ns := s.G.ns.map (flowEl (flowToUm3 f)), flps := fl }, s.conns,
    fillMatrixNU id (withFlow s.G.g (flowToUm3 f)) cfg.an.ana s.G.d s.G.ls.flatten s.conns,
    List.replicate s.G.nCells cfg.an.initTemp, List.replicate s.G.nCells 0,
    capsNU { s.G with g := withFlow s.G.g (flowToUm3 f), ns := s.G.ns.map (flowEl (flowToUm3 f)), flps := fl }, 0, s.plug⟩,
    ⟨⟨p, g, h1, h2, h3⟩, hc, s.plug, ?_⟩, ?_, ?_, ?_, ?_⟩
  · unfold buildSim
    simp only
    rw [if_pos (by rw [← e8]; exact hok)]
  · exact e3
  · rw [hv.caps, e1]; rfl
  · exact e2
  · exact e1

/-- **C61** Temperatures, time, elements with their pending power values and the state of a pluggable sink are untouched, also when the
factorization fails; the failure is reported. -/
theorem C61_rest_untouched (cfg : NCfg K π) (s : NSim K π) (f : K) :
    (flowNU cfg s f).1.temps = s.temps ∧ (flowNU cfg s f).1.time = s.time ∧ elements (flowNU cfg s f).1 = elements s ∧
      (flowNU cfg s f).1.plug = s.plug ∧ (flowNU cfg s f).1.sources.length = s.sources.length ∧
      ((flowNU cfg s f).2 = false → (flowNU cfg s f).1.sources = s.sources) := by
  obtain ⟨e1, e2, e3, e4, e5, e6, e7, e8⟩ := flow_state cfg s f
  refine ⟨e6, e5, by unfold elements; rw [e1], e7, ?_, ?_⟩
  · unfold flowNU
    simp only
    split
    · exact Emu.channelFrom_length _ _ _ _ _ _
    · rfl
  · intro h
    rw [e8] at h
    unfold flowNU
    simp only [h, Bool.false_eq_true, if_false]

/-- **C61** What a change of the flow rate writes into the sources: the new term of each inlet, at the place that the inlet would have in a
uniform grid (if the vector has this place); everything else stays. -/
theorem C61_written {cfg : NCfg K π} {s : NSim K π} (h : ReachableNU cfg d0 decl rs ns s) (hodd : OddColumns s.G) {f : K}
    (hok : (flowNU cfg s f).2 = true) :
    (∀ n ∈ ns, ∀ ch, n.elem.body = .channel ch → ∀ c, c < s.G.d.nCols → WetCol s.G ch c →
      uniformInlet s.G.d (coolantLayer n.elem ch) c < s.sources.length →
      (flowNU cfg s f).1.sources.getD (uniformInlet s.G.d (coolantLayer n.elem ch) c) 0 = inflow ch s.G.d f c) ∧
    (∀ i, (¬ ∃ n ∈ ns, ∃ ch, n.elem.body = .channel ch ∧ ∃ c, c < s.G.d.nCols ∧ WetCol s.G ch c ∧
        i = uniformInlet s.G.d (coolantLayer n.elem ch) c) → (flowNU cfg s f).1.sources.getD i 0 = s.sources.getD i 0) := by
  have hf := (reachable_valid h).grid
  have hwf := Emu.withFlow_wf (flowToUm3 f) hf.wf
  obtain ⟨-, -, -, -, -, -, -, e8⟩ := flow_state cfg s f
  have hsrc : (flowNU cfg s f).1.sources = Emu.channelFrom (withFlow s.G.g (flowToUm3 f)) s.G.d s.G.d.nLayers 0 0 s.sources := by
    rw [hok] at e8
    unfold flowNU
    simp only [← e8, if_true]
    rw [show (withFlow s.G.g (flowToUm3 f)).nLayers = s.G.d.nLayers from hf.wf.nl]
  have hA := Emu.wf_area hf.wf
  have hlast := Emu.wf_lastCol hf.wf
  have hm : ∀ c, chanCol (withFlow s.G.g (flowToUm3 f)) c = chanCol s.G.g c := by
    intro c
    have : chModel (withFlow s.G.g (flowToUm3 f)) = chModel s.G.g := by unfold chModel withFlow; cases s.G.g.channel <;> rfl
    unfold chanCol; rw [this]
  obtain ⟨k1, k2⟩ := channelFrom_at (withFlow s.G.g (flowToUm3 f)) s.G.d (Emu.wf_colArea hf.wf) s.G.d.nLayers 0 0 s.sources
    (fun i hi => by rw [Nat.zero_add]; exact Emu.types_none hwf hi)
  rw [hsrc]
  refine ⟨?_, ?_⟩
  · intro n hn ch hb c hc hw hlen
    obtain ⟨h1, -⟩ := hf.channel hn hb
    obtain ⟨-, hh, hl, -⟩ := coolant_type hf hn hb
    rw [← coolantLayer_eq] at hh hl
    have hci : coolantType (typeAt s.G.g (coolantLayer n.elem ch)) = true := by
      rw [coolantLayer_eq, coolant_is hf hn hb coolantPos_lt]; simp
    have := k1 (coolantLayer n.elem ch) c hl (by omega) (by rw [Nat.zero_add, isCh_coolant]; exact hci)
      (by rw [hm]; exact (wet_iff hf hodd h1 hc).mpr hw) (by rw [hA, Nat.zero_add]; exact hlen)
    rw [hA, Nat.zero_add, Nat.zero_add] at this
    show (Emu.channelFrom (withFlow s.G.g (flowToUm3 f)) s.G.d s.G.d.nLayers 0 0 s.sources).getD
      (coolantLayer n.elem ch * (s.G.d.nRows * s.G.d.nCols) + c) 0 = _
    rw [this]
    have hch' : (withFlow s.G.g (flowToUm3 f)).channel = some (setFlow (flowToUm3 f) ch) := by
      unfold withFlow; rw [h1]; rfl
    rw [conv_stream hch' (show height s.G.d _ = (setFlow (flowToUm3 f) ch).height from hh)]
    unfold inflow chan
    rw [hch']
    simp only [Option.map_some, Option.getD_some]
    show 2 * (_ / 2) * ch.coolant.tIn = _
    ring
  · intro i hi
    refine k2 i fun l k hl hk hci hkc he => hi ?_
    rw [Nat.zero_add, isCh_coolant] at hci
    obtain ⟨n, hn, ch, hb, el⟩ := coolant_elem hf hl hci
    obtain ⟨h1, -⟩ := hf.channel hn hb
    rw [hm] at hkc
    refine ⟨n, hn, ch, hb, k, by omega, (wet_iff hf hodd h1 (by omega)).mp hkc, ?_⟩
    rw [he, Nat.zero_add, hA, el]; rfl

/-- The grid of the stack with another flow rate (um3/s). -/
abbrev withRate (G : Grid K) (f : K) : Grid K := { G with g := withFlow G.g f, ns := G.ns.map (flowEl f) }

theorem fromSinks_flow (f : K) (G : Grid K) (c : Cell K) : fromSinks (withRate G f) c = fromSinks G c := rfl

theorem physical_flow {f : K} (ph : PhysicalNU G) : PhysicalNU (withRate G f) := ⟨ph.hts, ph.cell, ph.mat, ph.htc, ph.spr⟩

theorem odd_flow {f : K} (h : OddColumns G) : OddColumns (withRate G f) := by
  intro ch hch hm
  simp only [withRate, withFlow, Option.map_eq_some_iff] at hch
  obtain ⟨c0, h1, rfl⟩ := hch
  exact h c0 h1 hm

theorem flowEl_channel {f : K} {n : NElem K} {ch : Channel K} (hb : n.elem.body = .channel ch) :
    (flowEl f n).elem.body = .channel (setFlow f ch) ∧ coolantLayer (flowEl f n).elem (setFlow f ch) = coolantLayer n.elem ch := by
  unfold flowEl
  rw [hb]
  exact ⟨rfl, rfl⟩

/-- Sources of the same powers with two flow rates: only the inlets differ. -/
theorem sources_flow (hf : FromStack d0 decl rs ns G) (hodd : OddColumns G) (ph : PhysicalNU G) (hfull : Full G) {t : Sink K}
    (ht : G.g.top = some (.ambient t)) {f : K} {S S' : List K} {fl fl' : List (Option (List (FEl K)))}
    (h : sourcesNU G.g G.d G.cells G.flps = some (S, fl))
    (h' : sourcesNU (withRate G f).g (withRate G f).d (withRate G f).cells (withRate G f).flps = some (S', fl')) :
    S'.length = S.length ∧
    (∀ n ∈ ns, ∀ ch, n.elem.body = .channel ch → ∀ c, c < G.d.nCols → WetCol G ch c →
      S'[G.at (coolantLayer n.elem ch) 0 c]? = some (stream (setFlow f ch) G.d c * ch.coolant.tIn)) ∧
    ∀ i, ¬ IsInlet G ns i → S'[i]? = S[i]? := by
  have hf' := hf.flow f
  have hl := (power_of_each hf hf.laid ph hfull h).1
  have hl' : S'.length = G.cells.length := (power_of_each hf' hf'.laid (physical_flow ph) hfull h').1
  have hcs : ∀ n ∈ ns, ∀ ch, n.elem.body = .channel ch → ∀ r c, r < G.d.nRows → c < G.d.nCols →
      S'[G.at (coolantLayer n.elem ch) r c]? = some (if r = 0 ∧ WetCol G ch c then stream (setFlow f ch) G.d c * ch.coolant.tIn else 0) := by
    intro n hn ch hb r c hr hc
    obtain ⟨b1, b2⟩ := flowEl_channel (f := f) hb
    have := coolant_source hf' (odd_flow hodd) (physical_flow ph) hfull h' (List.mem_map_of_mem hn) b1 hr hc
    rw [b2] at this
    exact this
  refine ⟨hl'.trans hl.symm, ?_, ?_⟩
  · intro n hn ch hb c hc hw
    rw [hcs n hn ch hb 0 c hf.wf.acc.rows hc, if_pos ⟨rfl, hw⟩]
  · intro i hi
    by_cases hlen : i < G.cells.length
    · obtain ⟨lc, a1, a2, a3, -, a5, a6⟩ := hf.pos_layer hlen
      have hlt : G.cells[i].layer < G.d.nLayers := by
        rcases a6 with a6 | ⟨-, s, m, a6⟩
        · exact a6
        · rw [ht] at a6; cases a6
      by_cases hcool : coolantType (typeAt G.g G.cells[i].layer) = true
      · obtain ⟨n, hn, ch, hb, el⟩ := coolant_elem hf hlt hcool
        rw [coolantLayer_eq] at el
        obtain ⟨r, c, hr, hc, e⟩ := chan_of_layer hf hn hb (coolantPos_lt (ch := ch)) hlen el
        have e' : i = G.at (coolantLayer n.elem ch) r c := by rw [coolantLayer_eq]; exact e
        have hni : ¬ (r = 0 ∧ WetCol G ch c) := by
          rintro ⟨rfl, hw⟩
          exact hi ⟨n, hn, ch, hb, c, hc, hw, e'⟩
        rw [e', hcs n hn ch hb r c hr hc, coolant_source hf hodd ph hfull h hn hb hr hc, if_neg hni, if_neg hni]
      · have hs : i - start G.ls G.cells[i].layer < lc.length := by omega
        obtain ⟨c1, -⟩ := source_at hf.laid ph hfull h hlt a1 hs
        obtain ⟨c2, -⟩ := source_at hf'.laid (physical_flow ph) hfull h' hlt a1 hs
        have ei : firstCell G G.cells[i].layer + (i - start G.ls G.cells[i].layer) = i := by
          show start G.ls _ + _ = i; omega
        have ei' : firstCell (withRate G f) G.cells[i].layer + (i - start G.ls G.cells[i].layer) = i := ei
        rw [ei] at c1
        rw [ei'] at c2
        rw [c1, c2]
        have hpp : powerPart (withRate G f) G.cells[i].layer lc = powerPart G G.cells[i].layer lc := by
          unfold powerPart
          cases G.flps[G.cells[i].layer]? with
          | none => simp only; rw [if_neg hcool, if_neg (show ¬ coolantType (typeAt (withRate G f).g _) = true from hcool)]
          | some o =>
            cases o with
            | none => simp only; rw [if_neg hcool, if_neg (show ¬ coolantType (typeAt (withRate G f).g _) = true from hcool)]
            | some es => rfl
        rw [hpp]
        rfl
    · rw [List.getElem?_eq_none (by omega), List.getElem?_eq_none (by omega)]

/-- **C61 (partial)** When the inlets are where a uniform grid would have them: after a change of the flow rate at any point of a slot the
sources are those of a slot that began with the new rate. (Without that condition: `C61_inlet_stale_violated`.) -/
theorem C61_inlets_right_partial {cfg : NCfg K π} {s0 s : NSim K π} (h : ReachableNU cfg d0 decl rs ns s0) {t : Sink K}
    (ht : s0.G.g.top = some (.ambient t)) (ph : PhysicalNU s0.G) (hodd : OddColumns s0.G) (hfull : Full s0.G)
    (hplace : InletsInPlace s0.G ns) (hin : InSlot cfg s0 s) {f : K} (hok : (flowNU cfg s f).2 = true) :
    ∃ fl, sourcesNU (flowNU cfg s0 f).1.G.g (flowNU cfg s0 f).1.G.d (flowNU cfg s0 f).1.G.cells s0.G.flps =
      some ((flowNU cfg s f).1.sources, fl) := by
  have hv := reachable_valid h
  obtain ⟨hvs, ⟨fls, hG⟩, fl, hsrc⟩ := inSlot_spec hv ht hin
  obtain ⟨e1, -⟩ := flow_state cfg s0 f
  have hp : ∀ (l : Nat) es, s0.G.flps[l]? = some (some es) → ∀ e ∈ es, e.powers ≠ [] := by
    have hel : ∀ e ∈ elements s0, e.powers ≠ [] := by
      have hb : cfg.an.slotLength ∣ s0.time ∧ Succeeded (stepNU cfg s0).1 := by
        clear hvs hG hsrc hok hplace
        induction hin with
        | first hb hs => exact ⟨hb, hs⟩
        | step _ _ ih => exact ih
        | insert _ _ ih => exact ih
        | reset _ ih => exact ih
      obtain ⟨-, -, -, hc⟩ := step_spec (cfg := cfg) hv
      have hs := hb.2
      rcases hc with ⟨h2, -⟩ | ⟨h2, -⟩ | ⟨-, h3, -⟩
      · rw [h2] at hs; simp [Succeeded] at hs
      · rw [h2] at hs; simp [Succeeded] at hs
      · exact h3 (Nat.dvd_iff_mod_eq_zero.mp hb.1)
    intro l es hl e he
    exact hel e (List.mem_flatMap.mpr ⟨some es, List.mem_of_getElem? hl, he⟩)
  have hf' := hv.grid.flow (flowToUm3 f)
  obtain ⟨⟨S', fl'⟩, hS'⟩ := sources_some (G := withRate s0.G (flowToUm3 f)) hf'.laid hfull hp
  refine ⟨fl', ?_⟩
  rw [e1]
  refine hS'.trans ?_
  congr 1
  refine Prod.ext ?_ rfl
  obtain ⟨q1, q2, q3⟩ := sources_flow hv.grid hodd ph hfull ht hsrc hS'
  obtain ⟨w1, w2⟩ := C61_written (hin.reachable h) (by rw [hG]; exact hodd) hok
  rw [hG] at w1 w2
  have hlen := (C61_rest_untouched cfg s f).2.2.2.2.1
  have hL : s.sources.length = s0.G.cells.length := (power_of_each hv.grid hv.grid.laid ph hfull hsrc).1
  show S' = (flowNU cfg s f).1.sources
  apply List.ext_getElem?
  intro i
  by_cases hi : i < s.sources.length
  · have hget : (flowNU cfg s f).1.sources[i]? = some ((flowNU cfg s f).1.sources.getD i 0) := by
      rw [List.getD_eq_getElem?_getD, List.getElem?_eq_getElem (by omega)]; rfl
    rw [hget]
    by_cases hinl : IsInlet s0.G ns i
    · obtain ⟨n, hn, ch, hb, c, hc, hw, rfl⟩ := hinl
      rw [q2 n hn ch hb c hc hw]
      rw [hplace n hn ch hb c] at hi ⊢
      rw [w1 n hn ch hb c hc hw hi]
      rfl
    · rw [q3 i hinl, w2 i ?_]
      · rw [List.getD_eq_getElem?_getD, List.getElem?_eq_getElem hi]; rfl
      · rintro ⟨n, hn, ch, hb, c, hc, hw, e⟩
        refine hinl ⟨n, hn, ch, hb, c, hc, hw, ?_⟩
        rw [e]; exact (hplace n hn ch hb c).symm
  · rw [List.getElem?_eq_none (by omega), List.getElem?_eq_none (by omega)]

/-- **C61 (violated)** An inlet that is not at the place it would have in a uniform grid, nor at such a place of another inlet, keeps the
term of the old flow rate: until the next slot the heat that enters is not the one that the matrix takes away. -/
theorem C61_inlet_stale_violated {cfg : NCfg K π} {s0 s : NSim K π} (h : ReachableNU cfg d0 decl rs ns s0) {t : Sink K}
    (ht : s0.G.g.top = some (.ambient t)) (ph : PhysicalNU s0.G) (hodd : OddColumns s0.G) (hfull : Full s0.G)
    (hin : InSlot cfg s0 s) {f : K} (hok : (flowNU cfg s f).2 = true) {n : NElem K} (hn : n ∈ ns) {ch : Channel K} (hb : n.elem.body = .channel ch)
    {c : Nat} (hc : c < s0.G.d.nCols) (hw : WetCol s0.G ch c)
    (hplace : ∀ n' ∈ ns, ∀ ch', n'.elem.body = .channel ch' → ∀ c' < s0.G.d.nCols,
      s0.G.at (coolantLayer n.elem ch) 0 c ≠ uniformInlet s0.G.d (coolantLayer n'.elem ch') c') :
    (flowNU cfg s f).1.sources[s0.G.at (coolantLayer n.elem ch) 0 c]? = some (stream ch s0.G.d c * ch.coolant.tIn) := by
  have hv := reachable_valid h
  obtain ⟨hvs, ⟨fls, hG⟩, fl, hsrc⟩ := inSlot_spec hv ht hin
  have h1 := coolant_source hv.grid hodd ph hfull hsrc hn hb hv.grid.wf.acc.rows hc
  rw [if_pos ⟨rfl, hw⟩] at h1
  obtain ⟨-, w2⟩ := C61_written (hin.reachable h) (by rw [hG]; exact hodd) hok
  rw [hG] at w2
  have hlt := (List.getElem?_eq_some_iff.mp h1).1
  have hlen := (C61_rest_untouched cfg s f).2.2.2.2.1
  have := w2 (s0.G.at (coolantLayer n.elem ch) 0 c) (by
    rintro ⟨n', hn', ch', hb', c', hc', -, e⟩
    exact hplace n' hn' ch' hb' c' hc' e)
  rw [List.getD_eq_getElem?_getD, List.getD_eq_getElem?_getD, h1, List.getElem?_eq_getElem (by omega)] at this
  rw [List.getElem?_eq_getElem (by omega)]
  exact congrArg some this

/-- **C61** The first step of the next slot puts things right: whatever changes of the flow rate came before, each inlet gets the term of the
current flow rate. -/
theorem C61_next_slot {cfg : NCfg K π} {s : NSim K π} (h : ReachableNU cfg d0 decl rs ns s) (f : K) {t : Sink K}
    (ht : s.G.g.top = some (.ambient t)) (ph : PhysicalNU s.G) (hodd : OddColumns s.G) (hfull : Full s.G)
    (hb : cfg.an.slotLength ∣ s.time) (hs : Succeeded (stepNU cfg (flowNU cfg s f).1).1) {n : NElem K} (hn : n ∈ ns) {ch : Channel K}
    (hch : n.elem.body = .channel ch) {c : Nat} (hc : c < s.G.d.nCols) (hw : WetCol s.G ch c) :
    (stepNU cfg (flowNU cfg s f).1).2.sources[s.G.at (coolantLayer n.elem ch) 0 c]? = some (inflow ch s.G.d f c) := by
  have hv := reachable_valid h
  obtain ⟨e1, -, -, -, e5, -⟩ := flow_state cfg s f
  have hin : InSlot cfg (flowNU cfg s f).1 (stepNU cfg (flowNU cfg s f).1).2 := .first (by rw [e5]; exact hb) hs
  obtain ⟨-, -, fl, hsrc⟩ := inSlot_spec (valid_flow hv f) (t := t) (by rw [e1]; exact ht) hin
  rw [e1] at hsrc
  obtain ⟨b1, b2⟩ := flowEl_channel (f := flowToUm3 f) hch
  have := coolant_source (hv.grid.flow (flowToUm3 f)) (odd_flow hodd) (physical_flow ph) hfull hsrc (List.mem_map_of_mem hn) b1
    hv.grid.wf.acc.rows hc
  rw [b2, if_pos ⟨rfl, hw⟩] at this
  exact this

end Verif.NU
