import Verif.Props.Sources

/-! C40: changing the flow rate of the coolant. -/

set_option linter.unusedSectionVars false
set_option linter.unusedSimpArgs false
set_option linter.unusedVariables false

namespace Verif.Emu
open Verif.Dim Verif.TG Verif.SM Verif.Flp Verif.Stk

variable {K : Type} [Field K] [LinearOrder K] [IsStrictOrderedRing K] {π : Type}

/-! ### Specification -/

/-- The declaration of the channel with another flow rate (in µm³/s). -/
def setFlow (f : K) (ch : Channel K) : Channel K := { ch with coolant := { ch.coolant with flowRate := f } }

/-- The last flow rate requested, if any. -/
def lastFlow : List (Op K) → Option K
  | [] => none
  | .flow f :: os => some ((lastFlow os).getD f)
  | _ :: os => lastFlow os

/-! ### Reading the same stack with another flow rate -/

section parse
variable {φ : Type}

def setBody (f : K) : Body K φ → Body K φ
  | .channel ch => .channel (setFlow f ch)
  | b => b
def setElem (f : K) (e : SElem K φ) : SElem K φ := { e with body := setBody f e.body }

theorem resolve_set (f : K) (decl : Option (Channel K)) (r : Raw K φ) :
    resolve (decl.map (setFlow f)) r = (resolve decl r).map (setElem f) := by
  unfold resolve
  cases r.body <;> simp [setElem, setBody] <;> rfl

theorem isChannel_set (f : K) (e : SElem K φ) : isChannel (setElem f e) = isChannel e := by
  unfold isChannel setElem setBody; cases e.body <;> rfl
theorem isDie_set (f : K) (e : SElem K φ) : isDie (setElem f e) = isDie e := by
  unfold isDie setElem setBody; cases e.body <;> rfl
theorem nLayers_set (f : K) (e : SElem K φ) : nLayersOf (setElem f e) = nLayersOf e := by
  unfold nLayersOf setElem setBody; cases e.body <;> rfl
theorem heights_set (f : K) (e : SElem K φ) : heightsOf (setElem f e) = heightsOf e := by
  unfold heightsOf setElem setBody; cases e.body <;> rfl

theorem addElement_set (f : K) (decl : Option (Channel K)) (acc : List (SElem K φ)) (r : Raw K φ) :
    addElement (decl.map (setFlow f)) (acc.map (setElem f)) r = (addElement decl acc r).map (List.map (setElem f)) := by
  unfold addElement
  rw [resolve_set]
  cases resolve decl r with
  | none => rfl
  | some e =>
    simp only [Option.map_some, Option.bind_some]
    have h1 : (acc.map (setElem f)).any (fun x => x.id = (setElem f e).id) = acc.any (fun x => x.id = e.id) := by
      rw [List.any_map]; rfl
    have h2 : ((acc.map (setElem f)).head?.map isChannel).getD false = (acc.head?.map isChannel).getD false := by
      cases acc with
      | nil => rfl
      | cons a acc => simp [isChannel_set]
    rw [h1, h2, isChannel_set]
    split
    · rfl
    · split
      · rfl
      · simp

theorem foldlM_set (f : K) (decl : Option (Channel K)) (rs : List (Raw K φ)) (acc : List (SElem K φ)) :
    rs.foldlM (addElement (decl.map (setFlow f))) (acc.map (setElem f)) = (rs.foldlM (addElement decl) acc).map (List.map (setElem f)) := by
  induction rs generalizing acc with
  | nil => rfl
  | cons r rs ih =>
    rw [List.foldlM_cons, List.foldlM_cons, addElement_set]
    cases addElement decl acc r with
    | none => rfl
    | some acc' => exact ih acc'

theorem parseElements_set (f : K) (decl : Option (Channel K)) (rs : List (Raw K φ)) :
    parseElements (decl.map (setFlow f)) rs = (parseElements decl rs).map (List.map (setElem f)) := by
  cases rs with
  | nil => rfl
  | cons r rs =>
    rw [parseElements, parseElements, resolve_set]
    cases resolve decl r with
    | none => rfl
    | some e => exact foldlM_set f decl rs [e]

theorem offsets_set (f : K) (n : Nat) (es : List (SElem K φ)) : assignOffsets n (es.map (setElem f)) = (assignOffsets n es).map (setElem f) := by
  induction es generalizing n with
  | nil => rfl
  | cons e es ih => simp only [List.map_cons, assignOffsets, nLayers_set, ih]; rfl

theorem count_set (f : K) (n : Nat) (es : List (SElem K φ)) : countLayers n (es.map (setElem f)) = countLayers n es := by
  induction es generalizing n with
  | nil => rfl
  | cons e es ih => simp only [List.map_cons, countLayers, nLayers_set, ih]

def setParsed (f : K) (p : Parsed K φ) : Parsed K φ := { p with elems := p.elems.map (setElem f) }

theorem parseStack_set (f : K) (d : Dims K) (decl : Option (Channel K)) (s : Option (Spreader K)) (rs : List (Raw K φ)) :
    parseStack d (decl.map (setFlow f)) s rs = (parseStack d decl s rs).map (setParsed f) := by
  unfold parseStack
  rw [parseElements_set]
  cases parseElements decl rs with
  | none => rfl
  | some es =>
    simp only [Option.map_some, Option.bind_some]
    have h1 : ((es.map (setElem f)).filter isDie).length = (es.filter isDie).length := by
      rw [List.filter_map, List.length_map]
      congr 2; funext e; exact isDie_set f e
    have h2 : ((es.map (setElem f)).filter isChannel).length = (es.filter isChannel).length := by
      rw [List.filter_map, List.length_map]
      congr 2; funext e; exact isChannel_set f e
    have h3 : ((es.map (setElem f)).head?.map isChannel).getD false = (es.head?.map isChannel).getD false := by
      cases es <;> simp [isChannel_set]
    have h4 : ((es.map (setElem f)).getLast?.map isChannel).getD false = (es.getLast?.map isChannel).getD false := by
      rw [List.getLast?_map, Option.map_map]
      congr 2; funext e; exact isChannel_set f e
    have h5 : ∀ L : List (SElem K φ), (L.map (setElem f)).flatMap heightsOf = L.flatMap heightsOf := by
      intro L; rw [List.flatMap_map]; congr 1; funext e; exact heights_set f e
    have h6 : ((decl.map (setFlow f)).map (·.model)).getD .none = (decl.map (·.model)).getD .none := by cases decl <;> rfl
    rw [h1, h2, h3, h4, ← List.map_reverse, count_set, h5, offsets_set, h6]
    split
    · rfl
    · split
      · rfl
      · split
        · rfl
        · rw [Option.map_map]; rfl

theorem writeTypes_set (f : K) (ts : List LType) (e : SElem K φ) : writeTypes ts (setElem f e) = writeTypes ts e := by
  unfold writeTypes setElem setBody; cases e.body <;> rfl
theorem writeLayers_set (f : K) (ls : List (Layer K)) (e : SElem K φ) : writeLayers ls (setElem f e) = writeLayers ls e := by
  unfold writeLayers setElem setBody; cases e.body <;> rfl
theorem writeChannel_set (f : K) (c : Option (Channel K)) (e : SElem K φ) :
    writeChannel (c.map (setFlow f)) (setElem f e) = (writeChannel c e).map (setFlow f) := by
  unfold writeChannel setElem setBody; cases e.body <;> rfl
theorem is4rm_set (f : K) (e : SElem K φ) : is4rm (setElem f e) = is4rm e := by
  unfold is4rm setElem setBody; cases e.body <;> rfl
theorem writeFlp_set (f : K) (fs : List (Option φ)) (e : SElem K φ) : writeFlp fs (setElem f e) = writeFlp fs e := by
  unfold writeFlp setElem setBody; cases e.body <;> rfl

theorem foldl_set {α : Type} (f : K) (h : α → SElem K φ → α) (hh : ∀ a e, h a (setElem f e) = h a e) (es : List (SElem K φ)) (a : α) :
    (es.map (setElem f)).foldl h a = es.foldl h a := by
  induction es generalizing a with
  | nil => rfl
  | cons e es ih => simp only [List.map_cons, List.foldl_cons, hh, ih]

theorem channel_set (f : K) (es : List (SElem K φ)) (c : Option (Channel K)) :
    (es.map (setElem f)).foldl writeChannel (c.map (setFlow f)) = (es.foldl writeChannel c).map (setFlow f) := by
  induction es generalizing c with
  | nil => rfl
  | cons e es ih => simp only [List.map_cons, List.foldl_cons, writeChannel_set, ih]

theorem fillGrid_set (f : K) (n : Nat) (es : List (SElem K φ)) (top : Option (TopSink K)) (bottom : Option (Sink K)) :
    fillGrid n (es.map (setElem f)) top bottom = (fillGrid n es top bottom).map fun g => withFlow g f := by
  unfold fillGrid
  have h0 := channel_set f es none
  simp only [Option.map_none] at h0
  have h1 : (es.map (setElem f)).any is4rm = es.any is4rm := by
    rw [List.any_map]; congr 1; funext e; exact is4rm_set f e
  simp only [foldl_set f writeTypes (writeTypes_set f), foldl_set f writeLayers (writeLayers_set f), h0, h1]
  cases applyTop top (es.any is4rm) n (es.foldl writeTypes (List.replicate n LType.none)) with
  | none => rfl
  | some ts =>
    simp only [Option.bind_some]
    cases applyBottom bottom ts <;> rfl

theorem builtFrom_set (f : K) {d0 : Dims K} {decl : Option (Channel K)} {rs : List (Raw K φ)} {p : Parsed K φ} {g : TGrid K}
    (h : BuiltFrom d0 decl rs p g) : BuiltFrom d0 (decl.map (setFlow f)) rs (setParsed f p) (withFlow g f) := by
  refine ⟨h.rows, h.cols, h.geo, ?_, ?_, ?_⟩
  · intro ch hc
    cases decl with
    | none => cases hc
    | some ch0 => simp only [Option.map_some, Option.some.injEq] at hc; subst hc; exact h.ok ch0 rfl
  · rw [parseStack_set]
    show Option.map _ (parseStack d0 decl (spreaderOf g) rs) = _
    rw [h.parse]; rfl
  · show fillGrid p.dims.nLayers (p.elems.map (setElem f)) g.top g.bottom = _
    rw [fillGrid_set, h.fill]; rfl

theorem fillFloorplans_set (f : K) (n : Nat) (es : List (SElem K φ)) : fillFloorplans n (es.map (setElem f)) = fillFloorplans n es :=
  foldl_set f writeFlp (writeFlp_set f) es _
end parse

theorem withFlow_twice (g : TGrid K) (a b : K) : withFlow (withFlow g a) b = withFlow g b := by
  unfold withFlow; cases g.channel <;> rfl

/-! ### C40 -/

/-- **C40** Converting a flow rate to the internal unit and back returns it. -/
theorem C40_units_round_trip (f : K) : flowToMl (flowToUm3 f) = f ∧ flowToUm3 (flowToMl f) = f := by
  unfold flowToMl flowToUm3
  have h1 : (1000000000000 : K) ≠ 0 := by norm_num
  have h2 : (60 : K) ≠ 0 := by norm_num
  constructor <;> field_simp

theorem grid_run {cfg : Cfg K π} (ops : List (Op K)) {s : Sim K π} (h : Ready s) :
    (run cfg ops s).2.g = match lastFlow ops with
      | some f => withFlow s.g (flowToUm3 f)
      | none => s.g := by
  induction ops generalizing s with
  | nil => rfl
  | cons o os ih =>
    rw [run]
    simp only
    rw [ih (ready_exec h o)]
    cases o with
    | step =>
      have : (exec cfg .step s).2.g = s.g := (step_spec h).2.1
      rw [this]; rfl
    | insert vs =>
      obtain ⟨fs, e1, -⟩ := insert_spec h vs
      have : (exec cfg (.insert vs) s).2.g = s.g := by simp only [exec, e1]
      rw [this]; rfl
    | reset => rfl
    | flow f =>
      have : (exec cfg (.flow f) s).2.g = withFlow s.g (flowToUm3 f) := by
        simp only [exec, updateFlow]; split <;> rfl
      rw [this]
      simp only [lastFlow]
      cases lastFlow os with
      | none => rfl
      | some f' => simp only [Option.getD_some, withFlow_twice]

/-- **C40** Whatever calls were made, with `f` the last flow rate requested: the system matrix, the thermal grid and the stored
capacities and sink coefficients are those of the simulation built from the same stack file in which the channel is declared with
that flow rate. -/
theorem C40_matrix_as_rebuilt {cfg : Cfg K π} {rs : List (Raw K (List (FlpEl K)))} {s0 : Sim K π} (h : Started cfg rs s0)
    (ops : List (Op K)) {f : K} (hf : lastFlow ops = some f)
    (hfac : cfg.factor (fillMatrix (withFlow s0.g (flowToUm3 f)) cfg.an.ana cfg.d) = true) :
    ∃ d0 decl p q b, BuiltFrom d0 decl rs p s0.g ∧ cfg.d = p.dims ∧
      BuiltFrom d0 (decl.map (setFlow (flowToUm3 f))) rs (setParsed (flowToUm3 f) p) b.g ∧
      build cfg b.g (fillFloorplans p.dims.nLayers (setParsed (flowToUm3 f) p).elems) q = some b ∧ Started cfg rs b ∧
      (run cfg ops s0).2.g = b.g ∧ (run cfg ops s0).2.mat = b.mat ∧ (run cfg ops s0).2.caps = b.caps ∧
      (run cfg ops s0).2.topTcs = b.topTcs ∧ (run cfg ops s0).2.botTcs = b.botTcs := by
  have hg := grid_run (cfg := cfg) ops (started_spec h).1
  rw [hf] at hg
  simp only at hg
  have hgood := good_run ops (started_good h)
  obtain ⟨d0, decl, p, q, hb, hd, hs⟩ := h
  have hb' := builtFrom_set (flowToUm3 f) hb
  obtain ⟨b, hbb⟩ : ∃ b, build cfg (withFlow s0.g (flowToUm3 f)) (fillFloorplans p.dims.nLayers (setParsed (flowToUm3 f) p).elems) q = some b := by
    unfold build; rw [if_pos (hfac)]; exact ⟨_, rfl⟩
  have hbb' := hbb
  unfold build at hbb'
  rw [if_pos (hfac), Option.some.injEq] at hbb'
  have e1 : b.g = withFlow s0.g (flowToUm3 f) := by rw [← hbb']
  rw [← e1] at hb' hbb hg
  refine ⟨d0, decl, p, q, b, hb, hd, hb', hbb, ⟨d0, _, _, q, hb', hd, hbb⟩, hg, ?_, ?_, ?_, ?_⟩
  · rw [hgood.mat, hg, e1, ← hbb']
  · rw [hgood.caps, hg, e1, ← hbb']
  · rw [hgood.top, hg, e1, ← hbb']
  · rw [hgood.bot, hg, e1, ← hbb']

/-- **C40** Temperatures, time, floorplans with their pending powers and the state of a pluggable sink are untouched, also if the new
matrix cannot be factorized; the failure is reported. -/
theorem C40_rest_untouched (cfg : Cfg K π) (s : Sim K π) (f : K) :
    (updateFlow cfg s f).1.temps = s.temps ∧ (updateFlow cfg s f).1.time = s.time ∧ (updateFlow cfg s f).1.flps = s.flps ∧
      elements (updateFlow cfg s f).1 = elements s ∧ (updateFlow cfg s f).1.plug = s.plug ∧
      (updateFlow cfg s f).2 = cfg.factor (fillMatrix (withFlow s.g (flowToUm3 f)) cfg.an.ana cfg.d) := by
  unfold updateFlow elements
  simp only
  split
  · next h => exact ⟨rfl, rfl, rfl, rfl, rfl, h.symm⟩
  · next h => exact ⟨rfl, rfl, rfl, rfl, rfl, by simpa using h⟩

theorem types_none {g : TGrid K} {d : Dims K} (wf : WF g d) {l : Nat} (hl : l < d.nLayers) : typeAt g l ≠ .none := by
  intro h
  by_cases h0 : l + 1 < d.nLayers
  · have := wf.chain l h0
    rw [h] at this
    revert this; cases typeAt g (l + 1) <;> simp [adj, solidish]
  · have := wf.last
    rw [show d.nLayers - 1 = l by omega, h] at this
    simp [solidish] at this

/-- **C40** The source of each cell after a successful change: the coolant cells of the first row get the term of the new flow rate, all
the others keep what they had. -/
theorem C40_sources_after_change {cfg : Cfg K π} {s : Sim K π} (h : Reachable cfg s) {f : K} (hok : (updateFlow cfg s f).2 = true) {l r c : Nat}
    (hl : l < cfg.d.nLayers) (hr : r < cfg.d.nRows) (hc : c < cfg.d.nCols) :
    (r = 0 ∧ IsCoolant s.g l c → sourceAt cfg.d (updateFlow cfg s f).1 l r c = inletTerm (withFlow s.g (flowToUm3 f)) cfg.d l r c) ∧
    (¬ (r = 0 ∧ IsCoolant s.g l c) → sourceAt cfg.d (updateFlow cfg s f).1 l r c = sourceAt cfg.d s l r c) := by
  have hg := reachable_good h
  have hfac : cfg.factor (fillMatrix (withFlow s.g (flowToUm3 f)) cfg.an.ana cfg.d) = true := by
    rw [← (C40_rest_untouched cfg s f).2.2.2.2.2]; exact hok
  have hsrc : (updateFlow cfg s f).1.sources = channelFrom (withFlow s.g (flowToUm3 f)) cfg.d cfg.d.nLayers 0 0 s.sources := by
    unfold updateFlow; simp only [hfac, if_true]
    rw [show (withFlow s.g (flowToUm3 f)).nLayers = cfg.d.nLayers from hg.wf.nl]
  have hwf := withFlow_wf (flowToUm3 f) hg.wf
  obtain ⟨o1, o2, -, o4⟩ := wf_off hg.wf hl hr hc
  have hkey := (channelFrom_getD (withFlow s.g (flowToUm3 f)) cfg.d (wf_colArea hg.wf) cfg.d.nLayers 0 0 s.sources
    (fun i hi => by rw [Nat.zero_add]; exact types_none hwf hi)
    (by rw [Nat.zero_add, hg.len, wf_area hg.wf]; exact (wf_chip hg.wf).1)).1 l (r * cfg.d.nCols + c) hl o2
  rw [Nat.zero_add, Nat.zero_add, ← o1] at hkey
  unfold sourceAt
  rw [hsrc, hkey, wf_lastCol hg.wf]
  have hci : IsCoolant (withFlow s.g (flowToUm3 f)) l c ↔ IsCoolant s.g l c := by
    have hm : chModel (withFlow s.g (flowToUm3 f)) = chModel s.g := by unfold chModel withFlow; cases s.g.channel <;> rfl
    rw [coolant_iff hwf hl, coolant_iff hg.wf hl]
    unfold chanCol; rw [hm]; rfl
  have hcc := coolant_iff hwf hl (c := c)
  by_cases h0 : r = 0
  · subst h0
    rw [Nat.zero_mul, Nat.zero_add]
    refine ⟨fun h1 => ?_, fun h1 => ?_⟩
    · have h2 := hci.mpr h1.2
      rw [if_pos ⟨(hcc.mp h2).1, hc, (hcc.mp h2).2⟩]
      unfold inletTerm; rw [if_pos ⟨rfl, h2⟩]
    · rw [if_neg (fun h2 => h1 ⟨rfl, hci.mp (hcc.mpr ⟨h2.1, h2.2.2⟩)⟩)]
  · refine ⟨fun h1 => absurd h1.1 h0, fun _ => ?_⟩
    have : cfg.d.nCols ≤ r * cfg.d.nCols := Nat.le_mul_of_pos_left _ (by omega)
    rw [if_neg (by omega)]

/-- **C40** During a slot, with the elements read from rectangles: after any of the steps of the slot followed by a change of the flow
rate, the sources are those the whole slot would have had with the new flow rate. -/
theorem C40_sources_as_rebuilt {cfg : Cfg K π} {s : Sim K π} (h : Reachable cfg s) (hb : cfg.an.slotLength ∣ s.time)
    {raws : Nat → List (RawEl K)} (hf : ReadFrom cfg.d raws s) (k : Nat) (hk1 : 1 ≤ k) (hk : k ≤ cfg.an.slotLength)
    (hW : s.time + k < 2 ^ 32) (hok : ∀ r ∈ (steps cfg k s).1, Succeeded r) {f : K} (hu : (updateFlow cfg (steps cfg k s).2 f).2 = true)
    {l r c : Nat} (hl : l < cfg.d.nLayers) (hr : r < cfg.d.nRows) (hc : c < cfg.d.nCols) :
    sourceAt cfg.d (updateFlow cfg (steps cfg k s).2 f).1 l r c =
      powerIn cfg.d (raws l) (floorplan s l) r c + sinkTerm (withFlow s.g (flowToUm3 f)) cfg.d l r c +
        inletTerm (withFlow s.g (flowToUm3 f)) cfg.d l r c := by
  have hrk : Reachable cfg (steps cfg k s).2 := by
    obtain ⟨rs, s0, ops, h1, h2⟩ := h
    exact ⟨rs, s0, ops ++ List.replicate k .step, h1, by rw [run_append, h2]; rfl⟩
  have hgk : (steps cfg k s).2.g = s.g := by
    have : lastFlow (List.replicate k (Op.step : Op K)) = none := by
      clear hk1 hk hW hok hu hrk
      induction k with
      | zero => rfl
      | succ k ih => exact ih
    have h2 := grid_run (cfg := cfg) (List.replicate k .step) (reachable_ready h)
    rw [this] at h2; exact h2
  obtain ⟨a, b⟩ := C40_sources_after_change hrk hu hl hr hc
  rw [hgk] at a b
  have h42 := C42_sources_of_the_slot h hb hf k hk1 hk hW hok hl hr hc
  have wf := (reachable_good h).wf
  have hci : IsCoolant (withFlow s.g (flowToUm3 f)) l c ↔ IsCoolant s.g l c := by
    have hm : chModel (withFlow s.g (flowToUm3 f)) = chModel s.g := by unfold chModel withFlow; cases s.g.channel <;> rfl
    rw [coolant_iff (withFlow_wf _ wf) hl, coolant_iff wf hl]
    unfold chanCol; rw [hm]; rfl
  have hsink : sinkTerm (withFlow s.g (flowToUm3 f)) cfg.d l r c = sinkTerm s.g cfg.d l r c := by
    unfold sinkTerm
    rw [gTop_withFlow, gBottom_withFlow]; rfl
  rw [hsink]
  by_cases hin : r = 0 ∧ IsCoolant s.g l c
  · rw [a hin]
    have hch := ((coolant_iff wf hl).mp hin.2).1
    have h1 : powerIn cfg.d (raws l) (floorplan s l) r c = 0 := by
      have hfl : floorplan s l = [] := by
        have hlen : s.flps.length = cfg.d.nLayers := (reachable_ready h).len.trans wf.nl
        have hget : s.flps[l]? = some (s.flps.getD l none) := by
          rw [List.getElem?_eq_getElem (by omega), List.getD_eq_getElem?_getD, List.getElem?_eq_getElem (by omega)]; rfl
        have h2 := ((reachable_ready h).ok l _ hget).2
        rw [Nat.zero_add] at h2
        have hns : isSrc (typeAt s.g l) = false := by revert hch; cases typeAt s.g l <;> first | (intro _; rfl) | (intro h; cases h)
        rw [hns] at h2
        have : s.flps.getD l none = none := by
          cases ho : s.flps.getD l none with
          | none => rfl
          | some x => rw [ho] at h2; simp at h2
        unfold floorplan; rw [this]; rfl
      rw [hfl]; simp [powerIn]
    have h2 : sinkTerm s.g cfg.d l r c = 0 := by
      unfold sinkTerm; revert hch; cases typeAt s.g l <;> first | (intro _; rfl) | (intro h; cases h)
    rw [h1, h2]; ring
  · rw [b hin, h42]
    have e : ∀ g : TGrid K, (IsCoolant g l c ↔ IsCoolant s.g l c) → inletTerm g cfg.d l r c = 0 := by
      intro g hg; unfold inletTerm; rw [if_neg]; rw [hg]; exact hin
    rw [e s.g Iff.rfl, e _ hci]

/-- Non-vacuity: the example chip after two changes of the flow rate with a step and a reset in between. -/
example (e1 e2 : FlpEl ℚ) := C40_matrix_as_rebuilt (chip_started .transient 2 [] [e1, e2]) [.flow 3, .step, .reset, .flow 5, .step] (f := 5) rfl rfl

/-- The matrix does change: the entry of the coolant between the two rows. -/
example : ∃ f : ℚ, convective (withFlow chipG (flowToUm3 f)) chipD 2 1 ≠ convective chipG chipD 2 1 :=
  ⟨0, by norm_num [convective, withFlow, chipG, flowToUm3, exChannel, exCoolant]⟩

/-- Non-vacuity of `C40_sources_as_rebuilt`: one step of a slot of two, then another flow rate. -/
example : ∃ e1 e2 : FlpEl ℚ, e1.powers = [1, 2] ∧ e2.powers = [4, 5] ∧
    sourceAt chipD (updateFlow (chipCfg .transient 2) (steps (chipCfg .transient 2) 1 (chipSim .transient 2 [] [e1, e2])).2 7).1 2 0 1 =
      inletTerm (withFlow chipG (flowToUm3 7)) chipD 2 0 1 := by
  obtain ⟨e1, e2, h, p1, p2, -⟩ := chip_parse [1, 2] [4, 5]
  refine ⟨e1, e2, p1, p2, ?_⟩
  have hr := chip_reachable .transient 2 [] [e1, e2]
  have hok := chip_slot (reachable_good hr) rfl (Nat.dvd_zero 2) (by simp [chipSim]) (by
    rw [chip_elements]; intro e he; simp at he; rcases he with rfl | rfl
    · rw [p1]; simp
    · rw [p2]; simp)
  have hu : (updateFlow (chipCfg .transient 2) (steps (chipCfg .transient 2) 1 (chipSim .transient 2 [] [e1, e2])).2 7).2 = true := by
    rw [(C40_rest_untouched _ _ _).2.2.2.2.2]; rfl
  have := C40_sources_as_rebuilt hr (Nat.dvd_zero 2) (chip_readFrom h 2) 1 le_rfl (by decide : 1 ≤ 2) (by simp [chipSim])
    (by intro r hr; apply hok; rw [run_snoc_step _ 1]; simp [hr]) (f := 7) hu (by decide : 2 < chipD.nLayers)
    (by decide : 0 < chipD.nRows) (by decide : 1 < chipD.nCols)
  refine this.trans ?_
  have h1 : powerIn chipD (chipRaws 2) (floorplan (chipSim .transient 2 [] [e1, e2]) 2) 0 1 = 0 := by simp [powerIn, chipRaws]
  have h2 : sinkTerm (withFlow chipG (flowToUm3 7)) chipD 2 0 1 = 0 := rfl
  show powerIn chipD (chipRaws 2) (floorplan (chipSim .transient 2 [] [e1, e2]) 2) 0 1 + sinkTerm (withFlow chipG (flowToUm3 7)) chipD 2 0 1 +
    inletTerm (withFlow chipG (flowToUm3 7)) chipD 2 0 1 = _
  rw [h1, h2]; ring

end Verif.Emu
