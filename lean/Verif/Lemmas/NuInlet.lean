import Verif.Props.NonUniformCoolant
import Verif.Props.NonUniformSink

set_option linter.unusedSectionVars false
set_option linter.unusedSimpArgs false
set_option linter.unusedVariables false

/-! Sources of a non-uniform grid with channels. -/

namespace Verif.NU
open Verif.Dim Verif.TG Verif.Stk Verif.SM

variable {K : Type} [Field K] [LinearOrder K] [IsStrictOrderedRing K]
variable {d0 : Dims K} {decl : Option (Channel K)} {rs : List (Raw K (List (FEl K)))} {ns : List (NElem K)} {G : Grid K}

/-- Floorplans are on the source layers. -/
theorem flp_iff (hf : FromStack d0 decl rs ns G) (l : Nat) :
    (∃ es, G.flps[l]? = some (some es)) ↔ (stackTypes decl rs)[l]? = some .source := by
  obtain ⟨p, hb, he, hd, -⟩ := hf.spec
  have h17 := C17_floorplans_only_in_source_layers hb.ok hb.parse l
  rw [← h17]
  obtain ⟨es, m, hfa, -, -, -, -, -, hel, hdim, -⟩ := parseStack_spec hb.parse
  have ho : ∀ e ∈ es.reverse, ElemOk e := by
    intro e hx
    obtain ⟨r, _, hr⟩ := mem_forall₂_right hfa (List.mem_reverse.mp hx)
    exact (resolve_block hb.ok hr).1
  have h1 : fillFloorplans p.dims.nLayers p.elems = es.reverse.flatMap fun e => blockFlp e.body := by
    rw [hel, hdim]; exact foldl_flp _ ho
  have h2 : (es.reverse.flatMap fun e => blockFlp e.body) = ns.flatMap fun n => blockFlp n.elem.body := by
    have : ∀ (k : Nat) (xs : List (SElem K (List (FEl K)))), ((assignOffsets k xs).flatMap fun e => blockFlp e.body) = xs.flatMap fun e => blockFlp e.body := by
      intro k xs
      induction xs generalizing k with
      | nil => rfl
      | cons x xs ih => rw [assignOffsets, List.flatMap_cons, List.flatMap_cons, ih]
    rw [← this 0, ← hel, ← he, List.flatMap_map]
  have h3 : (G.flps.map Option.isSome) = (fillFloorplans p.dims.nLayers p.elems).map Option.isSome := by
    rw [h1, h2, hf.flpsSome, List.map_flatMap, List.map_flatMap, List.flatMap_map]
    congr 1; funext n; exact isSome_fix n
  have key : ∀ (xs : List (Option (List (FEl K)))), (∃ f, xs[l]? = some (some f)) ↔ (xs.map Option.isSome)[l]? = some true := by
    intro xs
    rw [List.getElem?_map]
    cases h : xs[l]? with
    | none => simp
    | some o => cases o <;> simp
  rw [key, key, h3]

theorem inlets_length (G : Grid K) (l : Nat) : (inlets G.g G.d l).length ≤ G.d.nCols := by
  unfold inlets
  cases G.g.channel <;> simp

theorem FromStack.laid (hf : FromStack d0 decl rs ns G) : Laid G := by
  refine ⟨hf.layered, hf.wf, hf.layers, hf.top, hf.two, fun h => hf.flp h, ?_⟩
  intro l hl
  obtain ⟨n, hn, k, hk, rfl⟩ := hf.elemAt hl
  have hok := hf.elemOk hn
  cases hbd : n.elem.body with
  | channel ch =>
    right
    obtain ⟨h1, h2, h3, h4, h5, h6⟩ := hf.channel hn hbd
    have hk' : k < chLayers ch := by unfold nLayersOf at hk; rw [hbd] at hk; exact hk
    have hlen : k < (chTypes ch.model).length := by
      unfold chLayers at hk'
      cases hmm : ch.model <;> simp [hmm, chTypes] at hk' h2 ⊢ <;> omega
    obtain ⟨t, ht⟩ : ∃ t, (chTypes ch.model)[k]? = some t := ⟨_, List.getElem?_eq_getElem hlen⟩
    have hty := (h5 k t ht).1
    have hmem := List.mem_of_getElem? ht
    have hkind : wallType t = true ∨ coolantType t = true := by
      unfold chTypes at hmem
      cases hmm : ch.model <;> rw [hmm] at hmem <;> simp at hmem
      all_goals first
        | (subst hmem; simp [wallType, coolantType])
        | (rcases hmem with rfl | rfl | rfl | rfl <;> simp [wallType, coolantType])
    refine ⟨by omega, by omega, ?_, ?_⟩
    · intro es he
      have hs := (flp_iff hf _).mp ⟨es, he⟩
      have ht' : (blockTypes n.elem.body)[k]? = some t := by
        rw [hbd]; unfold blockTypes
        exact ht
      rw [hf.typesAt hn ht'] at hs
      simp only [Option.some.injEq] at hs
      subst hs
      simp [wallType, coolantType] at hkind
    · rw [hty]
      rcases hkind with h | h
      · exact Or.inl h
      · refine Or.inr ⟨h, fun lc hlc => le_trans (inlets_length G _) ?_⟩
        rw [(h6 k hk').1] at hlc
        rw [← Option.some.inj hlc, channelLayer_length]
        exact Nat.le_mul_of_pos_right _ hf.wf.acc.rows
  | die b =>
    left
    have hlen : k < (blockTypes n.elem.body).length := by
      unfold nLayersOf at hk
      rw [hbd] at hk ⊢; simp [blockTypes] at hk ⊢; omega
    have hget := List.getElem?_eq_getElem hlen
    have hkind : (blockTypes n.elem.body)[k] = .solid ∨ (blockTypes n.elem.body)[k] = .source := by
      have := List.getElem_mem hlen
      generalize (blockTypes n.elem.body)[k] = t at this
      rw [hbd] at this
      simp only [blockTypes] at this
      rcases List.mem_or_eq_of_mem_set this with h | h
      · exact Or.inl (List.mem_replicate.mp h).2
      · exact Or.inr h
    have htys := hf.typesAt hn hget
    obtain ⟨p, hb, he, hd, -⟩ := hf.spec
    obtain ⟨-, -, -, -, -, hty⟩ := C18_sinks_change_only_outermost_layers hb.ok hb.parse hb.fill
    refine ⟨_, hkind, ?_, ?_⟩
    · rw [flp_iff hf, htys, Option.some.injEq]
    · have e := typeAt_of_get (hty _ _ htys)
      rw [e, hd]
  | layer ly =>
    left
    have hlen : k < (blockTypes n.elem.body).length := by
      unfold nLayersOf at hk
      rw [hbd] at hk ⊢; simp [blockTypes] at hk ⊢; omega
    have hget := List.getElem?_eq_getElem hlen
    have hkind : (blockTypes n.elem.body)[k] = .solid ∨ (blockTypes n.elem.body)[k] = .source := by
      have := List.getElem_mem hlen
      generalize (blockTypes n.elem.body)[k] = t at this
      rw [hbd] at this
      simp only [blockTypes, List.mem_singleton] at this
      exact Or.inl this
    have htys := hf.typesAt hn hget
    obtain ⟨p, hb, he, hd, -⟩ := hf.spec
    obtain ⟨-, -, -, -, -, hty⟩ := C18_sinks_change_only_outermost_layers hb.ok hb.parse hb.fill
    refine ⟨_, hkind, ?_, ?_⟩
    · rw [flp_iff hf, htys, Option.some.injEq]
    · have e := typeAt_of_get (hty _ _ htys)
      rw [e, hd]

/-! ### Sums over layers, elements and cells -/

theorem sum_assigned (f : Nat → K) : ∀ (ns : List (NElem K)) (es : List (SElem K (List (FEl K)))) (k : Nat),
    ns.map (·.elem) = assignOffsets k es →
    ∑ l ∈ Finset.range ((ns.map fun n => nLayersOf n.elem).sum), f (k + l) =
      (ns.map fun n => ∑ j ∈ Finset.range (nLayersOf n.elem), f (n.elem.offset + j)).sum := by
  intro ns
  induction ns with
  | nil => intro es k _; simp
  | cons n ns ih =>
    intro es k h
    cases es with
    | nil => simp [assignOffsets] at h
    | cons e es =>
      simp only [List.map_cons, assignOffsets, List.cons.injEq] at h
      obtain ⟨h1, h2⟩ := h
      have ho : n.elem.offset = k := by rw [h1]
      have hnl : nLayersOf n.elem = nLayersOf e := by rw [h1]; rfl
      rw [List.map_cons, List.map_cons, List.sum_cons, List.sum_cons, Finset.sum_range_add, ← ih es (k + nLayersOf e) h2, ho]
      congr 1
      refine Finset.sum_congr rfl fun l _ => ?_
      rw [hnl, Nat.add_assoc]

/-- Layer after layer is element after element. -/
theorem FromStack.sum_layers (hf : FromStack d0 decl rs ns G) (f : Nat → K) :
    ∑ l ∈ Finset.range G.d.nLayers, f l = (ns.map fun n => ∑ j ∈ Finset.range (nLayersOf n.elem), f (n.elem.offset + j)).sum := by
  obtain ⟨p, hb, he, hd, -⟩ := hf.spec
  obtain ⟨es, m, hfa, -, -, -, -, -, hel, hdim, -⟩ := parseStack_spec hb.parse
  have h := sum_assigned f ns es.reverse 0 (he.trans hel)
  simp only [Nat.zero_add] at h
  rw [← h]
  congr 2
  rw [hd, hdim]
  show total es.reverse = _
  rw [total_eq, ← nLayersOf_assign es.reverse 0, ← hel, ← he, List.map_map]
  rfl

/-- Cells layer by layer. -/
theorem sum_by_layer (ls : List (List (Cell K))) (F : Nat → K) : ∀ n, n ≤ ls.length →
    ∑ i ∈ Finset.range (start ls n), F i = ∑ l ∈ Finset.range n, ∑ s ∈ Finset.range ((ls[l]?).getD []).length, F (start ls l + s)
  | 0, _ => by simp [start]
  | n + 1, h => by
    rw [start_succ, Finset.sum_range_add, Finset.sum_range_succ, sum_by_layer ls F n (by omega)]
    congr 2
    cases ls[n]? <;> rfl

theorem start_all (ls : List (List (Cell K))) : start ls ls.length = ls.flatten.length := by
  unfold start; rw [List.take_length, List.length_flatten]

/-- Rows and columns. -/
theorem sum_rows (nC : Nat) (F : Nat → K) : ∀ nR, ∑ s ∈ Finset.range (nC * nR), F s = ∑ r ∈ Finset.range nR, ∑ c ∈ Finset.range nC, F (r * nC + c)
  | 0 => by simp
  | nR + 1 => by
    rw [Nat.mul_succ, Finset.sum_range_add, Finset.sum_range_succ, sum_rows nC F nR]
    congr 1
    refine Finset.sum_congr rfl fun c _ => ?_
    rw [Nat.mul_comm]

/-! ### Inlets -/

instance (G : Grid K) (ch : Channel K) (c : Nat) : Decidable (WetCol G ch c) := by unfold WetCol; infer_instance

/-- An odd number of columns in the 4RM model: bison/stack_description_parser.y:1120-1135. -/
def OddColumns (G : Grid K) : Prop := ∀ ch, G.g.channel = some ch → ch.model = .mc4rm → G.d.nCols % 2 = 1

theorem inlets_get (hf : FromStack d0 decl rs ns G) (hodd : OddColumns G) {n : NElem K} (hn : n ∈ ns) {ch : Channel K} (hb : n.elem.body = .channel ch) :
    inlets G.g G.d (n.elem.offset + coolantPos ch) =
      (List.range G.d.nCols).map fun c => if WetCol G ch c then some (stream ch G.d c * ch.coolant.tIn) else none := by
  obtain ⟨h1, h2, -⟩ := hf.channel hn hb
  obtain ⟨-, hh, -⟩ := coolant_type hf hn hb
  unfold inlets
  rw [h1]
  refine List.map_congr_left fun c hc => ?_
  have hc := List.mem_range.mp hc
  rw [conv_stream h1 hh]
  have e : (2 * (stream ch G.d c / 2) * ch.coolant.tIn : K) = stream ch G.d c * ch.coolant.tIn := by ring
  rw [e]
  have hw : ((if ch.model = .mc4rm then isChannelCol c else true) = true) ↔ WetCol G ch c := by
    unfold WetCol isChannelCol
    by_cases h4 : ch.model = .mc4rm
    · have := hodd ch h1 h4
      simp [h4]; omega
    · simp [h4]
  simp only [hw]

theorem coolant_is {ch : Channel K} (hf : FromStack d0 decl rs ns G) {n : NElem K} (hn : n ∈ ns) (hb : n.elem.body = .channel ch) {k : Nat}
    (hk : k < chLayers ch) : coolantType (typeAt G.g (n.elem.offset + k)) = decide (k = coolantPos ch) := by
  obtain ⟨h1, h2, -, h4, h5, -⟩ := hf.channel hn hb
  have key : ∀ t, (chTypes ch.model)[k]? = some t → typeAt G.g (n.elem.offset + k) = t := fun t ht => (h5 k t ht).1
  revert key
  generalize typeAt G.g (n.elem.offset + k) = ty
  intro key
  unfold chLayers at hk
  unfold coolantPos
  cases hmm : ch.model <;> simp only [hmm] at hk h2 key
  · exact absurd rfl h2
  · have hk0 : k = 0 := by simpa using hk
    subst hk0
    obtain rfl := key .ch4rm rfl
    simp [coolantType]
  all_goals
    have hk' : k = 0 ∨ k = 1 ∨ k = 2 ∨ k = 3 := by simp at hk; omega
    rcases hk' with rfl | rfl | rfl | rfl
    all_goals (obtain rfl := key _ rfl; simp [coolantType])

theorem solid_dry {t : LType} (h : solidish t = true) : coolantType t = false := by
  revert h; cases t <;> simp [solidish, coolantType]

end Verif.NU
