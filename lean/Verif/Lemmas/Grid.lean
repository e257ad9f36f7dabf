import Verif.Props.Stack

set_option linter.unusedSectionVars false
set_option linter.unusedSimpArgs false

/-! What every accepted stack guarantees about its thermal grid. -/

namespace Verif.SM
open Verif.Dim Verif.TG Verif.Stk

variable {K : Type} [Field K] [LinearOrder K]

/-- Layers made of solid material. -/
def solidish : LType → Bool
  | .solid | .source | .solidAmb | .sourceAmb | .solidSpr | .sourceSpr | .solidPcb | .sourcePcb => true
  | _ => false

/-- Which layer type may follow (above) which one. -/
def adj : LType → LType → Bool
  | .bottomWall, .vwallCh | .bottomWall, .vwallPf | .vwallCh, .ch2rm | .vwallPf, .pfInline | .vwallPf, .pfStag => true
  | .ch2rm, .topWall | .pfInline, .topWall | .pfStag, .topWall => true
  | .topWall, u => solidish u || u == .bottomWall
  | .ch4rm, u => solidish u || u == .ch4rm
  | t, u => solidish t && (solidish u || u == .ch4rm || u == .bottomWall)

/-- Channel model that goes with a layer type. -/
def modelOk (m : ChModel) : LType → Prop
  | .ch4rm => m = .mc4rm
  | .vwallCh | .ch2rm => m = .mc2rm
  | .pfInline => m = .pfInline
  | .pfStag => m = .pfStag
  | .vwallPf => m = .pfInline ∨ m = .pfStag
  | .topWall | .bottomWall => m ≠ .mc4rm ∧ m ≠ .none
  | _ => True

/-- Shape of the thermal grid of an accepted stack. -/
structure WF (g : TGrid K) (d : Dims K) : Prop where
  acc : Accepted d (spreaderOf g)
  nl : g.nLayers = d.nLayers
  L1 : 1 ≤ d.nLayers
  hlen : d.heights.length = d.nLayers
  llen : g.layers.length = d.nLayers
  chain : ∀ l, l + 1 < d.nLayers → adj (typeAt g l) (typeAt g (l + 1)) = true
  first : solidish (typeAt g 0) = true
  last : solidish (typeAt g (d.nLayers - 1)) = true
  amb : ∀ l, l < d.nLayers → (typeAt g l = .solidAmb ∨ typeAt g l = .sourceAmb) →
    l = d.nLayers - 1 ∧ ∃ s, g.top = some (.ambient s)
  spr : ∀ l, l < d.nLayers → (isSpr (typeAt g l) = true ↔ l = d.nLayers - 1 ∧ ∃ s m, g.top = some (.pluggable s m))
  pcb : ∀ l, l < d.nLayers → (typeAt g l = .solidPcb ∨ typeAt g l = .sourcePcb) → l = 0 ∧ ∃ b, g.bottom = some b
  mdl : ∀ l, l < d.nLayers → modelOk (chModel g) (typeAt g l)
  lay : ∀ l, l < d.nLayers → (typeAt g l = .vwallCh ∨ typeAt g l = .vwallPf) → (layerAt g l).layout = []
  geo : ∀ s, spreaderOf g = some s → s.nRows = s.rowsBorder + d.nRows + s.rowsBorder ∧
    s.nCols = s.colsBorder + d.nCols + s.colsBorder

/-- The thermal grid `g` and the dimensions `d` come from a stack file accepted by the parser and by `thermal_grid_fill`:
`d0` are the dimensions of chip and cells, `rs` the stack section, `decl` the declared channel. The spreader of a pluggable
top sink was sized by `initialize_heat_spreader` (C39) without overflow. -/
structure Built (φ : Type) (g : TGrid K) (d : Dims K) : Prop where
  rows : 1 ≤ d.nRows
  cols : 1 ≤ d.nCols
  geo : ∀ s, spreaderOf g = some s → s.nRows = s.rowsBorder + d.nRows + s.rowsBorder ∧
    s.nCols = s.colsBorder + d.nCols + s.colsBorder
  parsed : ∃ (d0 : Dims K) (decl : Option (Channel K)) (rs : List (Raw K φ)) (p : Parsed K φ),
    DeclOk decl ∧ parseStack d0 decl (spreaderOf g) rs = some p ∧ p.dims = d ∧
      fillGrid p.dims.nLayers p.elems g.top g.bottom = some g

theorem isChain_flatMap_of {α β : Type} {R : β → β → Prop} (L : List α) (f : α → List β)
    (h1 : ∀ a ∈ L, (f a).IsChain R) (hne : ∀ a ∈ L, f a ≠ [])
    (h2 : ∀ a ∈ L, ∀ b ∈ L, ∀ x ∈ (f a).getLast?, ∀ y ∈ (f b).head?, R x y) : (L.flatMap f).IsChain R := by
  induction L with
  | nil => simp
  | cons a L ih =>
    rw [List.flatMap_cons, List.isChain_append]
    refine ⟨h1 a (by simp), ih (fun b hb => h1 b (by simp [hb])) (fun b hb => hne b (by simp [hb]))
      (fun b hb c hc => h2 b (by simp [hb]) c (by simp [hc])), ?_⟩
    intro x hx y hy
    cases L with
    | nil => simp at hy
    | cons b L =>
      have hb := hne b (by simp)
      rw [List.flatMap_cons, List.head?_append_of_ne_nil _ hb] at hy
      exact h2 a (by simp) b (by simp) x hx y hy

theorem adj_solidish {a b : LType} (ha : solidish a = true) (hb : solidish b = true) : adj a b = true := by
  cases a <;> cases b <;> simp_all [solidish, adj]

/-- `adj` does not distinguish the kinds of solid layers. -/
theorem adj_congr {a b a' b' : LType} (h : adj a b = true) (ha : a' = a ∨ (solidish a = true ∧ solidish a' = true))
    (hb : b' = b ∨ (solidish b = true ∧ solidish b' = true)) : adj a' b' = true := by
  rcases ha with rfl | ⟨ha, ha'⟩
  · rcases hb with rfl | ⟨hb, hb'⟩
    · exact h
    · cases a' <;> cases b <;> simp [solidish, adj] at * <;> cases b' <;> simp_all [solidish]
  · rcases hb with rfl | ⟨hb, hb'⟩
    · cases a <;> cases b' <;> simp [solidish, adj] at * <;> cases a' <;> simp_all [solidish, adj]
    · exact adj_solidish ha' hb'

/-- Types before the sinks are attached form a chain. -/
theorem stackTypes_chain {φ : Type} (decl : Option (Channel K)) (rs : List (Raw K φ)) (hne : ∀ r ∈ rs, specTypes decl r ≠ []) :
    (stackTypes decl rs).IsChain (fun a b => adj a b = true) := by
  have hrep : ∀ n, (List.replicate n LType.solid).IsChain (fun a b => adj a b = true) := by
    intro n
    induction n with
    | zero => simp
    | succ n ih =>
      cases n with
      | zero => simp
      | succ n =>
        rw [List.replicate_succ, List.replicate_succ, List.isChain_cons_cons]
        exact ⟨rfl, by rw [← List.replicate_succ]; exact ih⟩
  refine isChain_flatMap_of _ _ ?_ (fun r hr => hne r (by simpa using hr)) ?_
  · intro r _
    unfold specTypes
    cases r.body with
    | die dd =>
      simp only [List.map_const']
      rw [List.isChain_append, List.isChain_append]
      refine ⟨⟨hrep _, by simp, ?_⟩, hrep _, ?_⟩
      · intro x hx y hy
        have : x = .solid := List.eq_of_mem_replicate (List.mem_of_getLast? hx)
        simp at hy; subst hy; subst this; rfl
      · intro x hx y hy
        have : y = .solid := List.eq_of_mem_replicate (List.mem_of_head? hy)
        simp at hx; subst hx; subst this; rfl
    | layer ly => simp
    | channel =>
      cases decl.map (fun ch => ch.model) with
      | none => simp
      | some m => cases m <;> simp [adj]
  · intro r1 h1 r2 h2 x hx y hy
    have hs : ∀ r : Raw K φ, r.body.isChannel = false → ∀ x ∈ specTypes decl r, solidish x = true := by
      intro r hr x hx
      unfold specTypes at hx
      cases hb : r.body with
      | die dd =>
        rw [hb] at hx
        simp only [List.append_assoc, List.mem_append, List.mem_map, List.mem_singleton] at hx
        rcases hx with ⟨_, _, rfl⟩ | rfl | ⟨_, _, rfl⟩ <;> rfl
      | layer ly => rw [hb] at hx; simp at hx; subst hx; rfl
      | channel => rw [hb] at hr; simp [RawBody.isChannel] at hr
    have hc : ∀ r : Raw K φ, r.body.isChannel = true → specTypes decl r =
        (match decl.map (fun ch => ch.model) with
          | some ChModel.mc4rm => [.ch4rm]
          | some ChModel.mc2rm => [.bottomWall, .vwallCh, .ch2rm, .topWall]
          | some ChModel.pfInline => [.bottomWall, .vwallPf, .pfInline, .topWall]
          | some ChModel.pfStag => [.bottomWall, .vwallPf, .pfStag, .topWall]
          | _ => []) := by
      intro r hr
      unfold specTypes
      cases hb : r.body with
      | die dd => rw [hb] at hr; simp [RawBody.isChannel] at hr
      | layer ly => rw [hb] at hr; simp [RawBody.isChannel] at hr
      | channel => rfl
    cases c1 : r1.body.isChannel with
    | false =>
      have hx := hs r1 c1 x (List.mem_of_getLast? hx)
      cases c2 : r2.body.isChannel with
      | false => exact adj_solidish hx (hs r2 c2 y (List.mem_of_head? hy))
      | true =>
        rw [hc r2 c2] at hy
        cases hm : decl.map (fun ch => ch.model) with
        | none => rw [hm] at hy; simp at hy
        | some m =>
          rw [hm] at hy
          cases m <;> simp at hy <;> subst hy <;> cases x <;> simp_all [solidish, adj]
    | true =>
      rw [hc r1 c1] at hx
      cases c2 : r2.body.isChannel with
      | false =>
        have hy := hs r2 c2 y (List.mem_of_head? hy)
        cases hm : decl.map (fun ch => ch.model) with
        | none => rw [hm] at hx; simp at hx
        | some m =>
          rw [hm] at hx
          cases m <;> simp at hx <;> subst hx <;> simp [adj, hy]
      | true =>
        rw [hc r2 c2] at hy
        cases hm : decl.map (fun ch => ch.model) with
        | none => rw [hm] at hx; simp at hx
        | some m =>
          rw [hm] at hx hy
          cases m <;> simp at hx hy <;> subst hx <;> subst hy <;> simp [adj, solidish]

/-- The channel stored in the grid is the declared one as soon as a channel layer exists. -/
theorem foldl_writeChannel {φ : Type} {decl : Option (Channel K)} {rs : List (Raw K φ)} {es : List (SElem K φ)}
    (hf : List.Forall₂ (fun r e => resolve decl r = some e) rs es) (k : Nat) (c : Option (Channel K)) :
    (assignOffsets k es).foldl writeChannel c = if rs.any (fun r => r.body.isChannel) then decl else c := by
  induction hf generalizing k c with
  | nil => simp [assignOffsets]
  | @cons r e rs es h1 h2 ih =>
    simp only [assignOffsets, List.foldl_cons, ih, List.any_cons]
    obtain ⟨rid, rbody⟩ := r
    simp only [resolve] at h1
    cases rbody with
    | die dd =>
      simp at h1; subst h1
      simp [writeChannel, RawBody.isChannel]
    | layer ly =>
      simp at h1; subst h1
      simp [writeChannel, RawBody.isChannel]
    | channel =>
      cases hd : decl with
      | none => rw [hd] at h1; simp at h1
      | some ch =>
        rw [hd] at h1; simp at h1; subst h1
        simp [writeChannel, RawBody.isChannel]

theorem typeAt_of_get {g : TGrid K} {l : Nat} {t : LType} (h : g.types[l]? = some t) : typeAt g l = t := by
  simp [typeAt, List.getD_eq_getElem?_getD, h]

theorem withTop_solidish {top : Option (TopSink K)} {t : LType} (h : t = .solid ∨ t = .source) : solidish (withTop top t) = true := by
  cases top with
  | none => rcases h with rfl | rfl <;> rfl
  | some u => cases u <;> rcases h with rfl | rfl <;> rfl

theorem withBottom_solidish {b : Option (Sink K)} {t : LType} (h : t = .solid ∨ t = .source) : solidish (withBottom b t) = true := by
  cases b <;> rcases h with rfl | rfl <;> rfl

/-- Every accepted stack has a well-formed grid. -/
theorem wf_of_built {φ : Type} {g : TGrid K} {d : Dims K} (hb : Built φ g d) : WF g d := by
  obtain ⟨d0, decl, rs, p, hd, hp, hpd, hg⟩ := hb.parsed
  obtain ⟨hn, -, hh, ⟨g0, hg0, -, -, -⟩, -, hnone⟩ := C16_layers_match_file hd hp
  obtain ⟨htl, -, -, hgn, hpos, hty⟩ := C18_sinks_change_only_outermost_layers hd hp hg
  obtain ⟨⟨t0, h0, h0'⟩, ⟨t1, h1, h1'⟩⟩ := stack_ends hp
  obtain ⟨es, n, hf, -, -, -, -, -, he, hdim, hcount, -⟩ := parseStack_spec hp
  have hr := forall₂_reverse hf
  have hspec : ∀ r ∈ rs, specTypes decl r ≠ [] := by
    intro r hr
    obtain ⟨e, -, hre⟩ := mem_forall₂_right hf.flip hr
    obtain ⟨ho, -, -, -, -, -, h7⟩ := resolve_block hd hre
    intro hx
    rw [hx] at h7
    unfold ElemOk at ho
    unfold nLayersOf at h7
    cases hbd : e.body with
    | die dd => rw [hbd] at ho h7; simp only [List.length_nil] at *; omega
    | layer ly => rw [hbd] at h7; simp at h7
    | channel ch => rw [hbd] at h7; simp only [chLayers] at h7; split at h7 <;> simp at h7
  have hchain := stackTypes_chain decl rs hspec
  subst hpd
  rw [← hn] at h1
  have hT : ∀ l, l < p.dims.nLayers → ∃ t, (stackTypes decl rs)[l]? = some t ∧ t ≠ .none ∧
      typeAt g l = (if l = 0 ∧ g.bottom.isSome then withBottom g.bottom t
        else if l = p.dims.nLayers - 1 then withTop g.top t else t) := by
    intro l hl
    rw [hn] at hl
    refine ⟨_, List.getElem?_eq_getElem hl, ?_, typeAt_of_get (hty l _ (List.getElem?_eq_getElem hl))⟩
    intro hx; exact hnone (hx ▸ List.getElem_mem hl)
  have hty0 : typeAt g 0 = if g.bottom.isSome then withBottom g.bottom t0 else if 0 = p.dims.nLayers - 1 then withTop g.top t0 else t0 := by
    have := typeAt_of_get (hty 0 t0 h0)
    simpa using this
  have hsame : ∀ (l : Nat) (t : LType), (stackTypes decl rs)[l]? = some t → (typeAt g l = t ∨ (solidish t = true ∧ solidish (typeAt g l) = true)) := by
    intro l t ht
    have hl : l < p.dims.nLayers := by rw [hn]; exact (List.getElem?_eq_some_iff.mp ht).1
    obtain ⟨t', ht', -, e⟩ := hT l hl
    rw [ht] at ht'; simp at ht'; subst ht'
    by_cases c0 : l = 0 ∧ g.bottom.isSome
    · rw [if_pos c0] at e
      obtain ⟨rfl, c⟩ := c0
      have : t = t0 := by rw [h0] at ht; simpa using ht.symm
      subst this
      right; rw [e]
      exact ⟨by rcases h0' with rfl | rfl <;> rfl, withBottom_solidish h0'⟩
    · rw [if_neg c0] at e
      by_cases c1 : l = p.dims.nLayers - 1
      · rw [if_pos c1] at e
        subst c1
        have : t = t1 := by rw [h1] at ht; simpa using ht.symm
        subst this
        right; rw [e]
        exact ⟨by rcases h1' with rfl | rfl <;> rfl, withTop_solidish h1'⟩
      · rw [if_neg c1] at e; exact Or.inl e
  -- plain types of the specification
  have hplain : ∀ (l : Nat) (t : LType), (stackTypes decl rs)[l]? = some t → t = .solid ∨ t = .source ∨
      (∃ m, decl.map (fun ch => ch.model) = some m ∧ modelOk m t ∧ solidish t = false ∧ m ≠ .none) := by
    intro l t ht
    have hm := List.mem_of_getElem? ht
    rw [stackTypes, List.mem_flatMap] at hm
    obtain ⟨r, -, hr⟩ := hm
    unfold specTypes at hr
    cases hbd : r.body with
    | die dd =>
      rw [hbd] at hr
      simp only [List.append_assoc, List.mem_append, List.mem_map, List.mem_singleton] at hr
      rcases hr with ⟨_, _, rfl⟩ | rfl | ⟨_, _, rfl⟩ <;> simp
    | layer ly => rw [hbd] at hr; simp at hr; subst hr; simp
    | channel =>
      rw [hbd] at hr
      cases hm : decl.map (fun ch => ch.model) with
      | none => rw [hm] at hr; simp at hr
      | some m =>
        right; right
        refine ⟨m, rfl, ?_⟩
        rw [hm] at hr
        cases m <;> simp at hr
        · subst hr; simp [modelOk, solidish]
        all_goals rcases hr with rfl | rfl | rfl | rfl <;> simp [modelOk, solidish]
  have hno : ∀ (l : Nat) (t : LType), (stackTypes decl rs)[l]? = some t → isSpr t = false ∧ t ≠ .solidAmb ∧ t ≠ .sourceAmb ∧ t ≠ .solidPcb ∧ t ≠ .sourcePcb := by
    intro l t ht
    rcases hplain l t ht with rfl | rfl | ⟨m, -, -, h, -⟩
    · simp [isSpr]
    · simp [isSpr]
    · cases t <;> simp [isSpr, solidish] at *
  have hspr : ∀ t, (t = .solid ∨ t = .source) → (isSpr (withTop g.top t) = true ↔ ∃ s m, g.top = some (.pluggable s m)) := by
    intro t ht
    cases g.top with
    | none => rcases ht with rfl | rfl <;> simp [withTop, isSpr]
    | some u => cases u <;> rcases ht with rfl | rfl <;> simp [withTop, isSpr]
  have hnot1 : g.bottom.isSome → g.top.isSome → p.dims.nLayers ≠ 1 := by
    intro hb1 ht1 hx
    have : fillGrid p.dims.nLayers p.elems g.top g.bottom = none := (C18_refused_iff hd hp _ _).mpr (Or.inl ⟨ht1, hb1, hx⟩)
    rw [this] at hg; cases hg
  have hmodel : ∀ (l : Nat) (t : LType), (stackTypes decl rs)[l]? = some t → solidish t = false → g.channel = decl := by
    intro l t ht hs
    have hch : g.channel = if rs.reverse.any (fun r => r.body.isChannel) then decl else none := by
      unfold fillGrid at hg
      simp only [Option.bind_eq_some_iff, Option.map_eq_some_iff] at hg
      obtain ⟨ts1, -, ts2, -, hgg⟩ := hg
      have := congrArg TGrid.channel hgg
      simp only [he] at this
      rw [← this]
      exact foldl_writeChannel hr 0 none
    rw [hch, if_pos]
    have hm := List.mem_of_getElem? ht
    rw [stackTypes, List.mem_flatMap] at hm
    obtain ⟨r, hr1, hr2⟩ := hm
    rw [List.any_eq_true]
    refine ⟨r, hr1, ?_⟩
    unfold specTypes at hr2
    cases hbd : r.body with
    | die dd =>
      rw [hbd] at hr2
      simp only [List.append_assoc, List.mem_append, List.mem_map, List.mem_singleton] at hr2
      rcases hr2 with ⟨_, _, rfl⟩ | rfl | ⟨_, _, rfl⟩ <;> simp [solidish] at hs
    | layer ly => rw [hbd] at hr2; simp at hr2; subst hr2; simp [solidish] at hs
    | channel => rfl
  have hL : g.layers = es.reverse.flatMap fun e => blockLayers e.body := by
    unfold fillGrid at hg
    simp only [Option.bind_eq_some_iff, Option.map_eq_some_iff] at hg
    obtain ⟨ts1, -, ts2, -, hgg⟩ := hg
    have := congrArg TGrid.layers hgg
    simp only [he, hdim] at this
    rw [← this]
    exact foldl_layers _ _
  have e1 : stackTypes decl rs = es.reverse.flatMap fun e => blockTypes e.body :=
    flatMap_congr_forall₂ hr fun r e hre => (resolve_block hd hre).2.2.2.1
  have hlen : ∀ e ∈ es.reverse, (blockLayers e.body).length = (blockTypes e.body).length := by
    intro e hx
    obtain ⟨r, _, hre⟩ := mem_forall₂_right hr hx
    obtain ⟨ho, -, -, h4, -, -, h7⟩ := resolve_block hd hre
    rw [← h4, ← h7]
    cases hbd : e.body <;> simp [blockLayers, nLayersOf, hbd]
  refine ⟨⟨hb.rows, hb.cols, ?_⟩, hgn, hpos, hh, ?_, ?_, ?_, ?_, ?_, ?_, ?_, ?_, ?_, hb.geo⟩
  · rw [hdim]; exact hcount
  · rw [hL, hn, e1]; exact flatMap_length_congr _ _ _ hlen
  · intro l hl
    obtain ⟨t, ht, -, -⟩ := hT l (by omega)
    obtain ⟨u, hu, -, -⟩ := hT (l + 1) hl
    have hadj : adj t u = true := by
      have := List.isChain_iff_getElem.mp hchain l (by omega)
      rw [List.getElem?_eq_some_iff] at ht hu
      obtain ⟨_, rfl⟩ := ht
      obtain ⟨_, rfl⟩ := hu
      exact this
    exact adj_congr hadj (hsame l t ht) (hsame (l + 1) u hu)
  · rcases hsame 0 t0 h0 with h | h
    · rw [h]; rcases h0' with rfl | rfl <;> rfl
    · exact h.2
  · rcases hsame _ t1 h1 with h | h
    · rw [h]; rcases h1' with rfl | rfl <;> rfl
    · exact h.2
  · intro l hl hx
    obtain ⟨t, ht, -, e⟩ := hT l hl
    by_cases c0 : l = 0 ∧ g.bottom.isSome
    · rw [if_pos c0] at e
      rw [e] at hx
      exfalso
      have := hno l t ht
      revert hx
      cases hbb : g.bottom with
      | none => rw [hbb] at c0; simp at c0
      | some b => simp only [withBottom]; split <;> simp
    · rw [if_neg c0] at e
      by_cases c1 : l = p.dims.nLayers - 1
      · rw [if_pos c1] at e
        refine ⟨c1, ?_⟩
        rw [e] at hx
        cases htop : g.top with
        | none =>
          rw [htop] at hx
          have := hno l t ht
          simp only [withTop] at hx
          rcases hx with h | h
          · exact absurd h this.2.1
          · exact absurd h this.2.2.1
        | some u =>
          cases u with
          | ambient s => exact ⟨s, rfl⟩
          | pluggable s m =>
            exfalso
            rw [htop] at hx
            simp only [withTop] at hx
            split at hx <;> simp at hx
      · rw [if_neg c1] at e
        have := hno l t ht
        rw [e] at hx
        rcases hx with h | h
        · exact absurd h this.2.1
        · exact absurd h this.2.2.1
  · intro l hl
    obtain ⟨t, ht, -, e⟩ := hT l hl
    by_cases c0 : l = 0 ∧ g.bottom.isSome
    · rw [if_pos c0] at e
      rw [e]
      have h3 : isSpr (withBottom g.bottom t) = false := by
        cases hbb : g.bottom with
        | none => rw [hbb] at c0; simp at c0
        | some b => simp only [withBottom]; split <;> rfl
      rw [h3]
      constructor
      · simp
      · rintro ⟨h4, s, m, h5⟩
        exact absurd (show p.dims.nLayers = 1 by omega) (hnot1 c0.2 (by rw [h5]; rfl))
    · rw [if_neg c0] at e
      by_cases c1 : l = p.dims.nLayers - 1
      · rw [if_pos c1] at e
        rw [e]
        subst c1
        have : t = t1 := by rw [h1] at ht; simpa using ht.symm
        subst this
        rw [hspr t h1']; simp
      · rw [if_neg c1] at e
        have := hno l t ht
        rw [e, this.1]; simp [c1]
  · intro l hl hx
    obtain ⟨t, ht, -, e⟩ := hT l hl
    by_cases c0 : l = 0 ∧ g.bottom.isSome
    · exact ⟨c0.1, Option.isSome_iff_exists.mp c0.2⟩
    · exfalso
      rw [if_neg c0] at e
      have hnn := hno l t ht
      by_cases c1 : l = p.dims.nLayers - 1
      · rw [if_pos c1] at e
        rw [e] at hx
        cases htop : g.top with
        | none =>
          rw [htop] at hx
          simp only [withTop] at hx
          rcases hx with h | h
          · exact absurd h hnn.2.2.2.1
          · exact absurd h hnn.2.2.2.2
        | some u =>
          rw [htop] at hx
          cases u <;> simp only [withTop] at hx <;> split at hx <;> simp at hx
      · rw [if_neg c1] at e
        rw [e] at hx
        rcases hx with h | h
        · exact absurd h hnn.2.2.2.1
        · exact absurd h hnn.2.2.2.2
  · intro l hl
    obtain ⟨t, ht, -, -⟩ := hT l hl
    rcases hplain l t ht with rfl | rfl | ⟨m, hm, ho, hs, -⟩
    · rcases hsame l _ ht with h | h
      · rw [h]; trivial
      · have := h.2; revert this; generalize typeAt g l = u; cases u <;> simp [solidish, modelOk]
    · rcases hsame l _ ht with h | h
      · rw [h]; trivial
      · have := h.2; revert this; generalize typeAt g l = u; cases u <;> simp [solidish, modelOk]
    · rcases hsame l _ ht with h | h
      · rw [h, chModel, hmodel l t ht hs, hm]; exact ho
      · rw [hs] at h; simp at h
  · intro l hl hx
    obtain ⟨t, ht, -, -⟩ := hT l hl
    have ht2 : t = .vwallCh ∨ t = .vwallPf := by
      rcases hsame l t ht with h | h
      · rw [← h]; exact hx
      · have := h.2; rcases hx with hx | hx <;> rw [hx] at this <;> simp [solidish] at this
    have hl2 : l < (es.reverse.flatMap fun e => blockTypes e.body).length := by rw [← e1, ← hn]; exact hl
    obtain ⟨i, hi, k, hk, rfl⟩ := flatMap_locate _ _ l hl2
    have hk2 : k < (blockLayers (es.reverse[i]).body).length := by rw [hlen _ (List.getElem_mem hi)]; exact hk
    rw [e1, flatMap_getElem? _ _ i hi k hk] at ht
    have hll : g.layers[((es.reverse.take i).flatMap fun e => blockTypes e.body).length + k]? = (blockLayers (es.reverse[i]).body)[k]? := by
      rw [hL, ← flatMap_length_congr (es.reverse.take i) _ _ fun e he => hlen e (List.mem_of_mem_take he)]
      exact flatMap_getElem? _ (fun e => blockLayers e.body) i hi k hk2
    rw [layerAt, List.getD_eq_getElem?_getD, hll]
    generalize hbody : (es.reverse[i]).body = body at *
    have hmt := List.mem_of_getElem? ht
    cases body with
    | die dd =>
      exfalso
      simp only [blockTypes] at hmt
      rcases List.mem_or_eq_of_mem_set hmt with h | h
      · have := List.eq_of_mem_replicate h; subst this; simp at ht2
      · subst h; simp at ht2
    | layer ly => exfalso; simp [blockTypes] at hmt; subst hmt; simp at ht2
    | channel ch =>
      simp only [blockLayers] at hk2 ⊢
      rw [List.getElem?_eq_getElem hk2]
      simp [wallLayer]

end Verif.SM
