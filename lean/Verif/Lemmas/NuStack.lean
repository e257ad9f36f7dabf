import Verif.Lemmas.NuConn
import Verif.Props.MatrixSize

set_option linter.unusedSectionVars false
set_option linter.unusedSimpArgs false
set_option linter.unusedVariables false

/-! Facts on the non-uniform grid built from a stack file. -/

namespace Verif.NU
open Verif.Dim Verif.TG Verif.Stk Verif.SM

variable {K : Type} [Field K] [LinearOrder K] [IsStrictOrderedRing K]

/-- The non-uniform grid `G` built from a stack file without channels: `d0` are the dimensions of chip and cells, `rs` the stack
section as written, `ns` its elements from the bottom, with their discretizations. -/
structure FromFile (d0 : Dims K) (rs : List (Raw K (List (FEl K)))) (ns : List (NElem K)) (G : Grid K) : Prop where
  parsed : ∃ p g, BuiltFrom d0 none rs p g ∧ ns.map (·.elem) = p.elems ∧ buildNU p.dims g.top g.bottom ns = some G

/-- The floorplans without the power values waiting in the queues of their elements. -/
def bare (fl : List (Option (List (FEl K)))) : List (Option (List (FEl K))) :=
  fl.map fun o => o.map fun es => es.map fun e => { e with powers := [] }

/-- The same for a stack with a declared channel, at any time of a simulation: the queues of the power values are no longer as in the
file, everything else is. -/
structure FromStack (d0 : Dims K) (decl : Option (Channel K)) (rs : List (Raw K (List (FEl K)))) (ns : List (NElem K)) (G : Grid K) : Prop where
  parsed : ∃ p g fl, BuiltFrom d0 decl rs p g ∧ ns.map (·.elem) = p.elems ∧ buildNU p.dims g.top g.bottom ns = some { G with flps := fl } ∧
    bare fl = bare G.flps

/-- Just built. -/
theorem FromStack.fresh {d0 : Dims K} {decl : Option (Channel K)} {rs : List (Raw K (List (FEl K)))} {ns : List (NElem K)} {G : Grid K}
    (h : ∃ p g, BuiltFrom d0 decl rs p g ∧ ns.map (·.elem) = p.elems ∧ buildNU p.dims g.top g.bottom ns = some G) : FromStack d0 decl rs ns G := by
  obtain ⟨p, g, h1, h2, h3⟩ := h
  exact ⟨p, g, G.flps, h1, h2, h3, rfl⟩

theorem FromFile.stack {d0 : Dims K} {rs : List (Raw K (List (FEl K)))} {ns : List (NElem K)} {G : Grid K} (h : FromFile d0 rs ns G) :
    FromStack d0 none rs ns G := .fresh h.parsed

theorem writeTypes_fix (ts : List LType) (n : NElem K) : writeTypes ts (fixDiscr n).elem = writeTypes ts n.elem := by
  unfold fixDiscr writeTypes
  cases h : n.elem.body <;> simp [h]

theorem writeLayers_fix (ts : List (Layer K)) (n : NElem K) : writeLayers ts (fixDiscr n).elem = writeLayers ts n.elem := by
  unfold fixDiscr writeLayers
  cases h : n.elem.body <;> simp [h]

theorem writeChannel_fix (c : Option (Channel K)) (n : NElem K) : writeChannel c (fixDiscr n).elem = writeChannel c n.elem := by
  unfold fixDiscr writeChannel
  cases h : n.elem.body <;> simp [h]

theorem is4rm_fix (n : NElem K) : is4rm (fixDiscr n).elem = is4rm n.elem := by
  unfold fixDiscr is4rm
  cases h : n.elem.body <;> simp [h]

theorem fillGrid_fix (n : Nat) (ns : List (NElem K)) (top : Option (TopSink K)) (bottom : Option (Sink K)) :
    fillGrid n ((ns.map fixDiscr).map (·.elem)) top bottom = fillGrid n (ns.map (·.elem)) top bottom := by
  unfold fillGrid
  have h1 : (((ns.map fixDiscr).map (·.elem)).any is4rm) = ((ns.map (·.elem)).any is4rm) := by
    rw [List.map_map, List.any_map, List.any_map]
    congr 1; funext x; exact is4rm_fix x
  rw [h1]
  simp only [List.map_map, List.foldl_map, Function.comp, writeTypes_fix, writeLayers_fix, writeChannel_fix]

/-- What a built grid consists of. -/
theorem FromStack.spec {d0 : Dims K} {decl : Option (Channel K)} {rs : List (Raw K (List (FEl K)))} {ns : List (NElem K)} {G : Grid K}
    (h : FromStack d0 decl rs ns G) :
    ∃ p, BuiltFrom d0 decl rs p G.g ∧ ns.map (·.elem) = p.elems ∧ G.d = p.dims ∧ numberOfCells G.d G.g.top ns = some G.nCells ∧
      G.ls = layersOf G.d G.g.top (ns.map fixDiscr) ∧ bare G.flps = bare (fillFloorplans G.d.nLayers ((ns.map fixDiscr).map (·.elem))) ∧
      G.ns = ns.map fixDiscr := by
  obtain ⟨p, g, fl, hb, he, hG, hfl⟩ := h.parsed
  unfold buildNU at hG
  cases hn : numberOfCells p.dims g.top ns with
  | none => rw [hn] at hG; cases hG
  | some n =>
    rw [hn] at hG
    simp only [Option.bind_some] at hG
    rw [fillGrid_fix, he, hb.fill] at hG
    obtain ⟨Gd, Gn, Gg, Gl, Gf, Gns⟩ := G
    simp only [Option.map_some, Option.some.injEq, Grid.mk.injEq] at hG
    obtain ⟨rfl, rfl, rfl, rfl, h5, rfl⟩ := hG
    exact ⟨p, hb, he, rfl, hn, rfl, by rw [← hfl, h5], rfl⟩

theorem FromFile.spec {d0 : Dims K} {rs : List (Raw K (List (FEl K)))} {ns : List (NElem K)} {G : Grid K} (h : FromFile d0 rs ns G) :
    ∃ p, BuiltFrom d0 none rs p G.g ∧ ns.map (·.elem) = p.elems ∧ G.d = p.dims ∧ numberOfCells G.d G.g.top ns = some G.nCells ∧
      G.ls = layersOf G.d G.g.top (ns.map fixDiscr) ∧ G.flps = fillFloorplans G.d.nLayers ((ns.map fixDiscr).map (·.elem)) := by
  obtain ⟨p, h1, h2, h3, h4, h5, -, h6⟩ := h.stack.spec
  refine ⟨p, h1, h2, h3, h4, h5, ?_⟩
  obtain ⟨p', g, -, -, hG⟩ := h.parsed
  unfold buildNU at hG
  simp only [Option.bind_eq_some_iff, Option.map_eq_some_iff] at hG
  obtain ⟨n, -, g', -, rfl⟩ := hG
  rfl

theorem FromStack.wf {d0 : Dims K} {decl : Option (Channel K)} {rs : List (Raw K (List (FEl K)))} {ns : List (NElem K)} {G : Grid K}
    (h : FromStack d0 decl rs ns G) : WF G.g G.d := by
  obtain ⟨p, hb, -, hd, -⟩ := h.spec
  rw [hd]; exact wf_of_built hb.built

theorem FromFile.wf {d0 : Dims K} {rs : List (Raw K (List (FEl K)))} {ns : List (NElem K)} {G : Grid K} (h : FromFile d0 rs ns G) :
    WF G.g G.d := h.stack.wf

/-- No element is a channel. -/
theorem FromFile.noChannel {d0 : Dims K} {rs : List (Raw K (List (FEl K)))} {ns : List (NElem K)} {G : Grid K} (h : FromFile d0 rs ns G) :
    ∀ n ∈ ns, isChannel n.elem = false := by
  obtain ⟨p, hb, he, -⟩ := h.spec
  obtain ⟨es, m, hf, -, -, -, -, -, hel, -⟩ := parseStack_spec hb.parse
  have hnone : ∀ e ∈ es, isChannel e = false := by
    intro e hx
    obtain ⟨r, _, hr⟩ := mem_forall₂_right hf hx
    unfold resolve at hr
    cases hb : r.body <;> rw [hb] at hr <;> simp at hr <;> subst hr <;> rfl
  have hass : ∀ (k : Nat) (xs : List (SElem K (List (FEl K)))), (∀ e ∈ xs, isChannel e = false) →
      ∀ e ∈ assignOffsets k xs, isChannel e = false := by
    intro k xs
    induction xs generalizing k with
    | nil => intro _ e he; cases he
    | cons x xs ih =>
      intro hx e he
      rw [assignOffsets, List.mem_cons] at he
      rcases he with rfl | he
      · exact hx x List.mem_cons_self
      · exact ih _ (fun e he => hx e (List.mem_cons_of_mem _ he)) e he
  intro n hn
  refine hass 0 es.reverse (fun e he => hnone e (List.mem_reverse.mp he)) n.elem ?_
  rw [← hel, ← he]
  exact List.mem_map_of_mem hn

theorem FromFile.types {d0 : Dims K} {rs : List (Raw K (List (FEl K)))} {ns : List (NElem K)} {G : Grid K} (h : FromFile d0 rs ns G)
    {l : Nat} (hl : l < G.d.nLayers) : solidish (typeAt G.g l) = true := by
  obtain ⟨p, hb, he, hd, -⟩ := h.spec
  obtain ⟨hn, -⟩ := C16_layers_match_file hb.ok hb.parse
  rw [hd, hn] at hl
  obtain ⟨t, ht⟩ : ∃ t, (stackTypes (none : Option (Channel K)) rs)[l]? = some t := ⟨_, List.getElem?_eq_getElem hl⟩
  have hs : solidish t = true := by
    have := List.mem_of_getElem? ht
    unfold stackTypes at this
    obtain ⟨r, _, hr⟩ := List.mem_flatMap.mp this
    unfold specTypes at hr
    cases hb : r.body with
    | die dd =>
      rw [hb] at hr
      simp only [List.mem_append, List.mem_map, List.mem_singleton] at hr
      rcases hr with (⟨_, _, rfl⟩ | rfl) | ⟨_, _, rfl⟩ <;> rfl
    | layer ly => rw [hb] at hr; simp only [List.mem_singleton] at hr; subst hr; rfl
    | channel => rw [hb] at hr; simp at hr
  rcases same_type hb ht with e | ⟨-, e⟩
  · rw [e]; exact hs
  · exact e

theorem subCells_layer {r : Rect K} {nx ny l : Nat} {m : Material K} {c : Cell K} (h : c ∈ subCells r nx ny l m) :
    c.layer = l ∧ c.chan = false := by
  obtain ⟨s, _, rfl⟩ := List.mem_map.mp h; exact ⟨rfl, rfl⟩

theorem elemLayers_length (d : Dims K) (cur : Nat) (n : NElem K) : (elemLayers d cur n).length = nLayersOf n.elem := by
  unfold elemLayers nLayersOf
  cases hb : n.elem.body <;> simp [hb]

theorem elemLayers_cell {d : Dims K} {cur : Nat} {n : NElem K} {k : Nat} {lc : List (Cell K)}
    (h : (elemLayers d cur n)[k]? = some lc) : ∀ c ∈ lc, c.layer = cur + k ∧ (isChannel n.elem = false → c.chan = false) := by
  unfold elemLayers at h
  cases hb : n.elem.body with
  | die b =>
    rw [hb] at h
    simp only [List.getElem?_map, Option.map_eq_some_iff] at h
    obtain ⟨k', hk, rfl⟩ := h
    rw [List.getElem?_eq_some_iff] at hk
    obtain ⟨_, hk⟩ := hk
    rw [List.getElem_range] at hk
    subst hk
    intro c hc
    obtain ⟨e, _, hc⟩ := List.mem_flatMap.mp hc
    exact ⟨(subCells_layer hc).1, fun _ => (subCells_layer hc).2⟩
  | layer ly =>
    rw [hb] at h
    cases k with
    | zero =>
      simp only [List.getElem?_cons_zero, Option.some.injEq] at h; subst h
      intro c hc; exact ⟨(subCells_layer hc).1, fun _ => (subCells_layer hc).2⟩
    | succ k => simp at h
  | channel ch =>
    rw [hb] at h
    simp only [List.getElem?_map, Option.map_eq_some_iff] at h
    obtain ⟨k', hk, rfl⟩ := h
    rw [List.getElem?_eq_some_iff] at hk
    obtain ⟨_, hk⟩ := hk
    rw [List.getElem_range] at hk
    subst hk
    intro c hc
    obtain ⟨e, _, rfl⟩ := List.mem_map.mp hc
    refine ⟨rfl, fun hh => ?_⟩
    unfold isChannel at hh; rw [hb] at hh; cases hh

theorem stackLayers_cell {d : Dims K} {ns : List (NElem K)} {cur k : Nat} {lc : List (Cell K)}
    (h : (stackLayers d cur ns)[k]? = some lc) :
    ∀ c ∈ lc, c.layer = cur + k ∧ ((∀ n ∈ ns, isChannel n.elem = false) → c.chan = false) := by
  induction ns generalizing cur k with
  | nil => simp [stackLayers] at h
  | cons n ns ih =>
    rw [stackLayers] at h
    by_cases hk : k < (elemLayers d cur n).length
    · rw [List.getElem?_append_left hk] at h
      intro c hc
      obtain ⟨h1, h2⟩ := elemLayers_cell h c hc
      exact ⟨h1, fun hn => h2 (hn n List.mem_cons_self)⟩
    · rw [List.getElem?_append_right (by omega)] at h
      intro c hc
      obtain ⟨h1, h2⟩ := ih h c hc
      exact ⟨by omega, fun hn => h2 fun x hx => hn x (List.mem_cons_of_mem _ hx)⟩

theorem stackLayers_length (d : Dims K) (ns : List (NElem K)) (cur : Nat) :
    (stackLayers d cur ns).length = (ns.map fun n => nLayersOf n.elem).sum := by
  induction ns generalizing cur with
  | nil => rfl
  | cons n ns ih => rw [stackLayers, List.length_append, ih _, List.map_cons, List.sum_cons, elemLayers_length d cur n]

theorem layersOf_cell {d : Dims K} {top : Option (TopSink K)} {ns : List (NElem K)} {k : Nat} {lc : List (Cell K)}
    (h : (layersOf d top ns)[k]? = some lc) : ∀ c ∈ lc, c.layer = k ∧ ((∀ n ∈ ns, isChannel n.elem = false) → c.chan = false) := by
  unfold layersOf at h
  simp only at h
  by_cases hk : k < (stackLayers d 0 ns).length
  · rw [List.getElem?_append_left hk] at h
    intro c hc; have := stackLayers_cell h c hc; simpa using this
  · rw [List.getElem?_append_right (by omega)] at h
    unfold spreaderLayer at h
    split at h
    · rename_i s m
      cases hz : k - (stackLayers d 0 ns).length with
      | zero =>
        rw [hz] at h
        simp only [List.getElem?_cons_zero, Option.some.injEq] at h; subst h
        intro c hc
        obtain ⟨h1, h2⟩ := subCells_layer hc
        exact ⟨by omega, fun _ => h2⟩
      | succ z => rw [hz] at h; simp at h
    · simp at h

theorem isChannel_fix (n : NElem K) : isChannel (fixDiscr n).elem = isChannel n.elem := by
  unfold fixDiscr isChannel
  cases h : n.elem.body <;> simp [h]

theorem nLayersOf_fix (n : NElem K) : nLayersOf (fixDiscr n).elem = nLayersOf n.elem := by
  unfold fixDiscr nLayersOf
  cases h : n.elem.body <;> simp [h]

theorem nLayersOf_assign (xs : List (SElem K (List (FEl K)))) (k : Nat) :
    (assignOffsets k xs).map nLayersOf = xs.map nLayersOf := by
  induction xs generalizing k with
  | nil => rfl
  | cons x xs ih => rw [assignOffsets, List.map_cons, List.map_cons, ih]; rfl

theorem total_eq (xs : List (SElem K (List (FEl K)))) : total xs = (xs.map nLayersOf).sum := by
  induction xs with
  | nil => rfl
  | cons x xs ih => rw [total, List.map_cons, List.sum_cons]

/-- The stack has as many layers of cells as layers. -/
theorem FromStack.nLayers {d0 : Dims K} {decl : Option (Channel K)} {rs : List (Raw K (List (FEl K)))} {ns : List (NElem K)} {G : Grid K}
    (h : FromStack d0 decl rs ns G) : (stackLayers G.d 0 (ns.map fixDiscr)).length = G.d.nLayers := by
  obtain ⟨p, hb, he, hd, -⟩ := h.spec
  rw [stackLayers_length, List.map_map]
  have e1 : (ns.map ((fun n => nLayersOf n.elem) ∘ fixDiscr)).sum = ((ns.map (·.elem)).map nLayersOf).sum := by
    rw [List.map_map]
    congr 2; funext n; exact nLayersOf_fix n
  obtain ⟨es, m, hf, -, -, -, -, -, hel, hdim, -⟩ := parseStack_spec hb.parse
  rw [e1, he, hel, nLayersOf_assign, hd, hdim, ← total_eq]

theorem FromFile.nLayers {d0 : Dims K} {rs : List (Raw K (List (FEl K)))} {ns : List (NElem K)} {G : Grid K} (h : FromFile d0 rs ns G) :
    (stackLayers G.d 0 (ns.map fixDiscr)).length = G.d.nLayers := h.stack.nLayers

/-- The layers of cells: those of the stack and, with a pluggable sink, that of the spreader. -/
theorem FromStack.layers {d0 : Dims K} {decl : Option (Channel K)} {rs : List (Raw K (List (FEl K)))} {ns : List (NElem K)} {G : Grid K}
    (h : FromStack d0 decl rs ns G) : G.ls.length = G.d.nLayers + (match G.g.top with | some (.pluggable _ _) => 1 | _ => 0) := by
  obtain ⟨p, -, -, -, -, hl, -⟩ := h.spec
  rw [hl]
  unfold layersOf
  simp only [List.length_append]
  rw [h.nLayers]
  congr 1
  unfold spreaderLayer
  cases G.g.top with
  | none => rfl
  | some t => cases t <;> rfl

theorem FromFile.layers {d0 : Dims K} {rs : List (Raw K (List (FEl K)))} {ns : List (NElem K)} {G : Grid K} (h : FromFile d0 rs ns G) :
    G.ls.length = G.d.nLayers + (match G.g.top with | some (.pluggable _ _) => 1 | _ => 0) := h.stack.layers

theorem FromStack.top {d0 : Dims K} {decl : Option (Channel K)} {rs : List (Raw K (List (FEl K)))} {ns : List (NElem K)} {G : Grid K}
    (h : FromStack d0 decl rs ns G) : (∃ s, G.g.top = some (.ambient s)) ∨ ∃ s m, G.g.top = some (.pluggable s m) := by
  obtain ⟨p, -, -, -, hn, -⟩ := h.spec
  cases ht : G.g.top with
  | none => rw [ht] at hn; cases hn
  | some t => cases t with
    | ambient s => exact Or.inl ⟨s, rfl⟩
    | pluggable s m => exact Or.inr ⟨s, m, rfl⟩

theorem FromFile.top {d0 : Dims K} {rs : List (Raw K (List (FEl K)))} {ns : List (NElem K)} {G : Grid K} (h : FromFile d0 rs ns G) :
    (∃ s, G.g.top = some (.ambient s)) ∨ ∃ s m, G.g.top = some (.pluggable s m) := h.stack.top

/-- The elements of the built grid are no channels. -/
theorem FromFile.noChannelFix {d0 : Dims K} {rs : List (Raw K (List (FEl K)))} {ns : List (NElem K)} {G : Grid K} (h : FromFile d0 rs ns G) :
    ∀ n ∈ ns.map fixDiscr, isChannel n.elem = false := by
  intro n hn
  obtain ⟨m, hm, rfl⟩ := List.mem_map.mp hn
  rw [isChannel_fix]; exact h.noChannel m hm

/-- Without channels the types of the record are 0, and 4 for the spreader. -/
theorem FromFile.ty {d0 : Dims K} {rs : List (Raw K (List (FEl K)))} {ns : List (NElem K)} {G : Grid K} (h : FromFile d0 rs ns G) (l : Nat) :
    G.ty l = match G.g.top with | some (.pluggable _ _) => if l = G.d.nLayers then 4 else 0 | _ => 0 := by
  obtain ⟨p, -, -, -, -, -, -, hns⟩ := h.stack.spec
  have hz : ∀ xs : List (NElem K), (∀ n ∈ xs, isChannel n.elem = false) →
      xs.flatMap elemRecord = List.replicate (xs.map fun n => nLayersOf n.elem).sum 0 := by
    intro xs hx
    induction xs with
    | nil => rfl
    | cons n xs ih =>
      rw [List.flatMap_cons, ih fun m hm => hx m (List.mem_cons_of_mem _ hm), List.map_cons, List.sum_cons, List.replicate_add]
      congr 1
      have h1 := hx n List.mem_cons_self
      unfold isChannel at h1
      unfold elemRecord nLayersOf
      cases hb : n.elem.body <;> rw [hb] at h1 <;> simp at h1 ⊢
  have hlen : ((ns.map fixDiscr).map fun n => nLayersOf n.elem).sum = G.d.nLayers := by
    rw [← stackLayers_length G.d _ 0, h.nLayers]
  unfold Grid.ty recordOf
  rw [hns, hz _ h.noChannelFix, hlen]
  rcases h.top with ⟨s, ht⟩ | ⟨s, m, ht⟩
  · rw [ht]; simp [List.getD_eq_getElem?_getD, List.getElem?_replicate]; split_ifs <;> rfl
  · rw [ht]
    simp only [List.getD_eq_getElem?_getD]
    rcases Nat.lt_trichotomy l G.d.nLayers with hl | hl | hl
    · rw [List.getElem?_append_left (by simpa using hl), if_neg (by omega), List.getElem?_replicate, if_pos hl]; rfl
    · rw [List.getElem?_append_right (by simp; omega), if_pos hl, hl]; simp
    · rw [List.getElem?_append_right (by simp; omega), if_neg (by omega), List.getElem?_eq_none (by simp; omega)]; rfl

theorem mem_flatten_get {α : Type} {ls : List (List α)} {c : α} (h : c ∈ ls.flatten) : ∃ (k : Nat) (lc : List α), ls[k]? = some lc ∧ c ∈ lc := by
  obtain ⟨lc, h1, h2⟩ := List.mem_flatten.mp h
  obtain ⟨k, hk⟩ := List.mem_iff_getElem?.mp h1
  exact ⟨k, lc, hk, h2⟩

/-- Every cell is a solid cell of a layer of the stack, or of the spreader. -/
theorem FromFile.cell {d0 : Dims K} {rs : List (Raw K (List (FEl K)))} {ns : List (NElem K)} {G : Grid K} (h : FromFile d0 rs ns G)
    {c : Cell K} (hc : c ∈ G.ls.flatten) :
    c.chan = false ∧ (c.layer < G.d.nLayers ∨ (c.layer = G.d.nLayers ∧ ∃ s m, G.g.top = some (.pluggable s m))) := by
  obtain ⟨k, lc, hk, hm⟩ := mem_flatten_get hc
  have hlen := (List.getElem?_eq_some_iff.mp hk).1
  rw [h.layers] at hlen
  obtain ⟨p, -, -, -, -, hl, -⟩ := h.spec
  rw [hl] at hk
  obtain ⟨h1, h2⟩ := layersOf_cell hk c hm
  refine ⟨h2 h.noChannelFix, ?_⟩
  rcases h.top with ⟨s, ht⟩ | ⟨s, m, ht⟩
  · rw [ht] at hlen; simp only at hlen; left; omega
  · rw [ht] at hlen; simp only at hlen
    by_cases hlt : c.layer < G.d.nLayers
    · exact Or.inl hlt
    · exact Or.inr ⟨by omega, s, m, ht⟩

theorem cellAt_mem {cs : List (Cell K)} {i : Nat} (h : i < cs.length) : cellAt cs i ∈ cs := by
  unfold cellAt
  rw [List.getD_eq_getElem?_getD, List.getElem?_eq_getElem h]
  exact List.getElem_mem h

end Verif.NU
