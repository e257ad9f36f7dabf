import Verif.Props.NonUniform

set_option linter.unusedSectionVars false
set_option linter.unusedSimpArgs false
set_option linter.unusedVariables false

/-! The source vector of a non-uniform grid, layer by layer. -/

namespace Verif.NU
open Verif.Dim Verif.TG Verif.Stk Verif.SM

variable {K : Type} [Field K] [LinearOrder K] [IsStrictOrderedRing K]

/-! ### Writing into the source vector -/

theorem addFrom_spec (pre mid post vs : List K) (h : vs.length = mid.length) :
    addFrom (pre ++ mid ++ post) pre.length vs = pre ++ List.zipWith (· + ·) mid vs ++ post := by
  induction vs generalizing pre mid with
  | nil => cases mid with
    | nil => rfl
    | cons m mid => simp at h
  | cons v vs ih =>
    cases mid with
    | nil => simp at h
    | cons m mid =>
      rw [addFrom]
      have h1 : (pre ++ m :: mid ++ post).getD pre.length 0 = m := by
        rw [List.getD_eq_getElem?_getD, List.append_assoc, List.getElem?_append_right (le_refl _)]; simp
      have h2 : (pre ++ m :: mid ++ post).set pre.length (m + v) = (pre ++ [m + v]) ++ mid ++ post := by
        rw [List.append_assoc, List.set_append_right _ _ (le_refl _)]; simp
      rw [h1, h2]
      have := ih (pre ++ [m + v]) mid (by simpa using h)
      rw [List.length_append, List.length_singleton] at this
      rw [this]; simp

theorem addFrom_zero (pre vs : List K) (k : Nat) (h : vs.length ≤ k) :
    addFrom (pre ++ List.replicate k 0) pre.length vs = pre ++ vs ++ List.replicate (k - vs.length) 0 := by
  have h1 : List.replicate k (0 : K) = List.replicate vs.length 0 ++ List.replicate (k - vs.length) 0 := by
    rw [List.replicate_append_replicate]; congr 1; omega
  rw [h1, ← List.append_assoc, addFrom_spec _ _ _ _ (by simp)]
  congr 2
  clear h h1
  induction vs with
  | nil => rfl
  | cons v vs ih => rw [List.length_cons, List.replicate_succ, List.zipWith_cons_cons, ih, zero_add]

/-- The power of each element spread over its cells. -/
def shares (es : List (FEl K)) : List K :=
  es.flatMap fun e => List.replicate (e.dx * e.dy) (e.powers.headD 0 / ((e.dx * e.dy : Nat) : K))

theorem popPowers_spec {es : List (FEl K)} {r : List K × List (FEl K)} (h : popPowers es = some r) :
    r.1 = shares es ∧ r.2 = es.map (fun e => { e with powers := e.powers.tail }) ∧ ∀ e ∈ es, e.powers ≠ [] := by
  induction es generalizing r with
  | nil => simp only [popPowers, Option.some.injEq] at h; subst h; exact ⟨rfl, rfl, by simp⟩
  | cons e es ih =>
    rw [popPowers] at h
    cases hp : e.powers with
    | nil => rw [hp] at h; simp at h
    | cons p ps =>
      rw [hp] at h
      simp only [Option.map_eq_some_iff] at h
      obtain ⟨r', hr', rfl⟩ := h
      obtain ⟨h1, h2, h3⟩ := ih hr'
      refine ⟨?_, ?_, ?_⟩
      · simp only [shares, List.flatMap_cons, hp, List.headD_cons]; rw [h1]; rfl
      · simp only [List.map_cons, hp, List.tail_cons, h2]
      · intro x hx
        rcases List.mem_cons.mp hx with rfl | hx
        · rw [hp]; simp
        · exact h3 x hx

theorem popPowers_some {es : List (FEl K)} (h : ∀ e ∈ es, e.powers ≠ []) : ∃ r, popPowers es = some r := by
  induction es with
  | nil => exact ⟨_, rfl⟩
  | cons e es ih =>
    obtain ⟨r, hr⟩ := ih fun x hx => h x (List.mem_cons_of_mem _ hx)
    have := h e List.mem_cons_self
    rw [popPowers]
    cases hp : e.powers with
    | nil => exact absurd hp this
    | cons p ps => rw [hr]; exact ⟨_, rfl⟩

/-! ### Layers as consecutive parts of the list of cells -/

/-- The cells of the k-th layer carry the number k. -/
def Layered (ls : List (List (Cell K))) : Prop := ∀ (k : Nat) (lc : List (Cell K)), ls[k]? = some lc → ∀ c ∈ lc, c.layer = k

theorem drop_start (ls : List (List (Cell K))) (l : Nat) : ls.flatten.drop (start ls l) = (ls.drop l).flatten := by
  induction ls generalizing l with
  | nil => simp [start]
  | cons x xs ih =>
    cases l with
    | zero => simp [start]
    | succ l =>
      have : start (x :: xs) (l + 1) = x.length + start xs l := by simp [start]
      rw [this, List.flatten_cons, List.drop_append, List.drop_succ_cons, ← ih l]
      simp

theorem takeWhile_layer {lc rest : List (Cell K)} {l : Nat} (h : ∀ c ∈ lc, c.layer = l) (h2 : ∀ c ∈ rest, c.layer ≠ l) :
    (lc ++ rest).takeWhile (fun c => decide (c.layer = l)) = lc := by
  rw [List.takeWhile_append_of_pos (by intro c hc; simpa using h c hc)]
  cases rest with
  | nil => simp
  | cons c rest =>
    have := h2 c List.mem_cons_self
    rw [List.takeWhile_cons_of_neg (by simpa using this)]; simp

theorem Layered.after {ls : List (List (Cell K))} (h : Layered ls) (l : Nat) : ∀ c ∈ (ls.drop l).flatten, l ≤ c.layer := by
  intro c hc
  obtain ⟨k, lc, hk, hm⟩ := mem_flatten_get hc
  rw [List.getElem?_drop] at hk
  rw [h _ _ hk c hm]; omega

theorem Layered.before {ls : List (List (Cell K))} (h : Layered ls) (l : Nat) : ∀ c ∈ (ls.take l).flatten, c.layer < l := by
  intro c hc
  obtain ⟨k, lc, hk, hm⟩ := mem_flatten_get hc
  have hlt := (List.getElem?_eq_some_iff.mp hk).1
  rw [List.getElem?_take] at hk
  split_ifs at hk with hkl
  rw [h _ _ hk c hm]; exact hkl

theorem layerCells_eq {ls : List (List (Cell K))} (h : Layered ls) {l : Nat} {lc : List (Cell K)} (hl : ls[l]? = some lc) :
    layerCells ls.flatten (start ls l) l = lc := by
  unfold layerCells
  rw [drop_start, List.drop_eq_getElem_cons (List.getElem?_eq_some_iff.mp hl).1, List.flatten_cons,
    (List.getElem?_eq_some_iff.mp hl).2]
  refine takeWhile_layer (h l lc hl) fun c hc => ?_
  have := h.after (l + 1) c hc
  omega

theorem filter_layer {ls : List (List (Cell K))} (h : Layered ls) {l : Nat} {lc : List (Cell K)} (hl : ls[l]? = some lc) :
    ls.flatten.filter (fun c => decide (c.layer = l)) = lc := by
  have hlt := (List.getElem?_eq_some_iff.mp hl).1
  have e : ls.flatten = (ls.take l).flatten ++ (lc ++ (ls.drop (l + 1)).flatten) := by
    conv_lhs => rw [← List.take_append_drop l ls, List.flatten_append, List.drop_eq_getElem_cons hlt, List.flatten_cons]
    rw [(List.getElem?_eq_some_iff.mp hl).2]
  rw [e, List.filter_append, List.filter_append]
  rw [List.filter_eq_nil_iff.mpr, List.filter_eq_self.mpr, List.filter_eq_nil_iff.mpr]
  · simp
  · intro c hc; have := h.after (l + 1) c hc; simp; omega
  · intro c hc; simpa using h l lc hl c hc
  · intro c hc; have := h.before l c hc; simp; omega

theorem topLayer_eq {ls : List (List (Cell K))} (h : Layered ls) {n : Nat} (hn : ls.length = n + 1) {lc : List (Cell K)} (hl : ls[n]? = some lc)
    (hne : lc ≠ []) : topLayerOf ls.flatten = n := by
  have e : ls.flatten = (ls.take n).flatten ++ lc := by
    have hlt := (List.getElem?_eq_some_iff.mp hl).1
    conv_lhs => rw [← List.take_append_drop n ls, List.flatten_append, List.drop_eq_getElem_cons hlt, List.flatten_cons]
    rw [(List.getElem?_eq_some_iff.mp hl).2, List.drop_eq_nil_of_le (by omega)]; simp
  unfold topLayerOf
  rw [e, List.getLast?_append_of_ne_nil _ hne, List.getLast?_eq_getLast_of_ne_nil hne]
  exact h n lc hl _ (List.getLast_mem hne)

theorem firstLayer_eq {ls : List (List (Cell K))} (h : Layered ls) {lc : List (Cell K)} (hl : ls[0]? = some lc) (hne : lc ≠ []) :
    ls.flatten.takeWhile (fun c => decide (some c.layer = ls.flatten.head?.map (·.layer))) = lc := by
  have hlt := (List.getElem?_eq_some_iff.mp hl).1
  have e : ls.flatten = lc ++ (ls.drop 1).flatten := by
    cases ls with
    | nil => simp at hl
    | cons x xs => simp at hl; subst hl; simp
  have hh : ls.flatten.head?.map (·.layer) = some 0 := by
    rw [e]
    cases lc with
    | nil => exact absurd rfl hne
    | cons c lc => simp only [List.cons_append, List.head?_cons, Option.map_some]; rw [h 0 _ hl c List.mem_cons_self]
  rw [hh, e]
  have := takeWhile_layer (rest := (ls.drop 1).flatten) (h 0 lc hl) (fun c hc => by have := h.after 1 c hc; omega)
  simpa using this

/-! ### Floorplans and cells -/

theorem assign_fix (ns : List (NElem K)) (es : List (SElem K (List (FEl K)))) (k : Nat) (h : ns.map (·.elem) = assignOffsets k es) :
    assignOffsets k ((ns.map fixDiscr).map (·.elem)) = (ns.map fixDiscr).map (·.elem) := by
  induction ns generalizing es k with
  | nil => rfl
  | cons n ns ih =>
    cases es with
    | nil => simp [assignOffsets] at h
    | cons e es =>
      simp only [List.map_cons, assignOffsets, List.cons.injEq] at h
      obtain ⟨h1, h2⟩ := h
      simp only [List.map_cons, assignOffsets, List.cons.injEq]
      have ho : n.elem.offset = k := by rw [h1]
      have hno : (fixDiscr n).elem.offset = k := by
        rw [← ho]; unfold fixDiscr; cases hb : n.elem.body <;> simp [hb]
      refine ⟨by rw [← hno], ?_⟩
      have hnl : nLayersOf (fixDiscr n).elem = nLayersOf e := by rw [nLayersOf_fix, h1]; rfl
      rw [hnl]
      exact ih es _ h2

/-- Floorplans and layers of cells side by side. -/
theorem flp_cells {d : Dims K} {fs : List (NElem K)} {cur l : Nat} {es : List (FEl K)}
    (h : (fs.flatMap fun n => blockFlp n.elem.body)[l]? = some (some es)) :
    ∃ n ∈ fs, ∃ b, n.elem.body = .die b ∧ b.flp = es ∧ ∃ c, c + b.srcOff = cur + l ∧ (stackLayers d cur fs)[l]? = some (dieLayer n b c b.srcOff) := by
  induction fs generalizing cur l with
  | nil => simp at h
  | cons n fs ih =>
    have hlen : (blockFlp n.elem.body).length = (elemLayers d cur n).length := by
      rw [elemLayers_length d cur n]
      unfold nLayersOf; cases hb : n.elem.body <;> simp [blockFlp, hb]
    rw [List.flatMap_cons] at h
    rw [stackLayers]
    by_cases hl : l < (blockFlp n.elem.body).length
    · rw [List.getElem?_append_left hl] at h
      cases hb : n.elem.body with
      | die b =>
        rw [hb] at h hl
        simp only [blockFlp, List.length_set, List.length_replicate] at hl
        simp only [blockFlp] at h
        rw [List.getElem?_set] at h
        by_cases hs : b.srcOff = l
        · rw [if_pos hs] at h
          simp only [List.length_replicate] at h
          rw [if_pos (by omega)] at h
          simp only [Option.some.injEq] at h
          refine ⟨n, List.mem_cons_self, b, hb, h, cur, by omega, ?_⟩
          rw [List.getElem?_append_left (by rw [← hlen, hb]; simpa [blockFlp] using hl)]
          unfold elemLayers
          rw [hb]
          simp only [List.getElem?_map]
          rw [List.getElem?_range hl]; simp [hs]
        · rw [if_neg hs, List.getElem?_replicate] at h
          split_ifs at h
          simp at h
      | layer ly => rw [hb] at h; simp only [blockFlp] at h; cases l <;> simp at h
      | channel ch =>
        rw [hb] at h; simp only [blockFlp] at h
        have := List.mem_of_getElem? h; simp at this
    · rw [List.getElem?_append_right (by omega)] at h
      obtain ⟨n', h1, b, h2, h3, c, h4, h5⟩ := ih (cur := cur + (elemLayers d cur n).length) h
      refine ⟨n', List.mem_cons_of_mem _ h1, b, h2, h3, c, by omega, ?_⟩
      rw [List.getElem?_append_right (by omega)]; rw [hlen] at h5; exact h5

/-- After `update_number_of_cells` the number of cells of an element is the one given by its own discretization. -/
theorem dieLayer_length {n0 : NElem K} {b : Die K (List (FEl K))} (hb : (fixDiscr n0).elem.body = .die b) (c li : Nat) :
    (dieLayer (fixDiscr n0) b c li).length = (shares b.flp).length := by
  have hn : (fixDiscr n0).dx = n0.dx ∧ (fixDiscr n0).dy = n0.dy := by unfold fixDiscr; cases n0.elem.body <;> exact ⟨rfl, rfl⟩
  have hfix : ∀ e ∈ b.flp, (e.dx ≠ 0 ∧ e.dy ≠ 0) ∨ (e.dx = n0.dx ∧ e.dy = n0.dy) := by
    unfold fixDiscr at hb
    cases h0 : n0.elem.body with
    | die b0 =>
      rw [h0] at hb
      simp only [Body.die.injEq] at hb
      subst hb
      intro e he
      obtain ⟨e0, _, rfl⟩ := List.mem_map.mp he
      unfold fixEl
      split_ifs with h
      · exact Or.inl h
      · exact Or.inr ⟨rfl, rfl⟩
    | layer ly => rw [h0] at hb; rw [h0] at hb; cases hb
    | channel ch => rw [h0] at hb; rw [h0] at hb; cases hb
  unfold dieLayer shares
  rw [hn.1, hn.2]
  generalize b.flp = es at hfix
  induction es with
  | nil => rfl
  | cons e es ih =>
    rw [List.flatMap_cons, List.flatMap_cons, List.length_append, List.length_append, ih fun x hx => hfix x (List.mem_cons_of_mem _ hx)]
    congr 1
    simp only [subCells, List.length_map, List.length_range, List.length_replicate]
    rcases hfix e List.mem_cons_self with h | h
    · rw [if_neg (by tauto)]
    · split_ifs with hz
      · simp only [h.1, h.2]
      · rfl

section
variable {d0 : Dims K} {decl : Option (Channel K)} {rs : List (Raw K (List (FEl K)))} {ns : List (NElem K)} {G : Grid K}

theorem FromStack.layered (hf : FromStack d0 decl rs ns G) : Layered G.ls := by
  obtain ⟨p, -, -, -, -, hl, -⟩ := hf.spec
  rw [hl]
  intro k lc hk c hc
  exact (layersOf_cell hk c hc).1

theorem FromFile.layered (hf : FromFile d0 rs ns G) : Layered G.ls := hf.stack.layered

theorem FromStack.filledFlps (hf : FromStack d0 decl rs ns G) :
    fillFloorplans G.d.nLayers ((ns.map fixDiscr).map (·.elem)) = (ns.map fixDiscr).flatMap fun n => blockFlp n.elem.body := by
  obtain ⟨p, hb, he, hd, -, -, hfl, -⟩ := hf.spec
  obtain ⟨es, m, hfa, -, -, -, -, -, hel, hdim, -⟩ := parseStack_spec hb.parse
  have ho : ∀ e ∈ es, ElemOk e := by
    intro e hx
    obtain ⟨r, _, hr⟩ := mem_forall₂_right hfa hx
    exact (resolve_block hb.ok hr).1
  have hass : ∀ (k : Nat) (xs : List (SElem K (List (FEl K)))), (∀ e ∈ xs, ElemOk e) → ∀ e ∈ assignOffsets k xs, ElemOk e := by
    intro k xs
    induction xs generalizing k with
    | nil => intro _ e he; cases he
    | cons x xs ih =>
      intro hx e he
      rw [assignOffsets, List.mem_cons] at he
      rcases he with rfl | he
      · exact hx x List.mem_cons_self
      · exact ih _ (fun e he => hx e (List.mem_cons_of_mem _ he)) e he
  have hok : ∀ e ∈ (ns.map fixDiscr).map (·.elem), ElemOk e := by
    intro e hx
    rw [List.map_map] at hx
    obtain ⟨n, hn, rfl⟩ := List.mem_map.mp hx
    have : ElemOk n.elem := by
      refine hass 0 es.reverse (fun e he => ho e (List.mem_reverse.mp he)) _ ?_
      rw [← hel, ← he]; exact List.mem_map_of_mem hn
    unfold ElemOk at this ⊢
    simp only [Function.comp]
    unfold fixDiscr
    cases hb : n.elem.body <;> simp_all
  have hA : assignOffsets 0 ((ns.map fixDiscr).map (·.elem)) = (ns.map fixDiscr).map (·.elem) :=
    assign_fix ns es.reverse 0 (he.trans hel)
  have htot : total ((ns.map fixDiscr).map (·.elem)) = G.d.nLayers := by
    rw [hd, hdim]
    show total _ = total es.reverse
    rw [total_eq, total_eq, ← nLayersOf_assign es.reverse 0, ← hel, ← he, List.map_map, List.map_map, List.map_map]
    congr 2; funext n; exact nLayersOf_fix n
  have := foldl_flp _ hok
  rw [hA, htot] at this
  unfold fillFloorplans
  rw [this, List.flatMap_map]

theorem FromStack.flpsEq (hf : FromStack d0 decl rs ns G) : bare G.flps = bare ((ns.map fixDiscr).flatMap fun n => blockFlp n.elem.body) := by
  obtain ⟨p, -, -, -, -, -, hfl, -⟩ := hf.spec
  rw [hfl, hf.filledFlps]

theorem bare_isSome (fl : List (Option (List (FEl K)))) : (bare fl).map Option.isSome = fl.map Option.isSome := by
  unfold bare
  rw [List.map_map]
  refine List.map_congr_left fun o _ => ?_
  cases o <;> rfl

theorem bare_length (fl : List (Option (List (FEl K)))) : (bare fl).length = fl.length := by unfold bare; simp

theorem FromStack.flpsSome (hf : FromStack d0 decl rs ns G) :
    G.flps.map Option.isSome = ((ns.map fixDiscr).flatMap fun n => blockFlp n.elem.body).map Option.isSome := by
  rw [← bare_isSome, hf.flpsEq, bare_isSome]

theorem FromStack.flpsLength (hf : FromStack d0 decl rs ns G) :
    G.flps.length = ((ns.map fixDiscr).flatMap fun n => blockFlp n.elem.body).length := by
  rw [← bare_length, hf.flpsEq, bare_length]

/-- Two elements that differ by the power values only. -/
theorem bare_get {fl fl' : List (Option (List (FEl K)))} (h : bare fl = bare fl') {l : Nat} {es : List (FEl K)} (he : fl[l]? = some (some es)) :
    ∃ es', fl'[l]? = some (some es') ∧ es.map (fun e => { e with powers := [] }) = es'.map fun e => { e with powers := [] } := by
  have := congrArg (fun x => x[l]?) h
  simp only [bare, List.getElem?_map, he, Option.map_some] at this
  cases h' : fl'[l]? with
  | none => rw [h'] at this; simp at this
  | some o =>
    cases o with
    | none => rw [h'] at this; simp at this
    | some es' => rw [h'] at this; exact ⟨es', rfl, by simpa using this⟩

theorem shares_length_bare {es es' : List (FEl K)} (h : es.map (fun e => { e with powers := [] }) = es'.map fun e => { e with powers := [] }) :
    (shares es).length = (shares es').length := by
  have key : ∀ es : List (FEl K), (shares es).length = ((es.map fun e => ({ e with powers := [] } : FEl K)).map fun e => e.dx * e.dy).sum := by
    intro es
    unfold shares
    rw [List.length_flatMap, List.map_map]
    congr 1
    exact List.map_congr_left fun e _ => by simp
  rw [key, key, h]

theorem FromFile.flpsEq (hf : FromFile d0 rs ns G) : G.flps = (ns.map fixDiscr).flatMap fun n => blockFlp n.elem.body := by
  obtain ⟨p, -, -, -, -, -, hfl⟩ := hf.spec
  rw [hfl, hf.stack.filledFlps]

/-- The cells of the layer of a floorplan. -/
theorem FromStack.flpCells (hf : FromStack d0 decl rs ns G) {l : Nat} {es : List (FEl K)} (h : G.flps[l]? = some (some es)) :
    ∃ n ∈ ns, ∃ b, (fixDiscr n).elem.body = .die b ∧ b.flp.map (fun e => { e with powers := [] }) = es.map (fun e => { e with powers := [] }) ∧
      ∃ c, c + b.srcOff = l ∧ G.ls[l]? = some (dieLayer (fixDiscr n) b c b.srcOff) := by
  obtain ⟨p, -, -, -, -, hl, -⟩ := hf.spec
  obtain ⟨es', h', hes⟩ := bare_get hf.flpsEq h
  obtain ⟨n, hn, b, h1, h2, c, h3, h4⟩ := flp_cells (d := G.d) (cur := 0) h'
  obtain ⟨m, hm, rfl⟩ := List.mem_map.mp hn
  refine ⟨m, hm, b, h1, by rw [h2, hes], c, by omega, ?_⟩
  rw [hl]
  unfold layersOf
  simp only
  rw [List.getElem?_append_left (List.getElem?_eq_some_iff.mp h4).1]
  exact h4

/-! ### The loop -/

/-- Heat entering a cell from the ambient at both sinks, as added by the program. -/
def sinkPart (G : Grid K) (c : Cell K) : K :=
  (match G.g.top with
    | some (.ambient s) => if c.layer + 1 = G.d.nLayers then s.tAmb * topSeries G.g G.d (ownMat G c).kz c else 0
    | _ => 0) +
  (match G.g.bottom with
    | some s => if c.layer = 0 then s.tAmb * ((ownMat G c).kz * c.length * c.width / (height G.d 0 / 2)) else 0
    | none => 0)

/-- Types of layers of coolant. -/
def coolantType : LType → Bool
  | .ch4rm | .ch2rm | .pfInline | .pfStag => true
  | _ => false

/-- Types of the walls of a channel. -/
def wallType : LType → Bool
  | .vwallCh | .vwallPf | .topWall | .bottomWall => true
  | _ => false

/-- Power, or heat of the inlet, entering the cells of a layer. -/
def powerPart (G : Grid K) (l : Nat) (lc : List (Cell K)) : List K :=
  match G.flps[l]? with
  | some (some es) => shares es
  | _ => if coolantType (typeAt G.g l) = true then (inlets G.g G.d l).map (·.getD 0) ++ List.replicate (lc.length - (inlets G.g G.d l).length) 0
    else List.replicate lc.length 0

theorem isSome_fix (n : NElem K) : (blockFlp (fixDiscr n).elem.body).map Option.isSome = (blockFlp n.elem.body).map Option.isSome := by
  unfold fixDiscr
  cases h : n.elem.body with
  | die b => simp [blockFlp, List.map_set]
  | layer ly => simp [h]
  | channel ch => simp [h]

/-- The type of a layer, and whether it carries a floorplan. -/
theorem FromFile.typeSpec (hf : FromFile d0 rs ns G) {l : Nat} (hl : l < G.d.nLayers) :
    ∃ t : LType, (t = .solid ∨ t = .source) ∧ (t = .source ↔ ∃ es, G.flps[l]? = some (some es)) ∧
      typeAt G.g l = (if l = 0 ∧ G.g.bottom.isSome then withBottom G.g.bottom t else if l = G.d.nLayers - 1 then withTop G.g.top t else t) := by
  obtain ⟨p, hb, he, hd, -⟩ := hf.spec
  obtain ⟨hn, -, -, -, hfl, -⟩ := C16_layers_match_file hb.ok hb.parse
  obtain ⟨-, -, -, -, -, hty⟩ := C18_sinks_change_only_outermost_layers hb.ok hb.parse hb.fill
  have hl' : l < (stackTypes (none : Option (Channel K)) rs).length := by rw [← hn, ← hd]; exact hl
  have hget := List.getElem?_eq_getElem hl'
  have e := typeAt_of_get (hty l _ hget)
  refine ⟨(stackTypes (none : Option (Channel K)) rs)[l], ?_, ?_, by rw [e, hd]⟩
  · have := List.getElem_mem hl'
    generalize (stackTypes (none : Option (Channel K)) rs)[l] = t at this
    unfold stackTypes at this
    obtain ⟨r, _, hr⟩ := List.mem_flatMap.mp this
    unfold specTypes at hr
    cases hb : r.body with
    | die dd =>
      rw [hb] at hr
      simp only [List.mem_append, List.mem_map, List.mem_singleton] at hr
      rcases hr with (⟨_, _, rfl⟩ | rfl) | ⟨_, _, rfl⟩ <;> simp
    | layer ly => rw [hb] at hr; simp only [List.mem_singleton] at hr; subst hr; simp
    | channel => rw [hb] at hr; simp at hr
  · have h17 := C17_floorplans_only_in_source_layers hb.ok hb.parse l
    rw [hget] at h17
    simp only [Option.some.injEq] at h17
    rw [← h17]
    obtain ⟨es, m, hfa, -, -, -, -, -, hel, hdim, -⟩ := parseStack_spec hb.parse
    have ho : ∀ e ∈ es.reverse, ElemOk e := by
      intro e hx
      obtain ⟨r, _, hr⟩ := mem_forall₂_right hfa (List.mem_reverse.mp hx)
      exact (resolve_block hb.ok hr).1
    have h1 : fillFloorplans p.dims.nLayers p.elems = es.reverse.flatMap fun e => blockFlp e.body := by
      rw [hel, hdim]; exact foldl_flp _ ho
    have h2 : (es.reverse.flatMap fun e => blockFlp e.body) = ns.flatMap fun n => blockFlp n.elem.body := by
      have : ∀ (k : Nat) (xs : List (SElem K (List (FEl K)))), ((assignOffsets k xs).flatMap fun e => blockFlp e.body) = xs.flatMap fun e => blockFlp e.body := by
        intro k xs
        induction xs generalizing k with
        | nil => rfl
        | cons x xs ih => rw [assignOffsets, List.flatMap_cons, List.flatMap_cons, ih]
      rw [← this 0, ← hel, ← he, List.flatMap_map]
    have h3 : (G.flps.map Option.isSome) = (fillFloorplans p.dims.nLayers p.elems).map Option.isSome := by
      rw [h1, h2, hf.stack.flpsSome, List.map_flatMap, List.map_flatMap, List.flatMap_map]
      congr 1; funext n; exact isSome_fix n
    have key : ∀ (xs : List (Option (List (FEl K)))), (∃ f, xs[l]? = some (some f)) ↔ (xs.map Option.isSome)[l]? = some true := by
      intro xs
      rw [List.getElem?_map]
      cases h : xs[l]? with
      | none => simp
      | some o => cases o <;> simp
    rw [key, key, h3]

theorem typeSpec_types {t : LType} (ht : t = .solid ∨ t = .source) :
    (∀ b : Sink K, isSource (withBottom (some b) t) = decide (t = .source)) ∧ (∀ x : TopSink K, isSource (withTop (some x) t) = decide (t = .source)) ∧
      isSource t = decide (t = .source) := by
  rcases ht with rfl | rfl
  · refine ⟨fun b => rfl, fun x => ?_, rfl⟩; cases x <;> rfl
  · refine ⟨fun b => rfl, fun x => ?_, rfl⟩; cases x <;> rfl

theorem zip_zero (xs : List K) : List.zipWith (· + ·) xs (List.replicate xs.length 0) = xs := by
  induction xs with
  | nil => rfl
  | cons x xs ih => rw [List.length_cons, List.replicate_succ, List.zipWith_cons_cons, ih, add_zero]

/-- What the loop needs to know about the grid. -/
structure Laid (G : Grid K) : Prop where
  layered : Layered G.ls
  wf : WF G.g G.d
  layers : G.ls.length = G.d.nLayers + (match G.g.top with | some (.pluggable _ _) => 1 | _ => 0)
  top : (∃ s, G.g.top = some (.ambient s)) ∨ ∃ s m, G.g.top = some (.pluggable s m)
  two : G.g.bottom.isSome = true → 1 < G.d.nLayers
  flp : ∀ {l : Nat} {es : List (FEl K)}, G.flps[l]? = some (some es) → ∃ lc, G.ls[l]? = some lc ∧ lc.length = (shares es).length
  type : ∀ {l : Nat}, l < G.d.nLayers →
    (∃ t : LType, (t = .solid ∨ t = .source) ∧ (t = .source ↔ ∃ es, G.flps[l]? = some (some es)) ∧
      typeAt G.g l = (if l = 0 ∧ G.g.bottom.isSome then withBottom G.g.bottom t else if l = G.d.nLayers - 1 then withTop G.g.top t else t)) ∨
    (0 < l ∧ l + 1 < G.d.nLayers ∧ (∀ es, G.flps[l]? ≠ some (some es)) ∧
      (wallType (typeAt G.g l) = true ∨ coolantType (typeAt G.g l) = true ∧ ∀ lc, G.ls[l]? = some lc → (inlets G.g G.d l).length ≤ lc.length))

theorem FromStack.two (hf : FromStack d0 decl rs ns G) (hbs : G.g.bottom.isSome = true) : 1 < G.d.nLayers := by
  by_contra hh
  have hone := hf.wf.L1
  obtain ⟨p, hbf, -, hd, -⟩ := hf.spec
  have : fillGrid p.dims.nLayers p.elems G.g.top G.g.bottom = none := by
    rw [C18_refused_iff hbf.ok hbf.parse]
    left
    refine ⟨?_, hbs, by rw [← hd]; omega⟩
    rcases hf.top with ⟨s, e⟩ | ⟨s, m, e⟩ <;> rw [e] <;> rfl
  rw [hbf.fill] at this; cases this

theorem FromStack.flp (hf : FromStack d0 decl rs ns G) {l : Nat} {es : List (FEl K)} (h : G.flps[l]? = some (some es)) :
    ∃ lc, G.ls[l]? = some lc ∧ lc.length = (shares es).length := by
  obtain ⟨n, hn, b, hb, hes, c, hc, hcell⟩ := hf.flpCells h
  exact ⟨_, hcell, (dieLayer_length hb _ _).trans (shares_length_bare hes)⟩

theorem FromFile.laid (hf : FromFile d0 rs ns G) : Laid G :=
  ⟨hf.layered, hf.wf, hf.layers, hf.top, hf.stack.two, fun h => hf.stack.flp h, fun hl => Or.inl (hf.typeSpec hl)⟩

/-- Every layer has cells. -/
def Full (G : Grid K) : Prop := ∀ lc ∈ G.ls, lc ≠ []

theorem topTcs_eq (hf : Laid G) (hfull : Full G) {s : Sink K} (ht : G.g.top = some (.ambient s)) {lc : List (Cell K)}
    (hlc : G.ls[G.d.nLayers - 1]? = some lc)
    (hty : typeAt G.g (G.d.nLayers - 1) = .solidAmb ∨ typeAt G.g (G.d.nLayers - 1) = .sourceAmb) :
    topTcsNU G.g G.d G.ls.flatten = lc.map fun c => topSeries G.g G.d (ownMat G c).kz c := by
  have hL := hf.layered
  have hlen := hf.layers
  rw [ht] at hlen
  simp only [Nat.add_zero] at hlen
  have hpos := hf.wf.L1
  have htop := topLayer_eq hL (n := G.d.nLayers - 1) (by omega) hlc (hfull lc (List.mem_of_getElem? hlc))
  unfold topTcsNU
  rw [htop, filter_layer hL hlc, hf.wf.nl, ht]
  refine List.map_congr_left fun c hc => ?_
  have hcl := hL _ _ hlc c hc
  unfold ownMat condZ
  rw [hcl]
  rcases hty with e | e
  · rw [e]; rfl
  · rw [e]; rfl

theorem botTcs_eq (hf : Laid G) (hfull : Full G) {s : Sink K} (hb : G.g.bottom = some s) {lc : List (Cell K)}
    (hlc : G.ls[0]? = some lc) (hty : typeAt G.g 0 = .solidPcb ∨ typeAt G.g 0 = .sourcePcb) :
    botTcsNU G.g G.d G.ls.flatten = lc.map fun c => (ownMat G c).kz * c.length * c.width / (height G.d 0 / 2) := by
  have hL := hf.layered
  unfold botTcsNU
  rw [firstLayer_eq hL hlc (hfull lc (List.mem_of_getElem? hlc)), hb]
  refine List.map_congr_left fun c hc => ?_
  have hcl := hL _ _ hlc c hc
  unfold ownMat condZ
  rw [hcl]
  rcases hty with e | e
  · rw [e]; rfl
  · rw [e]; rfl

theorem addPowers_spec {l : Nat} {st st' : SrcSt K} (h : addPowers st l = some st') {pre mid post : List K} (hs : st.src = pre ++ mid ++ post)
    (hp : st.pos = pre.length) {es : List (FEl K)} (he : st.flps.getD l none = some es) (hm : (shares es).length = mid.length) :
    st'.src = pre ++ List.zipWith (· + ·) mid (shares es) ++ post ∧ st'.pos = st.pos ∧
      st'.flps = st.flps.set l (some (es.map fun e => { e with powers := e.powers.tail })) := by
  unfold addPowers at h
  rw [he] at h
  simp only [Option.map_eq_some_iff] at h
  obtain ⟨r, hr, rfl⟩ := h
  obtain ⟨h1, h2, -⟩ := popPowers_spec hr
  refine ⟨?_, rfl, ?_⟩
  · simp only
    rw [hs, hp, h1, addFrom_spec _ _ _ _ hm]
  · simp only
    rw [h2]

theorem solid_not_coolant (hf : Laid G) {l : Nat} {t : LType} (ht : t = .solid ∨ t = .source)
    (hty : typeAt G.g l = (if l = 0 ∧ G.g.bottom.isSome then withBottom G.g.bottom t else if l = G.d.nLayers - 1 then withTop G.g.top t else t)) :
    coolantType (typeAt G.g l) = false := by
  rw [hty]
  rcases ht with rfl | rfl
  · split_ifs with c0 c1
    · obtain ⟨b, hb⟩ := Option.isSome_iff_exists.mp c0.2
      rw [hb]; rfl
    · rcases hf.top with ⟨s, e⟩ | ⟨s, m, e⟩ <;> rw [e] <;> rfl
    · rfl
  · split_ifs with c0 c1
    · obtain ⟨b, hb⟩ := Option.isSome_iff_exists.mp c0.2
      rw [hb]; rfl
    · rcases hf.top with ⟨s, e⟩ | ⟨s, m, e⟩ <;> rw [e] <;> rfl
    · rfl

theorem setFrom_zero : ∀ (vs : List (Option K)) (pre : List K) (k : Nat), vs.length ≤ k →
    setFrom (pre ++ List.replicate k 0) pre.length vs = pre ++ vs.map (·.getD 0) ++ List.replicate (k - vs.length) 0
  | [], pre, k, _ => by simp [setFrom]
  | v :: vs, pre, k, h => by
    obtain ⟨k', rfl⟩ : ∃ k', k = k' + 1 := ⟨k - 1, by simp at h; omega⟩
    have key : ∀ x : K, setFrom ((pre ++ [x]) ++ List.replicate k' 0) (pre.length + 1) vs =
        pre ++ (x :: vs.map (·.getD 0)) ++ List.replicate (k' - vs.length) 0 := by
      intro x
      have := setFrom_zero vs (pre ++ [x]) k' (by simpa using h)
      rw [List.length_append, List.length_singleton] at this
      rw [this]; simp
    have hk : k' + 1 - (v :: vs).length = k' - vs.length := by simp
    rw [hk]
    cases v with
    | none =>
      rw [setFrom]
      have := key 0
      rw [List.append_assoc] at this
      simpa [List.replicate_succ] using this
    | some v =>
      rw [setFrom]
      have e : (pre ++ List.replicate (k' + 1) (0 : K)).set pre.length v = (pre ++ [v]) ++ List.replicate k' 0 := by
        rw [List.set_append_right _ _ (le_refl _), List.replicate_succ]; simp
      rw [e, key v]; simp

/-- A layer of a channel. -/
theorem chanLayer_spec (hf : Laid G) {l : Nat} (h0 : 0 < l) (h1 : l + 1 < G.d.nLayers) (hno : ∀ es, G.flps[l]? ≠ some (some es))
    (hw : wallType (typeAt G.g l) = true ∨ coolantType (typeAt G.g l) = true ∧ ∀ lc, G.ls[l]? = some lc → (inlets G.g G.d l).length ≤ lc.length) {lc : List (Cell K)}
    (hlc : G.ls[l]? = some lc) {done : List K} {fl : List (Option (List (FEl K)))} {k : Nat} (hpos : done.length = start G.ls l)
    (hk : lc.length ≤ k) (hfl : fl.getD l none = G.flps.getD l none) (hcs : done.length + k = G.ls.flatten.length) {st' : SrcSt K}
    (h : srcLayer G.g G.d G.ls.flatten ⟨done ++ List.replicate k 0, done.length, fl⟩ l = some st') :
    st'.src = done ++ List.zipWith (· + ·) (lc.map (sinkPart G)) (powerPart G l lc) ++ List.replicate (k - lc.length) 0 ∧
      st'.pos = done.length + lc.length ∧
      st'.flps = (match G.flps[l]? with
        | some (some es) => fl.set l (some (es.map fun e => { e with powers := e.powers.tail }))
        | _ => fl) := by
  have hL := hf.layered
  have hlay : ∀ c ∈ lc, c.layer = l := hL l lc hlc
  have hcells : layerCells G.ls.flatten done.length l = lc := by rw [hpos]; exact layerCells_eq hL hlc
  have hsink : lc.map (sinkPart G) = List.replicate lc.length 0 := by
    rw [List.eq_replicate_iff]; refine ⟨by simp, ?_⟩
    intro x hx; obtain ⟨c, hc, rfl⟩ := List.mem_map.mp hx
    have hb : (match G.g.bottom with
        | some s => if c.layer = 0 then s.tAmb * ((ownMat G c).kz * c.length * c.width / (height G.d 0 / 2)) else 0
        | none => (0 : K)) = 0 := by
      cases G.g.bottom with
      | none => rfl
      | some b => simp only; rw [hlay c hc, if_neg (by omega)]
    unfold sinkPart
    rw [hb, add_zero]
    rcases hf.top with ⟨s, e⟩ | ⟨s, m, e⟩
    · rw [e]; simp only; rw [hlay c hc, if_neg (by omega)]
    · rw [e]
  have hflps : (match G.flps[l]? with
        | some (some es) => fl.set l (some (es.map fun e => { e with powers := e.powers.tail }))
        | _ => fl) = fl := by
    split
    · rename_i es he; exact absurd he (hno es)
    · rfl
  have hzip : ∀ xs : List K, xs.length = lc.length → List.zipWith (· + ·) (List.replicate lc.length 0) xs = xs := by
    intro xs hx
    rw [← hx]; clear hx
    induction xs with
    | nil => rfl
    | cons x xs ih => rw [List.length_cons, List.replicate_succ, List.zipWith_cons_cons, ih, zero_add]
  have hpart : powerPart G l lc = if coolantType (typeAt G.g l) = true then (inlets G.g G.d l).map (·.getD 0) ++ List.replicate (lc.length - (inlets G.g G.d l).length) 0
      else List.replicate lc.length 0 := by
    unfold powerPart
    split
    · rename_i es he; exact absurd he (hno es)
    · rfl
  rw [hflps, hsink, hpart]
  have hrep : List.replicate k (0 : K) = List.replicate lc.length 0 ++ List.replicate (k - lc.length) 0 := by
    rw [List.replicate_append_replicate]; congr 1; omega
  rcases hw with hw | ⟨hw, hle⟩
  · have hnc : coolantType (typeAt G.g l) = false := by revert hw; cases typeAt G.g l <;> simp [wallType, coolantType]
    rw [hnc]
    simp only [Bool.false_eq_true, if_false]
    rw [hzip _ (by simp)]
    have hst : srcLayer G.g G.d G.ls.flatten ⟨done ++ List.replicate k 0, done.length, fl⟩ l =
        some ⟨done ++ List.replicate k 0, done.length + lc.length, fl⟩ := by
      have e2 : (some (⟨done ++ List.replicate k 0, done.length, fl⟩ : SrcSt K)).map
          (fun (st : SrcSt K) => { st with pos := st.pos + (layerCells G.ls.flatten st.pos l).length }) =
          some ⟨done ++ List.replicate k 0, done.length + lc.length, fl⟩ := by simp only [Option.map_some]; rw [hcells]
      rw [← e2]
      unfold srcLayer
      revert hw
      cases typeAt G.g l <;> simp [wallType]
    rw [hst] at h
    obtain rfl := Option.some.inj h
    refine ⟨?_, rfl, rfl⟩
    simp only
    rw [hrep, List.append_assoc]
  · have hle := hle lc hlc
    rw [if_pos hw]
    have hlen : ((inlets G.g G.d l).map (·.getD 0) ++ List.replicate (lc.length - (inlets G.g G.d l).length) (0 : K)).length = lc.length := by
      simp; omega
    rw [hzip _ hlen]
    have hst : srcLayer G.g G.d G.ls.flatten ⟨done ++ List.replicate k 0, done.length, fl⟩ l =
        some ⟨setFrom (done ++ List.replicate k 0) done.length (inlets G.g G.d l), done.length + lc.length, fl⟩ := by
      have e2 : (some (⟨setFrom (done ++ List.replicate k 0) done.length (inlets G.g G.d l), done.length, fl⟩ : SrcSt K)).map
          (fun (st : SrcSt K) => { st with pos := st.pos + (layerCells G.ls.flatten st.pos l).length }) =
          some ⟨setFrom (done ++ List.replicate k 0) done.length (inlets G.g G.d l), done.length + lc.length, fl⟩ := by
        simp only [Option.map_some]; rw [hcells]
      rw [← e2]
      unfold srcLayer
      revert hw
      cases typeAt G.g l <;> simp [coolantType]
    rw [hst] at h
    obtain rfl := Option.some.inj h
    refine ⟨?_, rfl, rfl⟩
    simp only
    rw [setFrom_zero _ _ _ (by omega)]
    simp only [List.append_assoc, List.replicate_append_replicate]
    congr 4; omega

/-- One layer of the loop. -/
theorem srcLayer_spec (hf : Laid G) (hfull : Full G) {l : Nat} (hl : l < G.d.nLayers) {lc : List (Cell K)}
    (hlc : G.ls[l]? = some lc) {done : List K} {fl : List (Option (List (FEl K)))} {k : Nat} (hpos : done.length = start G.ls l)
    (hk : lc.length ≤ k) (hfl : fl.getD l none = G.flps.getD l none) (hcs : done.length + k = G.ls.flatten.length) {st' : SrcSt K}
    (h : srcLayer G.g G.d G.ls.flatten ⟨done ++ List.replicate k 0, done.length, fl⟩ l = some st') :
    st'.src = done ++ List.zipWith (· + ·) (lc.map (sinkPart G)) (powerPart G l lc) ++ List.replicate (k - lc.length) 0 ∧
      st'.pos = done.length + lc.length ∧
      st'.flps = (match G.flps[l]? with
        | some (some es) => fl.set l (some (es.map fun e => { e with powers := e.powers.tail }))
        | _ => fl) := by
  rcases hf.type hl with ⟨t, ht, hts, hty⟩ | ⟨b1, b2, b3, b4⟩
  swap
  · exact chanLayer_spec hf b1 b2 b3 b4 hlc hpos hk hfl hcs h
  have hnc := solid_not_coolant hf ht hty
  have hL := hf.layered
  have hlay : ∀ c ∈ lc, c.layer = l := hL l lc hlc
  have hcells : layerCells G.ls.flatten done.length l = lc := by rw [hpos]; exact layerCells_eq hL hlc
  have hone := hf.wf.L1
  -- the state after the sink terms
  have key : ∀ st : SrcSt K, st.src = done ++ lc.map (sinkPart G) ++ List.replicate (k - lc.length) 0 → st.pos = done.length → st.flps = fl →
      ∀ st2, (if t = .source then addPowers st l else some st) = some st2 →
      st2.src = done ++ List.zipWith (· + ·) (lc.map (sinkPart G)) (powerPart G l lc) ++ List.replicate (k - lc.length) 0 ∧
      st2.pos = done.length ∧ st2.flps = (match G.flps[l]? with
        | some (some es) => fl.set l (some (es.map fun e => { e with powers := e.powers.tail }))
        | _ => fl) := by
    intro st h1 h2 h3 st2 h4
    by_cases hsrc : t = .source
    · rw [if_pos hsrc] at h4
      obtain ⟨es, hes⟩ := hts.mp hsrc
      have hgd : st.flps.getD l none = some es := by
        rw [h3, hfl, List.getD_eq_getElem?_getD, hes]; rfl
      have hlen : (shares es).length = (lc.map (sinkPart G)).length := by
        obtain ⟨lc', hcell, hlen'⟩ := hf.flp hes
        rw [hlc] at hcell
        rw [List.length_map, Option.some.inj hcell, hlen']
      obtain ⟨a1, a2, a3⟩ := addPowers_spec h4 h1 h2 hgd hlen
      refine ⟨?_, by rw [a2, h2], ?_⟩
      · rw [a1]; unfold powerPart; rw [hes]
      · rw [a3, h3, hes]
    · rw [if_neg hsrc] at h4
      obtain rfl := Option.some.inj h4
      have hno : ∀ es, G.flps[l]? ≠ some (some es) := fun es he => hsrc (hts.mpr ⟨es, he⟩)
      have hz : powerPart G l lc = List.replicate (lc.map (sinkPart G)).length 0 := by
        unfold powerPart
        rw [List.length_map]
        split
        · rename_i es he; exact absurd he (hno es)
        · rw [hnc]; rfl
      refine ⟨by rw [hz, zip_zero]; exact h1, h2, ?_⟩
      rw [h3]
      split
      · rename_i es he; exact absurd he (hno es)
      · rfl
  have fin : ∀ st : SrcSt K, (st.src = done ++ lc.map (sinkPart G) ++ List.replicate (k - lc.length) 0) → st.pos = done.length → st.flps = fl →
      srcLayer G.g G.d G.ls.flatten ⟨done ++ List.replicate k 0, done.length, fl⟩ l =
        (if t = .source then addPowers st l else some st).map
          (fun (st : SrcSt K) => { st with pos := st.pos + (layerCells G.ls.flatten st.pos l).length }) →
      st'.src = done ++ List.zipWith (· + ·) (lc.map (sinkPart G)) (powerPart G l lc) ++ List.replicate (k - lc.length) 0 ∧
      st'.pos = done.length + lc.length ∧
      st'.flps = (match G.flps[l]? with
        | some (some es) => fl.set l (some (es.map fun e => { e with powers := e.powers.tail }))
        | _ => fl) := by
    intro st h1 h2 h3 h4
    rw [h4, Option.map_eq_some_iff] at h
    obtain ⟨st2, h5, rfl⟩ := h
    obtain ⟨a1, a2, a3⟩ := key st h1 h2 h3 st2 h5
    refine ⟨a1, ?_, a3⟩
    simp only
    rw [a2, hcells]
  have hrest : G.ls.flatten.length - done.length = k := by omega
  by_cases c0 : l = 0 ∧ G.g.bottom.isSome
  · rw [if_pos c0] at hty
    obtain ⟨rfl, hbs⟩ := c0
    obtain ⟨b, hb⟩ := Option.isSome_iff_exists.mp hbs
    have hty' : typeAt G.g 0 = .solidPcb ∨ typeAt G.g 0 = .sourcePcb := by
      rw [hty, hb]; rcases ht with rfl | rfl
      · exact Or.inl rfl
      · exact Or.inr rfl
    have hn2 : ¬ (0 + 1 = G.d.nLayers) := by have := hf.two hbs; omega
    have hsink : ∀ c ∈ lc, sinkPart G c = b.tAmb * ((ownMat G c).kz * c.length * c.width / (height G.d 0 / 2)) := by
      intro c hc
      unfold sinkPart
      rw [hb, hlay c hc]
      simp only [if_true]
      rcases hf.top with ⟨s, e⟩ | ⟨s, m, e⟩
      · rw [e]; simp only; rw [if_neg hn2, zero_add]
      · rw [e]; simp only; rw [zero_add]
    refine fin ⟨done ++ lc.map (sinkPart G) ++ List.replicate (k - lc.length) 0, done.length, fl⟩ rfl rfl rfl ?_
    have hstage : addFrom (done ++ List.replicate k 0) done.length
        (((botTcsNU G.g G.d G.ls.flatten).take (layerCells G.ls.flatten done.length 0).length).map fun t => botTemp G.g * t) =
        done ++ lc.map (sinkPart G) ++ List.replicate (k - lc.length) 0 := by
      rw [hcells, botTcs_eq hf hfull hb hlc hty', List.take_of_length_le (by simp), List.map_map]
      have : (lc.map ((fun t => botTemp G.g * t) ∘ fun c => (ownMat G c).kz * c.length * c.width / (height G.d 0 / 2))) = lc.map (sinkPart G) := by
        refine List.map_congr_left fun c hc => ?_
        rw [hsink c hc]; simp only [Function.comp, botTemp, hb, Option.map_some, Option.getD_some]
      rw [this, addFrom_zero _ _ _ (by simpa using hk), List.length_map]
    unfold srcLayer
    simp only
    rw [hstage, hty, hb]
    rcases ht with rfl | rfl
    · rfl
    · rfl
  · rw [if_neg c0] at hty
    have hbot : ∀ c ∈ lc, (match G.g.bottom with
        | some s => if c.layer = 0 then s.tAmb * ((ownMat G c).kz * c.length * c.width / (height G.d 0 / 2)) else 0
        | none => (0 : K)) = 0 := by
      intro c hc
      cases hb : G.g.bottom with
      | none => rfl
      | some b =>
        simp only
        rw [if_neg]
        intro h0; rw [hlay c hc] at h0
        exact c0 ⟨h0, by rw [hb]; rfl⟩
    have hsink : ∀ c ∈ lc, sinkPart G c = (match G.g.top with
        | some (.ambient s) => if c.layer + 1 = G.d.nLayers then s.tAmb * topSeries G.g G.d (ownMat G c).kz c else 0
        | _ => 0) := by
      intro c hc
      unfold sinkPart
      rw [hbot c hc, add_zero]
    have hzero : (∀ c ∈ lc, sinkPart G c = 0) → done ++ List.replicate k (0 : K) = done ++ lc.map (sinkPart G) ++ List.replicate (k - lc.length) 0 := by
      intro hz
      have : lc.map (sinkPart G) = List.replicate lc.length 0 := by
        rw [List.eq_replicate_iff]; refine ⟨by simp, ?_⟩
        intro x hx; obtain ⟨c, hc, rfl⟩ := List.mem_map.mp hx; exact hz c hc
      rw [this, List.append_assoc, List.replicate_append_replicate]; congr 2; omega
    by_cases c1 : l = G.d.nLayers - 1
    · rw [if_pos c1] at hty
      rcases hf.top with ⟨s, e⟩ | ⟨s, m, e⟩
      · have hty' : typeAt G.g (G.d.nLayers - 1) = .solidAmb ∨ typeAt G.g (G.d.nLayers - 1) = .sourceAmb := by
          rw [← c1, hty, e]; rcases ht with rfl | rfl
          · exact Or.inl rfl
          · exact Or.inr rfl
        refine fin ⟨done ++ lc.map (sinkPart G) ++ List.replicate (k - lc.length) 0, done.length, fl⟩ rfl rfl rfl ?_
        have hstage : addFrom (done ++ List.replicate k 0) done.length
            (((topTcsNU G.g G.d G.ls.flatten).take (G.ls.flatten.length - done.length)).map fun t => topTemp G.g * t) =
            done ++ lc.map (sinkPart G) ++ List.replicate (k - lc.length) 0 := by
          rw [topTcs_eq hf hfull e (by rw [← c1]; exact hlc) hty', hrest, List.take_of_length_le (by simpa using hk), List.map_map]
          have : (lc.map ((fun t => topTemp G.g * t) ∘ fun c => topSeries G.g G.d (ownMat G c).kz c)) = lc.map (sinkPart G) := by
            refine List.map_congr_left fun c hc => ?_
            rw [hsink c hc, e]
            simp only [Function.comp, topTemp, e]
            rw [if_pos (by rw [hlay c hc]; omega)]
          rw [this, addFrom_zero _ _ _ (by simpa using hk), List.length_map]
        unfold srcLayer
        simp only
        rw [hstage, hty, e]
        rcases ht with rfl | rfl
        · rfl
        · rfl
      · have hz := hzero fun c hc => by rw [hsink c hc, e]
        refine fin ⟨done ++ List.replicate k 0, done.length, fl⟩ hz rfl rfl ?_
        unfold srcLayer
        simp only
        rw [hty, e]
        rcases ht with rfl | rfl
        · rfl
        · rfl
    · rw [if_neg c1] at hty
      have hz := hzero fun c hc => by
        rw [hsink c hc]
        rcases hf.top with ⟨s, e⟩ | ⟨s, m, e⟩
        · rw [e]; simp only; rw [if_neg]; rw [hlay c hc]; omega
        · rw [e]
      refine fin ⟨done ++ List.replicate k 0, done.length, fl⟩ hz rfl rfl ?_
      unfold srcLayer
      simp only
      rw [hty]
      rcases ht with rfl | rfl
      · rfl
      · rfl

/-- The source values of the first layers. -/
def expected (G : Grid K) (l : Nat) : List K :=
  (List.range l).flatMap fun k =>
    List.zipWith (· + ·) (((G.ls[k]?).getD []).map (sinkPart G)) (powerPart G k ((G.ls[k]?).getD []))

/-- Floorplans after one value of each element of the first layers was taken. -/
def taken (l : Nat) (fl : List (Option (List (FEl K)))) : List (Option (List (FEl K))) :=
  fl.mapIdx fun k o => if k < l then o.map fun es => es.map fun e => { e with powers := e.powers.tail } else o

theorem powerPart_length (hf : Laid G) {l : Nat} (hl : l < G.d.nLayers) {lc : List (Cell K)} (hlc : G.ls[l]? = some lc) :
    (powerPart G l lc).length = lc.length := by
  unfold powerPart
  split
  · rename_i es hes
    obtain ⟨lc', hcell, hlen'⟩ := hf.flp hes
    rw [hlc] at hcell
    rw [Option.some.inj hcell, hlen']
  · split_ifs with hc
    · rcases hf.type hl with ⟨t, ht, hts, hty⟩ | ⟨b1, b2, b3, b4⟩
      · rw [solid_not_coolant hf ht hty] at hc; cases hc
      · rcases b4 with b4 | ⟨-, b4⟩
        · revert hc b4; cases typeAt G.g l <;> simp [wallType, coolantType]
        · have := b4 lc hlc
          simp; omega
    · simp

theorem lsAt (hf : Laid G) {l : Nat} (hl : l < G.d.nLayers) : ∃ lc, G.ls[l]? = some lc := by
  have := hf.layers
  exact ⟨_, List.getElem?_eq_getElem (show l < G.ls.length by omega)⟩

theorem expected_succ (G : Grid K) {l : Nat} {lc : List (Cell K)} (hlc : G.ls[l]? = some lc) :
    expected G (l + 1) = expected G l ++ List.zipWith (· + ·) (lc.map (sinkPart G)) (powerPart G l lc) := by
  unfold expected
  rw [List.range_succ, List.flatMap_append, List.flatMap_singleton, hlc]; rfl

theorem expected_length (hf : Laid G) {l : Nat} (hl : l ≤ G.d.nLayers) : (expected G l).length = start G.ls l := by
  induction l with
  | zero => simp [expected, start]
  | succ l ih =>
    obtain ⟨lc, hlc⟩ := lsAt hf (show l < G.d.nLayers by omega)
    rw [expected_succ G hlc, List.length_append, ih (by omega), start_succ, hlc, List.length_zipWith, List.length_map, powerPart_length hf (by omega) hlc]
    simp

theorem taken_get (l k : Nat) (fl : List (Option (List (FEl K)))) (h : l ≤ k) : (taken l fl).getD k none = fl.getD k none := by
  unfold taken
  rw [List.getD_eq_getElem?_getD, List.getD_eq_getElem?_getD, List.getElem?_mapIdx]
  cases fl[k]? with
  | none => rfl
  | some o => simp only [Option.map_some, Option.getD_some]; rw [if_neg (by omega)]

theorem taken_succ (l : Nat) (fl : List (Option (List (FEl K)))) :
    taken (l + 1) fl = (match fl[l]? with
      | some (some es) => (taken l fl).set l (some (es.map fun e => { e with powers := e.powers.tail }))
      | _ => taken l fl) := by
  apply List.ext_getElem?
  intro k
  have hk : (taken (l + 1) fl)[k]? = (fl[k]?).map fun o => if k < l + 1 then o.map fun es => es.map fun e => { e with powers := e.powers.tail } else o := by
    unfold taken; rw [List.getElem?_mapIdx]
  have hk0 : (taken l fl)[k]? = (fl[k]?).map fun o => if k < l then o.map fun es => es.map fun e => { e with powers := e.powers.tail } else o := by
    unfold taken; rw [List.getElem?_mapIdx]
  rw [hk]
  have hlen : (taken l fl).length = fl.length := by unfold taken; simp
  by_cases hkl : k = l
  · subst hkl
    cases h : fl[k]? with
    | none => rw [hk0, h]; simp
    | some o =>
      cases o with
      | none => simp only; rw [hk0, h]; simp
      | some es =>
        simp only
        rw [List.getElem?_set_self (by rw [hlen]; exact (List.getElem?_eq_some_iff.mp h).1)]
        simp
  · have h1 : (k < l + 1) = (k < l) := by apply propext; omega
    simp only [h1]
    rw [← hk0]
    split
    · rw [List.getElem?_set_ne (by omega)]
    · rfl

theorem foldlM_range_succ {σ : Type} (f : σ → Nat → Option σ) (s : σ) (l : Nat) :
    (List.range (l + 1)).foldlM f s = ((List.range l).foldlM f s).bind fun st => f st l := by
  rw [List.range_succ, List.foldlM_append]
  cases h : List.foldlM f s (List.range l) with
  | none => rfl
  | some st => simp

theorem loop_spec (hf : Laid G) (hfull : Full G) {l : Nat} (hl : l ≤ G.d.nLayers) {st : SrcSt K}
    (h : (List.range l).foldlM (srcLayer G.g G.d G.ls.flatten) ⟨List.replicate G.ls.flatten.length 0, 0, G.flps⟩ = some st) :
    st = ⟨expected G l ++ List.replicate (G.ls.flatten.length - start G.ls l) 0, start G.ls l, taken l G.flps⟩ := by
  induction l generalizing st with
  | zero =>
    simp only [List.range_zero, List.foldlM_nil] at h
    obtain rfl := Option.some.inj h
    have : taken 0 G.flps = G.flps := by
      apply List.ext_getElem?
      intro k
      unfold taken
      rw [List.getElem?_mapIdx]
      cases G.flps[k]? <;> simp
    rw [this]; simp [expected, start]
  | succ l ih =>
    rw [foldlM_range_succ, Option.bind_eq_some_iff] at h
    obtain ⟨st0, h0, h1⟩ := h
    have e := ih (by omega) h0
    obtain ⟨lc, hlc⟩ := lsAt hf (show l < G.d.nLayers by omega)
    have hlen := expected_length hf (show l ≤ G.d.nLayers by omega)
    have hss : start G.ls (l + 1) = start G.ls l + lc.length := by rw [start_succ, hlc]; rfl
    have hle := start_le G.ls (l + 1)
    rw [e, ← hlen] at h1
    obtain ⟨a1, a2, a3⟩ := srcLayer_spec hf hfull (by omega) hlc hlen (by omega) (taken_get l l _ (le_refl _)) (by omega) h1
    have e1 : st.src = expected G (l + 1) ++ List.replicate (G.ls.flatten.length - start G.ls (l + 1)) 0 := by
      rw [a1, expected_succ G hlc, hss, hlen]
      congr 2; omega
    have e2 : st.pos = start G.ls (l + 1) := by rw [a2, hss, hlen]
    have e3 : st.flps = taken (l + 1) G.flps := by
      rw [a3, taken_succ]
    cases st; simp only at e1 e2 e3; rw [e1, e2, e3]

/-- Result of the program, whenever there is one. -/
theorem sources_eq (hf : Laid G) (hfull : Full G) {S : List K} {fl' : List (Option (List (FEl K)))}
    (h : sourcesNU G.g G.d G.cells G.flps = some (S, fl')) :
    S = expected G G.d.nLayers ++ List.replicate (G.ls.flatten.length - start G.ls G.d.nLayers) 0 ∧ fl' = taken G.d.nLayers G.flps := by
  unfold sourcesNU at h
  rw [Option.map_eq_some_iff, hf.wf.nl] at h
  obtain ⟨st, h1, h2⟩ := h
  have := loop_spec hf hfull (le_refl _) h1
  rw [this] at h2
  simp only [Prod.mk.injEq] at h2
  exact ⟨h2.1.symm, h2.2.symm⟩

theorem addPowers_isSome {st : SrcSt K} {l : Nat} {es : List (FEl K)} (h : st.flps.getD l none = some es) (he : ∀ e ∈ es, e.powers ≠ []) :
    (addPowers st l).isSome = true := by
  unfold addPowers
  obtain ⟨r, hr⟩ := popPowers_some he
  rw [h]; simp only; rw [hr]; rfl

theorem srcLayer_isSome (hf : Laid G) {l : Nat} (hl : l < G.d.nLayers)
    (hp : ∀ es, G.flps[l]? = some (some es) → ∀ e ∈ es, e.powers ≠ []) (cs : List (Cell K)) {st : SrcSt K}
    (hfl : st.flps.getD l none = G.flps.getD l none) : (srcLayer G.g G.d cs st l).isSome = true := by
  rcases hf.type hl with ⟨t, ht, hts, hty⟩ | ⟨-, -, -, b4⟩
  swap
  · unfold srcLayer
    simp only [Option.isSome_map]
    rcases b4 with b4 | ⟨b4, -⟩
    · revert b4; cases typeAt G.g l <;> simp [wallType]
    · revert b4; cases typeAt G.g l <;> simp [coolantType]
  have hadd : t = .source → ∀ st' : SrcSt K, st'.flps = st.flps → (addPowers st' l).isSome = true := by
    intro hsrc st' hst
    obtain ⟨es, hes⟩ := hts.mp hsrc
    refine addPowers_isSome (es := es) ?_ (hp es hes)
    rw [hst, hfl, List.getD_eq_getElem?_getD, hes]; rfl
  unfold srcLayer
  simp only [Option.isSome_map]
  rw [hty]
  rcases ht with rfl | rfl
  · split_ifs with c0 c1
    · obtain ⟨b, hb⟩ := Option.isSome_iff_exists.mp c0.2
      rw [hb]; rfl
    · rcases hf.top with ⟨s, e⟩ | ⟨s, m, e⟩ <;> rw [e] <;> rfl
    · rfl
  · split_ifs with c0 c1
    · obtain ⟨b, hb⟩ := Option.isSome_iff_exists.mp c0.2
      rw [hb]; exact hadd rfl _ rfl
    · rcases hf.top with ⟨s, e⟩ | ⟨s, m, e⟩
      · rw [e]; exact hadd rfl _ rfl
      · rw [e]; exact hadd rfl _ rfl
    · exact hadd rfl _ rfl

/-- There is a result when every element has a power value. -/
theorem sources_some (hf : Laid G) (hfull : Full G)
    (hp : ∀ (l : Nat) es, G.flps[l]? = some (some es) → ∀ e ∈ es, e.powers ≠ []) :
    ∃ r, sourcesNU G.g G.d G.cells G.flps = some r := by
  have : ∀ l, l ≤ G.d.nLayers → ∃ st,
      (List.range l).foldlM (srcLayer G.g G.d G.ls.flatten) ⟨List.replicate G.ls.flatten.length 0, 0, G.flps⟩ = some st := by
    intro l
    induction l with
    | zero => intro _; exact ⟨_, rfl⟩
    | succ l ih =>
      intro hl
      obtain ⟨st, hst⟩ := ih (by omega)
      have e := loop_spec hf hfull (by omega) hst
      rw [foldlM_range_succ, hst]
      simp only [Option.bind_some]
      refine Option.isSome_iff_exists.mp (srcLayer_isSome hf (by omega) (hp l) _ ?_)
      rw [e]; exact taken_get l l _ (le_refl _)
  obtain ⟨st, hst⟩ := this G.d.nLayers (le_refl _)
  refine ⟨(st.src, st.flps), ?_⟩
  unfold sourcesNU
  rw [hf.wf.nl]
  unfold Grid.cells
  rw [hst]; rfl

end

end Verif.NU
