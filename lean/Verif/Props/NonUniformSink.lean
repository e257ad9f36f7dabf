import Verif.Props.NonUniformSrc

set_option linter.unusedSectionVars false
set_option linter.unusedSimpArgs false
set_option linter.unusedVariables false

/-! # C45, C53: the bottom sink and the total power on a non-uniform grid -/

namespace Verif.NU
open Verif.Dim Verif.TG Verif.Stk Verif.SM

variable {K : Type} [Field K] [LinearOrder K] [IsStrictOrderedRing K]
variable {d0 : Dims K} {decl : Option (Channel K)} {rs : List (Raw K (List (FEl K)))} {ns : List (NElem K)} {G : Grid K} {a : Ana K} {m : Csc K}

/-- No element dissipates in the next step. -/
def NoPower (G : Grid K) : Prop := ∀ (l : Nat) es, G.flps[l]? = some (some es) → ∀ e ∈ es, nextPower e = 0

/-- The powers of the next step, all together. -/
def totalPower (G : Grid K) : K := (G.flps.map fun o => match o with
  | some es => (es.map nextPower).sum
  | none => 0).sum

/-! ## Proofs -/

/-- The position of a cell in its layer. -/
theorem locate (hf : FromStack d0 decl rs ns G) {i : Nat} {c : Cell K} (hc : G.cells[i]? = some c) {lc : List (Cell K)}
    (hlc : G.ls[c.layer]? = some lc) : firstCell G c.layer ≤ i ∧ i < firstCell G c.layer + lc.length := by
  have e : G.ls.flatten = (G.ls.take c.layer).flatten ++ (lc ++ (G.ls.drop (c.layer + 1)).flatten) := by
    have hlt := (List.getElem?_eq_some_iff.mp hlc).1
    conv_lhs => rw [← List.take_append_drop c.layer G.ls, List.flatten_append, List.drop_eq_getElem_cons hlt, List.flatten_cons]
    rw [(List.getElem?_eq_some_iff.mp hlc).2]
  have hfc : firstCell G c.layer = (G.ls.take c.layer).flatten.length := by rw [List.length_flatten]; rfl
  unfold Grid.cells at hc
  rw [e] at hc
  constructor
  · by_contra hlt2
    rw [List.getElem?_append_left (by omega)] at hc
    have := hf.layered.before c.layer c (List.mem_of_getElem? hc)
    omega
  · by_contra hge
    rw [List.getElem?_append_right (by omega), List.getElem?_append_right (by omega)] at hc
    have := hf.layered.after (c.layer + 1) c (List.mem_of_getElem? hc)
    omega

theorem powerPart_zero (hno : NoPower G) (l : Nat) (hnc : coolantType (typeAt G.g l) = false) (lc : List (Cell K)) (s : Nat) : ((powerPart G l lc)[s]?).getD 0 = (0 : K) := by
  have key : ∀ x ∈ powerPart G l lc, x = 0 := by
    unfold powerPart
    split
    · rename_i es he
      intro x hx
      unfold shares at hx
      obtain ⟨e, hee, hx⟩ := List.mem_flatMap.mp hx
      have h1 := (List.mem_replicate.mp hx).2
      have h2 := hno l es he e hee
      unfold nextPower at h2
      rw [h1, h2, zero_div]
    · rw [hnc]; intro x hx; exact (List.mem_replicate.mp hx).2
  cases h : (powerPart G l lc)[s]? with
  | none => rfl
  | some x => exact key x (List.mem_of_getElem? h)

theorem FromFile.dry (hf : FromFile d0 rs ns G) {l : Nat} (hl : l < G.d.nLayers) : coolantType (typeAt G.g l) = false := by
  have := hf.types hl
  revert this; cases typeAt G.g l <;> simp [solidish, coolantType]

theorem source_nopower (hs : FromStack d0 decl rs ns G) (hf : Laid G) (ph : PhysicalNU G) (hfull : Full G) (hno : NoPower G) {S : List K}
    {fl' : List (Option (List (FEl K)))} (h : sourcesNU G.g G.d G.cells G.flps = some (S, fl')) {i : Nat} {c : Cell K}
    (hc : G.cells[i]? = some c) (hlt : c.layer < G.d.nLayers) (hnc : coolantType (typeAt G.g c.layer) = false) : S[i]? = some (fromSinks G c) := by
  obtain ⟨lc, hlc⟩ := lsAt hf hlt
  have hpos := locate hs hc hlc
  obtain ⟨h1, h2⟩ := source_at hf ph hfull h hlt hlc (s := i - firstCell G c.layer) (by omega)
  have hadd : firstCell G c.layer + (i - firstCell G c.layer) = i := by omega
  rw [hadd] at h1 h2
  rw [hc] at h2
  rw [← Option.some.inj h2] at h1
  rw [h1, powerPart_zero hno _ hnc, add_zero]

theorem below_top (hf : FromStack d0 decl rs ns G) {s : Sink K} (ht : G.g.top = some (.ambient s)) {c : Cell K} (hc : c ∈ G.cells) :
    c.layer < G.d.nLayers := by
  obtain ⟨lc, hlc, hmem⟩ := List.mem_flatten.mp hc
  obtain ⟨k, hk⟩ := List.mem_iff_getElem?.mp hlc
  have h1 := hf.layered k lc hk c hmem
  have h2 := (List.getElem?_eq_some_iff.mp hk).1
  have h3 := hf.layers
  rw [ht] at h3
  simp only at h3
  omega

/-- What a uniform temperature leaves unbalanced in the equation of a cell. -/
theorem residue (hf : FromFile d0 rs ns G) (ph : PhysicalNU G) (hfull : Full G) (hm : Assembled id G a m) (hno : NoPower G) {T : K}
    {s : Sink K} (ht : G.g.top = some (.ambient s)) (hsT : s.tAmb = T) {S : List K}
    {fl' : List (Option (List (FEl K)))} (h : sourcesNU G.g G.d G.cells G.flps = some (S, fl')) (i : Nat) (hi : i < G.cells.length) :
    storage a (heatCapacity G G.cells[i]) * T + S.getD i 0 - ∑ j ∈ Finset.range G.cells.length, m.entry i j * T =
      (match G.g.bottom with
       | some b => if G.cells[i].layer = 0 then b.tAmb * toBottomFace G G.cells[i] else 0
       | none => 0) := by
  rw [← Finset.sum_mul, C44_row_sums hf ph hm i hi, List.getD_eq_getElem?_getD,
    source_nopower hf.stack hf.laid ph hfull hno h (List.getElem?_eq_getElem hi) (below_top hf.stack ht (List.getElem_mem hi))
      (hf.dry (below_top hf.stack ht (List.getElem_mem hi)))]
  simp only [Option.getD_some, fromSinks, ht]
  rw [hsT]
  cases G.g.bottom with
  | none => simp only; ring
  | some b => simp only; split_ifs <;> ring

theorem bottomFace_pos (hf : FromFile d0 rs ns G) (ph : PhysicalNU G) {c : Cell K} (hc : c ∈ G.cells) (hl : c.layer < G.d.nLayers) :
    0 < toBottomFace G c := by
  obtain ⟨h1, h2⟩ := ph.cell c hc
  have h3 := heightAt_pos hf.wf ph.hts hl
  have h4 := (ph.mat c hc hl).2.2.1
  unfold toBottomFace area
  positivity

/-! ## C45 -/

/-- The property is false of every stack with a bottom sink: without power, with both ambients and all cells at the same
temperature `T > 0`, each cell of the bottom layer receives heat, `T` times the conductance between the cell and its lower face;
the uniform temperature is a solution neither of a time step nor of the steady state. The source vector has the term of the
bottom sink (without its heat transfer coefficient), the matrix has none. -/
theorem C45_violated (hf : FromFile d0 rs ns G) (ph : PhysicalNU G) (hfull : Full G) (hm : Assembled id G a m) (hno : NoPower G) {T : K}
    (hT : 0 < T) {s b : Sink K} (ht : G.g.top = some (.ambient s)) (hb : G.g.bottom = some b) (hsT : s.tAmb = T) (hbT : b.tAmb = T)
    {S : List K} {fl' : List (Option (List (FEl K)))} (h : sourcesNU G.g G.d G.cells G.flps = some (S, fl')) :
    (∀ (i : Nat) (hi : i < G.cells.length), G.cells[i].layer = 0 →
      storage a (heatCapacity G G.cells[i]) * T + S.getD i 0 - ∑ j ∈ Finset.range G.cells.length, m.entry i j * T =
        T * toBottomFace G G.cells[i] ∧ 0 < T * toBottomFace G G.cells[i]) ∧
    ¬ Solves G.cells.length m.entry (fun _ => T)
      (fun i => storage a ((G.cells[i]?).elim 0 (heatCapacity G)) * T + S.getD i 0) := by
  have key : ∀ (i : Nat) (hi : i < G.cells.length), G.cells[i].layer = 0 →
      storage a (heatCapacity G G.cells[i]) * T + S.getD i 0 - ∑ j ∈ Finset.range G.cells.length, m.entry i j * T =
        T * toBottomFace G G.cells[i] ∧ 0 < T * toBottomFace G G.cells[i] := by
    intro i hi h0
    refine ⟨?_, mul_pos hT (bottomFace_pos hf ph (List.getElem_mem hi) (below_top hf.stack ht (List.getElem_mem hi)))⟩
    rw [residue hf ph hfull hm hno ht hsT h i hi, hb]
    simp only [h0, if_true, hbT]
  refine ⟨key, ?_⟩
  intro hsol
  obtain ⟨lc, hlc⟩ := lsAt hf.laid hf.wf.L1
  have hlne := hfull lc (List.mem_of_getElem? hlc)
  obtain ⟨-, h2⟩ := source_at hf.laid ph hfull h hf.wf.L1 hlc (List.length_pos_of_ne_nil hlne)
  obtain ⟨hi, hget⟩ := List.getElem?_eq_some_iff.mp h2
  have h0 := hf.layered 0 lc hlc _ (List.getElem_mem (List.length_pos_of_ne_nil hlne))
  rw [← hget] at h0
  obtain ⟨k1, k2⟩ := key _ hi h0
  have k3 := hsol _ hi
  simp only at k3
  rw [List.getElem?_eq_getElem hi] at k3
  simp only [Option.elim_some] at k3
  rw [k3, sub_self] at k1
  rw [← k1] at k2
  exact lt_irrefl _ k2

/-- Without a bottom sink the uniform ambient temperature is an equilibrium of the steady state and of every time step. -/
theorem C45_without_bottom_partial (hf : FromFile d0 rs ns G) (ph : PhysicalNU G) (hfull : Full G) (hm : Assembled id G a m) (hno : NoPower G) {T : K}
    {s : Sink K} (ht : G.g.top = some (.ambient s)) (hb : G.g.bottom = none) (hsT : s.tAmb = T)
    {S : List K} {fl' : List (Option (List (FEl K)))} (h : sourcesNU G.g G.d G.cells G.flps = some (S, fl')) :
    Solves G.cells.length m.entry (fun _ => T)
      (fun i => storage a ((G.cells[i]?).elim 0 (heatCapacity G)) * T + S.getD i 0) := by
  intro i hi
  have := residue hf ph hfull hm hno ht hsT h i hi
  rw [hb] at this
  simp only
  rw [List.getElem?_eq_getElem hi]
  simp only [Option.elim_some]
  simp only at this
  linarith

/-! ## C53: total power -/

theorem sum_zip : ∀ (xs ys : List K), xs.length = ys.length → (List.zipWith (· + ·) xs ys).sum = xs.sum + ys.sum
  | [], [], _ => by simp
  | x :: xs, y :: ys, h => by
    rw [List.zipWith_cons_cons, List.sum_cons, List.sum_cons, List.sum_cons, sum_zip xs ys (by simpa using h)]; ring

theorem shares_sum : ∀ (es : List (FEl K)), (∀ e ∈ es, e.dx * e.dy ≠ 0) → (shares es).sum = (es.map nextPower).sum
  | [], _ => rfl
  | e :: es, h => by
    have h1 : ((e.dx * e.dy : Nat) : K) ≠ 0 := by exact_mod_cast h e List.mem_cons_self
    have ih := shares_sum es fun x hx => h x (List.mem_cons_of_mem _ hx)
    unfold shares at ih ⊢
    rw [List.flatMap_cons, List.sum_append, ih, List.map_cons, List.sum_cons, List.sum_replicate, nsmul_eq_mul]
    congr 1
    unfold nextPower
    field_simp

theorem sum_take_layers (G : Grid K) (f : Cell K → K) : ∀ n, n ≤ G.ls.length →
    (((List.range n).map fun k => (((G.ls[k]?).getD []).map f).sum).sum) = (((G.ls.take n).flatten).map f).sum
  | 0, _ => by simp
  | n + 1, h => by
    rw [List.range_succ, List.map_append, List.sum_append, sum_take_layers G f n (by omega), List.take_succ, List.flatten_append,
      List.map_append, List.sum_append]
    simp
    rw [List.getElem?_eq_getElem (by omega)]
    simp

theorem flps_length (hf : FromStack d0 decl rs ns G) : G.flps.length = G.d.nLayers := by
  rw [← hf.nLayers, hf.flpsLength, stackLayers_length _ _ _, List.length_flatMap]
  congr 1
  refine List.map_congr_left fun x _ => ?_
  unfold nLayersOf; cases hb : x.elem.body <;> simp [blockFlp, hb]

/-- Heat of the inlets of a layer. -/
def inletSum (G : Grid K) (l : Nat) : K := if coolantType (typeAt G.g l) = true then ((inlets G.g G.d l).map (·.getD 0)).sum else 0

theorem powers_sum (hc : ∀ (l : Nat) es, G.flps[l]? = some (some es) → coolantType (typeAt G.g l) = false) (hd : ∀ (l : Nat) es, G.flps[l]? = some (some es) → ∀ e ∈ es, e.dx * e.dy ≠ 0) : ∀ n, n ≤ G.flps.length →
    (((List.range n).map fun k => (powerPart G k ((G.ls[k]?).getD [])).sum).sum) = ((G.flps.take n).map fun o => match o with
      | some es => (es.map nextPower).sum
      | none => 0).sum + ((List.range n).map (inletSum G)).sum
  | 0, _ => by simp
  | n + 1, h => by
    rw [List.range_succ, List.map_append, List.sum_append, powers_sum hc hd n (by omega), List.take_succ, List.map_append, List.sum_append,
      List.map_append, List.sum_append]
    rw [add_add_add_comm]
    congr 1
    have hn : n < G.flps.length := by omega
    rw [List.getElem?_eq_getElem hn]
    simp only [List.map_cons, List.map_nil, List.sum_cons, List.sum_nil, add_zero, Option.toList_some]
    cases ho : G.flps[n] with
    | none =>
      unfold powerPart inletSum
      rw [List.getElem?_eq_getElem hn, ho]
      simp only [zero_add]
      split_ifs with hcc
      · rw [List.sum_append, List.sum_replicate, smul_zero, add_zero]
      · rw [List.sum_replicate, smul_zero]
    | some es =>
      have hes : G.flps[n]? = some (some es) := by rw [List.getElem?_eq_getElem hn, ho]
      have : powerPart G n ((G.ls[n]?).getD []) = shares es := by unfold powerPart; rw [hes]
      have hz : inletSum G n = 0 := by unfold inletSum; rw [hc n es hes]; rfl
      rw [this, shares_sum es (hd n es hes), hz, add_zero]

/-- Sum of the sources. -/
theorem total_sources (hs : FromStack d0 decl rs ns G) (hf : Laid G) (ph : PhysicalNU G) (hfull : Full G)
    (hd : ∀ (l : Nat) es, G.flps[l]? = some (some es) → ∀ e ∈ es, e.dx * e.dy ≠ 0) {S : List K}
    {fl' : List (Option (List (FEl K)))} (h : sourcesNU G.g G.d G.cells G.flps = some (S, fl')) :
    S.sum = totalPower G + (G.cells.map (fromSinks G)).sum + ((List.range G.d.nLayers).map (inletSum G)).sum := by
  have hc : ∀ (l : Nat) es, G.flps[l]? = some (some es) → coolantType (typeAt G.g l) = false := by
    intro l es he
    have hl : l < G.d.nLayers := by rw [← flps_length hs]; exact (List.getElem?_eq_some_iff.mp he).1
    rcases hf.type hl with ⟨t, ht, hts, hty⟩ | ⟨-, -, b3, -⟩
    · exact solid_not_coolant hf ht hty
    · exact absurd he (b3 es)
  obtain ⟨hS, -⟩ := sources_eq hf hfull h
  have hlen := hf.layers
  have hle : G.d.nLayers ≤ G.ls.length := by omega
  rw [hS, List.sum_append, List.sum_replicate, smul_zero, add_zero]
  have h1 : (expected G G.d.nLayers).sum =
      (((List.range G.d.nLayers).map fun k => (((G.ls[k]?).getD []).map (sinkPart G)).sum).sum) +
      (((List.range G.d.nLayers).map fun k => (powerPart G k ((G.ls[k]?).getD [])).sum).sum) := by
    unfold expected
    rw [← List.sum_map_add, List.flatMap_def, List.sum_flatten, List.map_map]
    congr 1
    refine List.map_congr_left fun k hk => ?_
    obtain ⟨lk, hlk⟩ := lsAt hf (List.mem_range.mp hk)
    simp only [Function.comp]
    rw [hlk]
    simp only [Option.getD_some]
    exact sum_zip _ _ (by rw [List.length_map, powerPart_length hf (List.mem_range.mp hk) hlk])
  rw [h1, sum_take_layers G _ _ hle, powers_sum hc hd _ (by rw [flps_length hs])]
  have h2 : G.flps.take G.d.nLayers = G.flps := by rw [← flps_length hs, List.take_length]
  rw [h2, add_comm _ (_ + _), add_right_comm]
  congr 2
  have h3 : ∀ L : List (Cell K), (∀ c ∈ L, c ∈ G.cells) → L.map (sinkPart G) = L.map (fromSinks G) :=
    fun L hL => List.map_congr_left fun c hc => sinkPart_eq hf ph (hL c hc)
  have e : G.cells = (G.ls.take G.d.nLayers).flatten ++ (G.ls.drop G.d.nLayers).flatten := by
    unfold Grid.cells; rw [← List.flatten_append, List.take_append_drop]
  rw [h3 _ (by intro c hc; rw [e]; exact List.mem_append_left _ hc)]
  conv_rhs => rw [e, List.map_append, List.sum_append]
  have h4 : ((G.ls.drop G.d.nLayers).flatten.map (fromSinks G)).sum = 0 := by
    refine List.sum_eq_zero ?_
    intro x hx
    obtain ⟨c, hc, rfl⟩ := List.mem_map.mp hx
    have hge := hf.layered.after _ c hc
    have hp := hf.wf.L1
    have hm : c ∈ G.cells := by rw [e]; exact List.mem_append_right _ hc
    unfold fromSinks
    have hb : (match G.g.bottom with
      | some s => if c.layer = 0 then s.tAmb * toBottomFace G c else 0
      | none => 0) = (0 : K) := by
      cases G.g.bottom with
      | none => rfl
      | some s => simp only; rw [if_neg (by omega)]
    rcases hf.top with ⟨s, ht⟩ | ⟨s, mm, ht⟩
    · exact absurd (below_top hs ht hm) (by omega)
    · rw [ht]; simp only; rw [zero_add]; exact hb
  rw [h4, add_zero]

/-- The sources add up to the powers of all the elements and the heat of the sinks: no power is lost or counted twice. -/
theorem C53_total_power (hf : FromFile d0 rs ns G) (ph : PhysicalNU G) (hfull : Full G)
    (hd : ∀ (l : Nat) es, G.flps[l]? = some (some es) → ∀ e ∈ es, e.dx * e.dy ≠ 0) {S : List K}
    {fl' : List (Option (List (FEl K)))} (h : sourcesNU G.g G.d G.cells G.flps = some (S, fl')) :
    S.sum = totalPower G + (G.cells.map (fromSinks G)).sum := by
  have hz : ((List.range G.d.nLayers).map (inletSum G)).sum = 0 := by
    refine List.sum_eq_zero fun x hx => ?_
    obtain ⟨l, hl, rfl⟩ := List.mem_map.mp hx
    unfold inletSum; rw [hf.dry (List.mem_range.mp hl)]; rfl
  rw [total_sources hf.stack hf.laid ph hfull hd h, hz, add_zero]

/-! ## Examples -/

theorem nuFull (bottom : Option (Sink ℚ)) (p q : ℚ) : Full (nuGrid bottom p q) := by
  intro lc hlc hnil
  have hlen : ∀ lc ∈ (nuGrid bottom p q).ls, 0 < lc.length := by
    have : ((nuGrid bottom p q).ls.map List.length) = [4, 4, 2] := by
      simp only [nuGrid, layersOf, stackLayers, elemLayers, spreaderLayer, nuElems, fixDiscr, List.map_cons, List.map_nil, nuFlp, fixEl]
      norm_num [List.range_succ, dieLayer, subCells, exLayer]
    intro lc h
    have h2 := List.mem_map_of_mem (f := List.length) h
    rw [this] at h2
    simp only [List.mem_cons, List.not_mem_nil, or_false] at h2
    omega
  have := hlen lc hlc
  rw [hnil] at this
  simp at this

theorem nuPowers (bottom : Option (Sink ℚ)) (p q : ℚ) :
    ∃ S fl', sourcesNU (nuGrid bottom p q).g (nuGrid bottom p q).d (nuGrid bottom p q).cells (nuGrid bottom p q).flps = some (S, fl') := by
  obtain ⟨r, hr⟩ := (C53_one_value_each (nuFrom bottom p q) (nuFull bottom p q)).2 (by
    intro l es h e he
    match l, h with
    | 0, h =>
      simp only [nuGrid, List.getElem?_cons_zero, Option.some.injEq] at h
      subst h
      simp only [List.mem_cons, List.not_mem_nil, or_false] at he
      rcases he with rfl | rfl <;> simp
    | 1, h => simp [nuGrid] at h
    | 2, h => simp [nuGrid] at h
    | l + 3, h => simp [nuGrid] at h)
  exact ⟨r.1, r.2, hr⟩

/-- Two elements with powers `p` and `q`: each of the two cells of the first one receives `p / 2`. -/
example (p q : ℚ) : ∃ S fl' c,
    sourcesNU (nuGrid none p q).g (nuGrid none p q).d (nuGrid none p q).cells (nuGrid none p q).flps = some (S, fl') ∧
    S[1]? = some (fromSinks (nuGrid none p q) c + p / 2) ∧ (nuGrid none p q).cells[1]? = some c ∧ fromSinks (nuGrid none p q) c = 0 ∧
    S.sum = p + q + ((nuGrid none p q).cells.map (fromSinks (nuGrid none p q))).sum := by
  obtain ⟨S, fl', h⟩ := nuPowers none p q
  obtain ⟨-, h1, -⟩ := C53_power_of_each_cell (nuFrom none p q) (nuPhysical none p q) (nuFull none p q) h
  obtain ⟨c, hc, hl, -, hv⟩ := h1 0 _ rfl [] _ _ rfl 1 (show 1 < 2 * 1 by decide)
  refine ⟨S, fl', c, h, ?_, hc, ?_, ?_⟩
  · refine hv.trans ?_
    show some (_ + p / ((2 * 1 : Nat) : ℚ)) = _
    norm_num
  · unfold fromSinks toAmbient
    show (300 * (if c.layer + 1 = 3 then _ else 0)) + 0 = _
    rw [hl]; norm_num
  · rw [C53_total_power (nuFrom none p q) (nuPhysical none p q) (nuFull none p q) _ h]
    · congr 1
      show (p + (q + 0)) + (0 + (0 + 0)) = p + q
      ring
    · intro l es h e he
      match l, h with
      | 0, h =>
        simp only [nuGrid, List.getElem?_cons_zero, Option.some.injEq] at h
        subst h
        simp only [List.mem_cons, List.not_mem_nil, or_false] at he
        rcases he with rfl | rfl <;> simp
      | 1, h => simp [nuGrid] at h
      | 2, h => simp [nuGrid] at h
      | l + 3, h => simp [nuGrid] at h

theorem nuNoPower (bottom : Option (Sink ℚ)) : NoPower (nuGrid bottom 0 0) := by
  intro l es h e he
  match l, h with
  | 0, h =>
    simp only [nuGrid, List.getElem?_cons_zero, Option.some.injEq] at h
    subst h
    simp only [List.mem_cons, List.not_mem_nil, or_false] at he
    rcases he with rfl | rfl <;> rfl
  | 1, h => simp [nuGrid] at h
  | 2, h => simp [nuGrid] at h
  | l + 3, h => simp [nuGrid] at h

/-- Both sinks at 300: the cells of the bottom layer are heated. -/
example : ∃ m S fl', Assembled id (nuGrid (some ⟨1, 300⟩) 0 0) ⟨false, 1⟩ m ∧
    sourcesNU (nuGrid (some ⟨1, 300⟩) 0 0).g (nuGrid (some ⟨1, 300⟩) 0 0).d (nuGrid (some ⟨1, 300⟩) 0 0).cells
      (nuGrid (some ⟨1, 300⟩) 0 0).flps = some (S, fl') ∧
    ¬ Solves (nuGrid (some ⟨1, 300⟩) 0 0).cells.length m.entry (fun _ => 300)
      (fun i => storage ⟨false, 1⟩ (((nuGrid (some ⟨1, 300⟩) 0 0).cells[i]?).elim 0 (heatCapacity (nuGrid (some ⟨1, 300⟩) 0 0))) * 300 + S.getD i 0) := by
  obtain ⟨m, hm⟩ := assembled_exists id (nuGrid (some ⟨1, 300⟩) 0 0) ⟨false, 1⟩
  obtain ⟨S, fl', h⟩ := nuPowers (some ⟨1, 300⟩) 0 0
  exact ⟨m, S, fl', hm, h, (C45_violated (nuFrom _ 0 0) (nuPhysical _ 0 0) (nuFull _ 0 0) hm (nuNoPower _) (by norm_num) rfl rfl rfl rfl h).2⟩

/-- The same stack without the bottom sink stays at 300. -/
example : ∃ m S fl', Assembled id (nuGrid none 0 0) ⟨true, 1 / 10⟩ m ∧
    sourcesNU (nuGrid none 0 0).g (nuGrid none 0 0).d (nuGrid none 0 0).cells (nuGrid none 0 0).flps = some (S, fl') ∧
    Solves (nuGrid none 0 0).cells.length m.entry (fun _ => 300)
      (fun i => storage ⟨true, 1 / 10⟩ (((nuGrid none 0 0).cells[i]?).elim 0 (heatCapacity (nuGrid none 0 0))) * 300 + S.getD i 0) := by
  obtain ⟨m, hm⟩ := assembled_exists id (nuGrid none 0 0) ⟨true, 1 / 10⟩
  obtain ⟨S, fl', h⟩ := nuPowers none 0 0
  exact ⟨m, S, fl', hm, h, C45_without_bottom_partial (nuFrom _ 0 0) (nuPhysical _ 0 0) (nuFull _ 0 0) hm (nuNoPower _) rfl rfl rfl h⟩

/-- A stack whose only sink is the one at the bottom is accepted by the parser and can be built on a uniform grid; on a
non-uniform grid building it reads through a null pointer, because the number of cells is computed from the top sink whether or
not there is one. -/
theorem C45_bottom_only_violated : ∃ (p : Parsed ℚ (List (FEl ℚ))) (g : TGrid ℚ) (ns : List (NElem ℚ)),
    parseStack nuD0 none none (nuRaw 0 0) = some p ∧ fillGrid p.dims.nLayers p.elems none (some ⟨1, 300⟩) = some g ∧
    ns.map (·.elem) = p.elems ∧ buildNU p.dims none (some ⟨1, 300⟩) ns = none :=
  ⟨_, _, nuElems 0 0, rfl, rfl, rfl, rfl⟩

end Verif.NU
