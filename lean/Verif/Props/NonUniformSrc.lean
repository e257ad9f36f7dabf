import Verif.Lemmas.NuSource
import Verif.Lemmas.NuExample

set_option linter.unusedSectionVars false
set_option linter.unusedSimpArgs false
set_option linter.unusedVariables false

/-! # C45, C53: sinks and powers of a non-uniform grid -/

namespace Verif.NU
open Verif.Dim Verif.TG Verif.Stk Verif.SM

variable {K : Type} [Field K] [LinearOrder K] [IsStrictOrderedRing K]
variable {d0 : Dims K} {decl : Option (Channel K)} {rs : List (Raw K (List (FEl K)))} {ns : List (NElem K)} {G : Grid K}

/-! ## Specification -/

/-- Conductance between a cell of the bottom layer and its lower face. -/
def toBottomFace (G : Grid K) (c : Cell K) : K := (ownMat G c).kz * area c / (height G.d c.layer / 2)

/-- Heat given to a cell by the sinks when the stack is at zero degrees: ambient temperature times conductance. For the bottom
sink the program uses `toBottomFace`, without the heat transfer coefficient. -/
def fromSinks (G : Grid K) (c : Cell K) : K :=
  (match G.g.top with
    | some (.ambient s) => s.tAmb * toAmbient G c
    | _ => 0) +
  (match G.g.bottom with
    | some s => if c.layer = 0 then s.tAmb * toBottomFace G c else 0
    | none => 0)

/-- Position of the first cell of a layer. -/
def firstCell (G : Grid K) (l : Nat) : Nat := ((G.ls.take l).map List.length).sum

/-- Number of cells of some floorplan elements. -/
def cellsOf (es : List (FEl K)) : Nat := (es.map fun e => e.dx * e.dy).sum

/-- The next power value of an element. -/
def nextPower (e : FEl K) : K := e.powers.headD 0

/-- The `s`-th part of a rectangle cut into `nx` columns and `ny` rows, by rows from the bottom. -/
def InPart (r : Rect K) (nx ny s : Nat) (c : Cell K) : Prop :=
  c.x0 = r.x + r.length / nx * (s % nx : Nat) ∧ c.x1 = r.x + r.length / nx * (s % nx + 1 : Nat) ∧
  c.y0 = r.y + r.width / ny * (s / nx : Nat) ∧ c.y1 = r.y + r.width / ny * (s / nx + 1 : Nat)

/-! ## Proofs -/

theorem topSeries_eq (hf : Laid G) (ph : PhysicalNU G) {s : Sink K} (ht : G.g.top = some (.ambient s)) {c : Cell K} (hc : c ∈ G.cells)
    (hl : c.layer < G.d.nLayers) : topSeries G.g G.d (ownMat G c).kz c =
      series (s.htc * area c) ((ownMat G c).kz * area c / (height G.d c.layer / 2)) := by
  obtain ⟨hlen, hwid⟩ := ph.cell c hc
  have hh := heightAt_pos hf.wf ph.hts hl
  rw [← series_top (ph.mat c hc hl).2.2.1 hh (ph.htc s ht) (show 0 < area c by unfold area; positivity)]
  have htop : topHtc G.g = s.htc := by unfold topHtc; rw [ht]
  unfold topSeries area
  rw [htop]; congr 1; ring

theorem sinkPart_eq (hf : Laid G) (ph : PhysicalNU G) {c : Cell K} (hc : c ∈ G.cells) : sinkPart G c = fromSinks G c := by
  unfold sinkPart fromSinks
  congr 1
  · cases ht : G.g.top with
    | none => rfl
    | some t =>
      cases t with
      | pluggable s m => rfl
      | ambient s =>
        simp only [toAmbient, ht]
        split_ifs with h
        · rw [topSeries_eq hf ph ht hc (by omega)]
        · rw [mul_zero]
  · cases hb : G.g.bottom with
    | none => rfl
    | some s =>
      simp only
      split_ifs with h
      · unfold toBottomFace area; rw [h]; ring
      · rfl

theorem zip_get {α : Type} (f : Nat → List α) (g : Nat → List α) {l n s : Nat} (hlen : ∀ k, k < n → (f k).length = (g k).length) (hl : l < n)
    (hs : s < (f l).length) :
    ((List.range n).flatMap f)[(((List.range l).map fun k => (g k).length).sum) + s]? = (f l)[s]? := by
  induction n with
  | zero => omega
  | succ n ih =>
    rw [List.range_succ, List.flatMap_append, List.flatMap_singleton]
    have hL : ((List.range n).flatMap f).length = ((List.range n).map fun k => (g k).length).sum := by
      rw [List.length_flatMap]
      congr 1
      refine List.map_congr_left fun k hk => hlen k ?_
      have := List.mem_range.mp hk; omega
    by_cases h : l = n
    · subst h
      rw [List.getElem?_append_right (by omega), hL]; congr 1; omega
    · have h1 := ih (fun k hk => hlen k (by omega)) (by omega)
      have hsome : ∃ x, (f l)[s]? = some x := ⟨_, List.getElem?_eq_getElem hs⟩
      obtain ⟨x, hx⟩ := hsome
      rw [List.getElem?_append_left]
      · exact h1
      · rw [hx] at h1; exact (List.getElem?_eq_some_iff.mp h1).1

theorem start_eq_sum (G : Grid K) {l : Nat} (h : l ≤ G.ls.length) :
    start G.ls l = ((List.range l).map fun k => ((G.ls[k]?).getD []).length).sum := by
  induction l with
  | zero => simp [start]
  | succ l ih =>
    rw [start_succ, ih (by omega), List.range_succ, List.map_append, List.sum_append]
    simp
    cases G.ls[l]? <;> rfl

/-- The value of a cell, by layer and position in it. -/
theorem source_at (hf : Laid G) (ph : PhysicalNU G) (hfull : Full G) {S : List K} {fl' : List (Option (List (FEl K)))}
    (h : sourcesNU G.g G.d G.cells G.flps = some (S, fl')) {l : Nat} (hl : l < G.d.nLayers) {lc : List (Cell K)} (hlc : G.ls[l]? = some lc)
    {s : Nat} (hs : s < lc.length) :
    S[firstCell G l + s]? = some (fromSinks G lc[s] + ((powerPart G l lc)[s]?).getD 0) ∧ G.cells[firstCell G l + s]? = some lc[s] := by
  obtain ⟨hS, -⟩ := sources_eq hf hfull h
  have hlen := hf.layers
  have hpl := powerPart_length hf hl hlc
  have hst : firstCell G l = start G.ls l := rfl
  have hcell : G.cells[firstCell G l + s]? = some lc[s] := by
    rw [hst]
    have := drop_start G.ls l
    rw [List.drop_eq_getElem_cons (List.getElem?_eq_some_iff.mp hlc).1, List.flatten_cons, (List.getElem?_eq_some_iff.mp hlc).2] at this
    have h2 := congrArg (fun x => x[s]?) this
    simp only [List.getElem?_drop] at h2
    unfold Grid.cells
    rw [h2, List.getElem?_append_left hs, List.getElem?_eq_getElem hs]
  refine ⟨?_, hcell⟩
  have hmem : lc[s] ∈ G.cells := List.mem_of_getElem? hcell
  rw [hS]
  have hz : (List.zipWith (· + ·) (lc.map (sinkPart G)) (powerPart G l lc))[s]? = some (fromSinks G lc[s] + ((powerPart G l lc)[s]?).getD 0) := by
    have h1 : s < (powerPart G l lc).length := by omega
    rw [List.getElem?_eq_getElem (by simp; omega), List.getElem?_eq_getElem h1]
    simp only [List.getElem_zipWith, List.getElem_map, Option.getD_some]
    rw [sinkPart_eq hf ph hmem]
  have := zip_get (n := G.d.nLayers) (l := l) (s := s)
    (fun k => List.zipWith (· + ·) (((G.ls[k]?).getD []).map (sinkPart G)) (powerPart G k ((G.ls[k]?).getD [])))
    (fun k => ((G.ls[k]?).getD []).map (sinkPart G)) ?_ hl ?_
  · have hgs : (((List.range l).map fun k => (((G.ls[k]?).getD []).map (sinkPart G)).length).sum) = start G.ls l := by
      simp only [List.length_map]
      exact (start_eq_sum G (by omega)).symm
    rw [hgs, hlc] at this
    simp only [Option.getD_some] at this
    rw [hz] at this
    rw [hst]
    have hb := (List.getElem?_eq_some_iff.mp this).1
    unfold expected
    rw [List.getElem?_append_left hb]
    exact this
  · intro k hk
    obtain ⟨lk, hlk⟩ := lsAt hf hk
    rw [hlk]
    simp [powerPart_length hf hk hlk]
  · simp only [hlc, Option.getD_some, List.length_zipWith, List.length_map, hpl, Nat.min_self]; exact hs

theorem shares_get (A : List (FEl K)) (e : FEl K) (B : List (FEl K)) {s : Nat} (hs : s < e.dx * e.dy) :
    (shares (A ++ e :: B))[cellsOf A + s]? = some (nextPower e / ((e.dx * e.dy : Nat) : K)) := by
  have hA : (shares A).length = cellsOf A := by
    unfold shares cellsOf; rw [List.length_flatMap]; simp
  unfold shares at hA ⊢
  rw [List.flatMap_append, List.flatMap_cons, List.getElem?_append_right (by omega), hA, List.getElem?_append_left (by simp; omega),
    List.getElem?_replicate, if_pos (by omega)]
  rfl

/-- Elements of the floorplan of a layer, as in the file, and their cells. -/
theorem die_cells (hf : FromStack d0 decl rs ns G) {l : Nat} {n : NElem K} (hn : n ∈ ns) {b : Die K (List (FEl K))}
    (hb : (fixDiscr n).elem.body = .die b) {c : Nat} (hcell : G.ls[l]? = some (dieLayer (fixDiscr n) b c b.srcOff)) :
    ∃ n ∈ ns, ∃ b0, n.elem.body = .die b0 ∧ b.flp = b0.flp.map (fixEl n) ∧ ∃ lc, G.ls[l]? = some lc ∧ lc.length = cellsOf b.flp ∧
      ∀ A e B, b.flp = A ++ e :: B → ∀ s, (hs : s < e.dx * e.dy) → ∃ c, lc[cellsOf A + s]? = some c ∧ InPart e.rect e.dx e.dy s c ∧
        ∀ m, e.mat = some m → c.mat = m := by
  have hb' := hb
  unfold fixDiscr at hb
  cases h0 : n.elem.body with
  | layer ly => rw [h0] at hb; rw [h0] at hb; cases hb
  | channel ch => rw [h0] at hb; rw [h0] at hb; cases hb
  | die b0 =>
    rw [h0] at hb
    simp only [Body.die.injEq] at hb
    have hflp : b.flp = b0.flp.map (fixEl n) := by rw [← hb]
    refine ⟨n, hn, b0, h0, hflp, _, hcell, ?_, ?_⟩
    · rw [dieLayer_length hb']; unfold shares cellsOf; rw [List.length_flatMap]; simp
    · intro A e B hes s hs
      have hn' : (fixDiscr n).dx = n.dx ∧ (fixDiscr n).dy = n.dy := by unfold fixDiscr; cases n.elem.body <;> exact ⟨rfl, rfl⟩
      have hdisc : ∀ x ∈ b.flp, (if x.dx = 0 ∨ x.dy = 0 then ((fixDiscr n).dx, (fixDiscr n).dy) else (x.dx, x.dy)).1 *
          (if x.dx = 0 ∨ x.dy = 0 then ((fixDiscr n).dx, (fixDiscr n).dy) else (x.dx, x.dy)).2 = x.dx * x.dy := by
        intro x hx
        split_ifs with hz
        · rw [hflp] at hx
          obtain ⟨x0, _, rfl⟩ := List.mem_map.mp hx
          rw [hn'.1, hn'.2]
          revert hz
          unfold fixEl
          split_ifs with h1
          · intro hz; exfalso; tauto
          · intro _; rfl
        · rfl
      unfold dieLayer
      rw [hes, List.flatMap_append, List.flatMap_cons]
      have hA : ∀ (Q : List (FEl K)) (F : FEl K → List (Cell K)), (∀ x ∈ Q, (F x).length = x.dx * x.dy) → (Q.flatMap F).length = cellsOf Q := by
        intro Q F hQ
        rw [List.length_flatMap]; unfold cellsOf; congr 1
        exact List.map_congr_left hQ
      have hAl := hA A (fun e =>
        let f := if e.dx = 0 ∨ e.dy = 0 then ((fixDiscr n).dx, (fixDiscr n).dy) else (e.dx, e.dy)
        let own := ((b.layers.reverse[b.srcOff]?).map (·.mat)).getD noMat
        subCells e.rect f.1 f.2 (c + b.srcOff) (if b.srcOff = b.srcOff then e.mat.getD own else own)) (by
          intro x hx
          simp only [subCells, List.length_map, List.length_range]
          exact hdisc x (by rw [hes]; exact List.mem_append_left _ hx))
      have hpos : ¬ (e.dx = 0 ∨ e.dy = 0) := by
        rintro (hz | hz) <;> rw [hz] at hs <;> simp at hs
      rw [List.getElem?_append_right (by rw [hAl]; omega), hAl]
      rw [List.getElem?_append_left (by
        simp only [subCells, List.length_map, List.length_range]
        rw [hdisc e (by rw [hes]; simp)]; omega)]
      simp only [if_neg hpos, if_true]
      have hi : cellsOf A + s - cellsOf A = s := by omega
      rw [hi]
      unfold subCells
      rw [List.getElem?_map, List.getElem?_range hs]
      refine ⟨_, rfl, ⟨rfl, rfl, rfl, rfl⟩, ?_⟩
      intro m hm
      simp only [hm, Option.getD_some]

/-- Elements of the floorplan of a layer, and their cells. -/
theorem floorplan_cells (hf : FromStack d0 decl rs ns G) {l : Nat} {es : List (FEl K)} (h : G.flps[l]? = some (some es)) :
    ∃ lc, G.ls[l]? = some lc ∧ lc.length = cellsOf es ∧
      ∀ A e B, es = A ++ e :: B → ∀ s, (hs : s < e.dx * e.dy) → ∃ c, lc[cellsOf A + s]? = some c ∧ InPart e.rect e.dx e.dy s c ∧
        ∀ m, e.mat = some m → c.mat = m := by
  obtain ⟨n, hn, b, hb, hes, c, hc, hcell⟩ := hf.flpCells h
  obtain ⟨-, -, -, -, -, lc, h1, h2, h3⟩ := die_cells hf hn hb hcell
  have key : ∀ es : List (FEl K), cellsOf es = ((es.map fun e => ({ e with powers := [] } : FEl K)).map fun e => e.dx * e.dy).sum := by
    intro es; unfold cellsOf; rw [List.map_map]; rfl
  refine ⟨lc, h1, by rw [h2, key, key, hes], ?_⟩
  intro A e B hE s hs
  rw [hE, List.map_append, List.map_cons] at hes
  obtain ⟨A', Y, e1, e2, e3⟩ := List.map_eq_append_iff.mp hes
  obtain ⟨e', B', rfl, e4, e5⟩ := List.map_eq_cons_iff.mp e3
  have q1 : e'.dx = e.dx := by have := congrArg FEl.dx e4; exact this
  have q2 : e'.dy = e.dy := by have := congrArg FEl.dy e4; exact this
  have q3 : e'.rect = e.rect := by have := congrArg FEl.rect e4; exact this
  have q4 : e'.mat = e.mat := by have := congrArg FEl.mat e4; exact this
  obtain ⟨cc, c1, c2, c3⟩ := h3 A' e' B' e1 s (by rw [q1, q2]; exact hs)
  rw [q1, q2, q3] at c2
  rw [q4] at c3
  exact ⟨cc, by rw [← c1, key, key, e2], c2, c3⟩

/-- Sources of the cells of a stack. -/
theorem power_of_each (hf : FromStack d0 decl rs ns G) (hl : Laid G) (ph : PhysicalNU G) (hfull : Full G) {S : List K}
    {fl' : List (Option (List (FEl K)))} (h : sourcesNU G.g G.d G.cells G.flps = some (S, fl')) :
    S.length = G.cells.length ∧
    (∀ (l : Nat) es, G.flps[l]? = some (some es) → ∀ A e B, es = A ++ e :: B → ∀ s, s < e.dx * e.dy →
      ∃ c, G.cells[firstCell G l + cellsOf A + s]? = some c ∧ c.layer = l ∧ InPart e.rect e.dx e.dy s c ∧
        S[firstCell G l + cellsOf A + s]? = some (fromSinks G c + nextPower e / ((e.dx * e.dy : Nat) : K))) ∧
    (∀ (i : Nat) c, G.cells[i]? = some c → (∀ es, G.flps[c.layer]? ≠ some (some es)) → c.layer < G.d.nLayers → coolantType (typeAt G.g c.layer) = false → S[i]? = some (fromSinks G c)) := by
  obtain ⟨hS, -⟩ := sources_eq hl hfull h
  refine ⟨?_, ?_, ?_⟩
  · rw [hS, List.length_append, expected_length hl (le_refl _), List.length_replicate]
    have := start_le G.ls G.d.nLayers
    unfold Grid.cells; omega
  · intro l es hes A e B hE s hs
    obtain ⟨lc, hlc, hlen, hget⟩ := floorplan_cells hf hes
    obtain ⟨c, hc, hin, -⟩ := hget A e B hE s hs
    have hlt : l < G.d.nLayers := by
      by_contra hge
      have hlt2 := (List.getElem?_eq_some_iff.mp hes).1
      have hfl2 : G.flps.length = G.d.nLayers := by
        rw [← hf.nLayers, hf.flpsLength, stackLayers_length _ _ _, List.length_flatMap]
        congr 1
        refine List.map_congr_left fun x _ => ?_
        unfold nLayersOf; cases hb : x.elem.body <;> simp [blockFlp, hb]
      omega
    have hlt2 := (List.getElem?_eq_some_iff.mp hc).1
    obtain ⟨h1, h2⟩ := source_at hl ph hfull h hlt hlc hlt2
    have hce : lc[cellsOf A + s] = c := by rw [List.getElem?_eq_getElem hlt2] at hc; exact Option.some.inj hc
    rw [hce] at h1 h2
    rw [← Nat.add_assoc] at h1 h2
    refine ⟨c, h2, hf.layered l lc hlc c (List.mem_of_getElem? hc), hin, ?_⟩
    rw [h1]
    unfold powerPart
    rw [hes]
    simp only
    rw [hE, shares_get A e B hs]
    rfl
  · intro i c hc hno hlt hnc
    obtain ⟨lc, hlc⟩ := lsAt hl hlt
    have hi : i < G.ls.flatten.length := (List.getElem?_eq_some_iff.mp hc).1
    -- the position of the cell in its layer
    have hpos : firstCell G c.layer ≤ i ∧ i < firstCell G c.layer + lc.length := by
      have e : G.ls.flatten = (G.ls.take c.layer).flatten ++ (lc ++ (G.ls.drop (c.layer + 1)).flatten) := by
        have hlt := (List.getElem?_eq_some_iff.mp hlc).1
        conv_lhs => rw [← List.take_append_drop c.layer G.ls, List.flatten_append, List.drop_eq_getElem_cons hlt, List.flatten_cons]
        rw [(List.getElem?_eq_some_iff.mp hlc).2]
      have hfc : firstCell G c.layer = (G.ls.take c.layer).flatten.length := by rw [List.length_flatten]; rfl
      unfold Grid.cells at hc
      rw [e] at hc
      constructor
      · by_contra hlt2
        rw [List.getElem?_append_left (by omega)] at hc
        have := hf.layered.before c.layer c (List.mem_of_getElem? hc)
        omega
      · by_contra hge
        rw [List.getElem?_append_right (by omega), List.getElem?_append_right (by omega)] at hc
        have := hf.layered.after (c.layer + 1) c (List.mem_of_getElem? hc)
        omega
    obtain ⟨h1, h2⟩ := source_at hl ph hfull h hlt hlc (s := i - firstCell G c.layer) (by omega)
    have hadd : firstCell G c.layer + (i - firstCell G c.layer) = i := by omega
    rw [hadd] at h1 h2
    rw [hc] at h2
    rw [← Option.some.inj h2] at h1
    rw [h1]
    have : ((powerPart G c.layer lc)[i - firstCell G c.layer]?).getD 0 = (0 : K) := by
      unfold powerPart
      split
      · rename_i es he; exact absurd he (hno es)
      · rw [hnc]; simp only [Bool.false_eq_true, if_false]; rw [List.getElem?_replicate]; split_ifs <;> rfl
    rw [this, add_zero]

/-! ## C53 -/

/-- Whenever the sources are computed, each cell of a floorplan element in the source layer of its die receives an equal part of
the power of that element, and every cell receives the heat of the sinks. Cells are counted from the bottom layer and, in a source
layer, element after element. -/
theorem C53_power_of_each_cell (hf : FromFile d0 rs ns G) (ph : PhysicalNU G) (hfull : Full G) {S : List K}
    {fl' : List (Option (List (FEl K)))} (h : sourcesNU G.g G.d G.cells G.flps = some (S, fl')) :
    S.length = G.cells.length ∧
    (∀ (l : Nat) es, G.flps[l]? = some (some es) → ∀ A e B, es = A ++ e :: B → ∀ s, s < e.dx * e.dy →
      ∃ c, G.cells[firstCell G l + cellsOf A + s]? = some c ∧ c.layer = l ∧ InPart e.rect e.dx e.dy s c ∧
        S[firstCell G l + cellsOf A + s]? = some (fromSinks G c + nextPower e / ((e.dx * e.dy : Nat) : K))) ∧
    (∀ (i : Nat) c, G.cells[i]? = some c → (∀ es, G.flps[c.layer]? ≠ some (some es)) → c.layer < G.d.nLayers → S[i]? = some (fromSinks G c)) := by
  obtain ⟨h1, h2, h3⟩ := power_of_each hf.stack hf.laid ph hfull h
  refine ⟨h1, h2, fun i c hc hno hlt => h3 i c hc hno hlt ?_⟩
  have := hf.types hlt
  revert this; cases typeAt G.g c.layer <;> simp [solidish, coolantType]

/-- The step takes one value from each element of each floorplan; it fails exactly when some element has none left. -/
theorem C53_one_value_each (hf : FromFile d0 rs ns G) (hfull : Full G) :
    (∀ S fl', sourcesNU G.g G.d G.cells G.flps = some (S, fl') → ∀ l : Nat, l < G.d.nLayers →
      fl'[l]? = (G.flps[l]?).map fun o => o.map fun es => es.map fun e => { e with powers := e.powers.tail }) ∧
    ((∀ (l : Nat) es, G.flps[l]? = some (some es) → ∀ e ∈ es, e.powers ≠ []) → ∃ r, sourcesNU G.g G.d G.cells G.flps = some r) := by
  refine ⟨?_, sources_some hf.laid hfull⟩
  intro S fl' h l hl
  obtain ⟨-, rfl⟩ := sources_eq hf.laid hfull h
  unfold taken
  rw [List.getElem?_mapIdx]
  cases G.flps[l]? with
  | none => rfl
  | some o => simp only [Option.map_some]; rw [if_pos hl]

end Verif.NU
