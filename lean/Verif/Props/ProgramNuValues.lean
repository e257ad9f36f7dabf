import Verif.Props.ProgramNuHeat
import Verif.Props.ProgramNuRaster
import Verif.Props.ProgramPoints
import Verif.Props.NonUniformChannelTile
import Verif.Props.Outlet

/-! # C71: the values that the program writes for a non-uniform grid, in terms of the description files -/

set_option linter.unusedSectionVars false
set_option linter.unusedSimpArgs false
set_option linter.unusedVariables false

namespace Verif.Prog
open Verif.Gram Verif.Dim Verif.TG Verif.SM Verif.Stk Verif.FE Verif.Emu Verif.Flp

variable {π : Type}

/-! ### Specification -/

/-- Cell `i` belongs to layer `l`. -/
def InLayer (G : NU.Grid ℚ) (l i : Nat) : Prop := ∃ c, G.cells[i]? = some c ∧ c.layer = l

/-- Cell `i` belongs to layer `l` and contains the point (x, y). -/
def HasPoint (G : NU.Grid ℚ) (l : Nat) (x y : ℚ) (i : Nat) : Prop :=
  ∃ c, G.cells[i]? = some c ∧ c.layer = l ∧ c.x0 ≤ x ∧ x < c.x1 ∧ c.y0 ≤ y ∧ y < c.y1

/-- Cell `i` belongs to layer `l` and lies inside the rectangle. -/
def Inside (G : NU.Grid ℚ) (l : Nat) (r : Rect ℚ) (i : Nat) : Prop :=
  ∃ c, G.cells[i]? = some c ∧ c.layer = l ∧ r.x ≤ c.x0 ∧ c.x1 ≤ r.x + r.length ∧ r.y ≤ c.y0 ∧ c.y1 ≤ r.y + r.width

/-- Cell `i` of layer `l` is coolant at the outlet, the far side of the chip. -/
def AtOutlet (s : StackD) (G : NU.Grid ℚ) (l i : Nat) : Prop :=
  ∃ c, G.cells[i]? = some c ∧ c.layer = l ∧ c.chan = true ∧ c.y1 = s.dims.chipW

/-- Cell `i` of layer `l` is at the left end of the far side of the chip. -/
def AtCorner (s : StackD) (G : NU.Grid ℚ) (l i : Nat) : Prop :=
  ∃ c, G.cells[i]? = some c ∧ c.layer = l ∧ c.x0 = 0 ∧ c.y1 = s.dims.chipW

/-- The floorplan file of the die named `el`. -/
def FloorplanOf (files : Files) (s : StackD) (el : String) (fs : List FlpD) : Prop :=
  ∃ ref p o, ElD.die el ref p o ∈ s.elems ∧ files.flp p = some fs

/-- How many floorplan elements have the point in their first rectangle. -/
def hits (fs : List FlpD) (x y : ℚ) : Nat :=
  (fs.map fun f => firstRect f.area).countP fun r => decide (r.x ≤ x ∧ x < r.x + r.length ∧ r.y ≤ y ∧ y < r.y + r.width)

/-- In every die exactly one floorplan element has the point. -/
def Covered (files : Files) (s : StackD) (x y : ℚ) : Prop := ∀ el fs, FloorplanOf files s el fs → hits fs x y = 1

/-- No two floorplan elements overlap. -/
def Apart (fs : List FlpD) : Prop := ∀ x y, hits fs x y ≤ 1

/-- The number of rectangles of a floorplan element after the first one. -/
def more (f : FlpD) : Nat := (areaRects f.area).length - 1

/-- `v` is the quantity that was asked for, over the cells of layer `l` inside the rectangle (there is at least one) and, if the element has `k`
more rectangles, over cell 0 of the stack `k` times (C55). -/
def Over (G : NU.Grid ℚ) (l : Nat) (temps : List ℚ) (r : Rect ℚ) (k : Nat) (q : QuantD) (v : ℚ) : Prop :=
  ∃ S : Finset Nat, S.Nonempty ∧ (∀ i, i ∈ S ↔ Inside G l r i) ∧
    match q with
    | .maximum => NU.IsMax temps (if k = 0 then S else insert 0 S) v
    | .minimum => NU.IsMin temps (if k = 0 then S else insert 0 S) v
    | .average => v = ((∑ i ∈ S, temps.getD i 0) / (S.card : ℚ) + k * temps.getD 0 0) / (k + 1)
    | .gradient => ∃ a b, NU.IsMax temps (if k = 0 then S else insert 0 S) a ∧ NU.IsMin temps (if k = 0 then S else insert 0 S) b ∧ v = a - b

/-- `v` is the highest temperature of the coolant at the outlet; with 4RM channels it may be that of the first wall, if it is higher (C31). -/
def HottestOutlet (s : StackD) (G : NU.Grid ℚ) (l : Nat) (temps : List ℚ) (v : ℚ) : Prop :=
  (∀ i, AtOutlet s G l i → temps.getD i 0 ≤ v) ∧ ((∃ i, AtOutlet s G l i ∧ temps.getD i 0 = v) ∨
    (∃ a b c d e f g h i j, s.chan = some (.rm4 a b c d e f g h i j)) ∧ ∃ i, AtCorner s G l i ∧ temps.getD i 0 = v)
/-- The same for the lowest one. -/
def ColdestOutlet (s : StackD) (G : NU.Grid ℚ) (l : Nat) (temps : List ℚ) (v : ℚ) : Prop :=
  (∀ i, AtOutlet s G l i → v ≤ temps.getD i 0) ∧ ((∃ i, AtOutlet s G l i ∧ temps.getD i 0 = v) ∨
    (∃ a b c d e f g h i j, s.chan = some (.rm4 a b c d e f g h i j)) ∧ ∃ i, AtCorner s G l i ∧ temps.getD i 0 = v)

/-- The cells of a layer, in their order. -/
def LayerCells (G : NU.Grid ℚ) (l : Nat) (is : List Nat) : Prop := is.Pairwise (· < ·) ∧ ∀ i, i ∈ is ↔ InLayer G l i

/-- What a point of the stack file prints in its own file when the cells have these temperatures and heat sources. The average and the
gradient of the coolant are not what was asked for (C31): nothing is said about the first, the second is the maximum. -/
def PointValue (files : Files) (s : StackD) (G : NU.Grid ℚ) (temps sources : List ℚ) (time : ℚ) (x : PointD) (r : Out.Record ℚ) : Prop :=
  match x with
  | .tcell el x y _ _ => ∃ l, Shown s el l ∧ (0 ≤ x → x < s.dims.chipL → 0 ≤ y → y < s.dims.chipW → Covered files s x y →
      ∃ i, HasPoint G l x y i ∧ (∀ j, HasPoint G l x y j → j = i) ∧ r = .line time [temps.getD i 0])
  | .tflp el _ q _ => ∃ l fs, Shown s el l ∧ FloorplanOf files s el fs ∧ (Apart fs →
      ∃ vs, r = .line time vs ∧ List.Forall₂ (fun f v => Over G l temps (firstRect f.area) (more f) q v) fs vs)
  | .tflpel el sub _ q _ => ∃ l fs f, Shown s el l ∧ FloorplanOf files s el fs ∧ fs.find? (fun f => f.id == sub) = some f ∧
      (Apart fs → ∃ v, r = .line time [v] ∧ Over G l temps (firstRect f.area) (more f) q v)
  | .tmap el _ _ => ∃ l is, Shown s el l ∧ LayerCells G l is ∧ r = .map [is.map fun i => temps.getD i 0]
  | .pmap el _ _ => ∃ l is, Shown s el l ∧ LayerCells G l is ∧ r = .map [is.map fun i => sources.getD i 0]
  | .tcoolant el _ q _ => ∃ l v, Shown s el l ∧ r = .line time [v] ∧
      match q with
      | .maximum | .gradient => HottestOutlet s G l temps v
      | .minimum => ColdestOutlet s G l temps v
      | .average => True
  | .t3d _ _ => False

/-- When a point of the stack file is printed, and where. -/
def whenOf : PointD → WhenD
  | .tcell _ _ _ _ w | .tflp _ _ _ w | .tflpel _ _ _ _ w | .tmap _ _ w | .t3d _ w | .pmap _ _ w | .tcoolant _ _ _ w => w
def fileOf : PointD → String
  | .tcell _ _ _ f _ | .tflp _ f _ _ | .tflpel _ _ f _ _ | .tmap _ f _ | .t3d f _ | .pmap _ f _ | .tcoolant _ f _ _ => f

/-- The points that are printed at an instant, in the order of the stack file. A point with no instant is printed at the end. -/
def pointsOn (s : StackD) (i : Out.Instant) : List PointD :=
  s.points.filter fun x => match i with
    | .step => whenOf x = .step
    | .slot => whenOf x = .slot
    | .final => whenOf x = .final || whenOf x = .unsaid
    | .none => false

/-- The name of a `.vtk` file: that of the stack file for a point printed at the end; otherwise the part before the first dot and the number
of the step or of the slot. -/
def vtkFile (file : String) (w : WhenD) (step slotLength : Nat) : String :=
  match w with
  | .step => String.ofList (file.toList.takeWhile (· ≠ '.')) ++ toString step ++ ".vtk"
  | .slot => String.ofList (file.toList.takeWhile (· ≠ '.')) ++ toString (step / slotLength) ++ ".vtk"
  | _ => file

/-- A map: the positions of the cells of the layer that is shown go to a file named after the element, created anew; their values, in the same
order, are appended to the file of the point. If the first file cannot be created, an empty map is appended. -/
def MapWrites (canOpen : String → Bool) (s : StackD) (G : NU.Grid ℚ) (values : List ℚ) (el file : String) (l : NLog) : Prop :=
  (canOpen ("xyaxis_" ++ el ++ ".txt") = true ∧ ∃ lay is rows, Shown s el lay ∧ LayerCells G lay is ∧
    List.Forall₂ (fun i row => ∃ c, G.cells[i]? = some c ∧ row = (c.x0, c.y0, c.x1 - c.x0, c.y1 - c.y0)) is rows ∧
    l = [⟨"xyaxis_" ++ el ++ ".txt", false, .axes rows⟩, ⟨file, true, .record (.map [is.map fun i => values.getD i 0])⟩]) ∨
  (canOpen ("xyaxis_" ++ el ++ ".txt") = false ∧ l = [⟨file, true, .record (.map [])⟩])

/-- What a point of the stack file writes after `step` steps. -/
def DocWrites (canOpen : String → Bool) (files : Files) (s : StackD) (G : NU.Grid ℚ) (temps sources : List ℚ) (time : ℚ) (step slotLength : Nat) (x : PointD)
    (l : NLog) : Prop :=
  match x with
  | .t3d file w => l = [⟨vtkFile file w step slotLength, false, .solid
      (G.cells.map fun c => (c, (G.d.heights.take c.layer).sum, G.d.heights.getD c.layer 0)) ((List.range G.cells.length).map fun i => temps.getD i 0)⟩]
  | .tmap el file _ => MapWrites canOpen s G temps el file l
  | .pmap el file _ => MapWrites canOpen s G sources el file l
  | x => ∃ r, PointValue files s G temps sources time x r ∧ l = [⟨fileOf x, true, .record r⟩]

/-! ### Proofs -/

variable {w : World π} {file : String} {s : StackD} {D : Desc NFlps} {an : Analysis ℚ} {G : NU.Grid ℚ} {s0 s' : NU.NSim ℚ π} {log : NLog}

theorem mem_assign {φ : Type} (es : List (SElem ℚ φ)) : ∀ n e, e ∈ assignOffsets n es → ∃ e0 ∈ es, e.id = e0.id ∧ e.body = e0.body := by
  induction es with
  | nil => intro n e he; simp [assignOffsets] at he
  | cons a es ih =>
    intro n e he
    rw [assignOffsets, List.mem_cons] at he
    rcases he with rfl | he
    · exact ⟨a, by simp, rfl, rfl⟩
    · obtain ⟨e0, h0, h⟩ := ih _ e he
      exact ⟨e0, by simp [h0], h⟩

/-- The floorplan of a die is that of its file. -/
theorem die_file (M : Means nuReader w.eff (filesOf w.read) s D) {e : SElem ℚ NFlps} (he : e ∈ D.parsed.elems) {b : Die ℚ NFlps} (hb : e.body = .die b) :
    FloorplanOf (filesOf w.read) s e.id b.flp := by
  obtain ⟨walls, d, spr, -, -, -, -, -, -, -, raws, h1, hp⟩ := M.stack
  obtain ⟨es, m, h2, -, -, -, -, -, h3, -⟩ := parseStack_spec hp
  rw [h3] at he
  obtain ⟨e0, h0, hid, hbody⟩ := mem_assign _ _ e he
  obtain ⟨x, hx, raw, k1, k2⟩ := forall₂_mem_right (forall₂_comp h1 h2) (List.mem_reverse.mp h0)
  rw [hb] at hbody
  cases x with
  | channel id =>
    have k1 : raw = _ := k1
    subst k1
    obtain ⟨ch, -, rfl⟩ := Option.map_eq_some_iff.mp k2
    cases hbody
  | layer id ref o =>
    obtain ⟨l, -, rfl⟩ := k1
    cases k2; cases hbody
  | die id ref p o =>
    obtain ⟨q, f, g, -, hf, hr, rfl⟩ := k1
    cases k2
    have hgf : g = f := by
      obtain ⟨_, -, e⟩ := Option.map_eq_some_iff.mp hr
      exact e.symm
    subst hgf
    have : b.flp = g := by
      have := congrArg (fun b => match b with | .die d => d.flp | _ => []) hbody
      exact this
    rw [this]
    exact ⟨ref, p, o, by rw [hid]; exact hx, hf⟩

theorem ids_assign {φ : Type} (es : List (SElem ℚ φ)) : ∀ n, (assignOffsets n es).map (·.id) = es.map (·.id) := by
  induction es with
  | nil => intro n; rfl
  | cons a es ih => intro n; rw [assignOffsets, List.map_cons, List.map_cons, ih]

theorem ids_nodup (M : Means nuReader w.eff (filesOf w.read) s D) : (D.parsed.elems.map (·.id)).Nodup := by
  obtain ⟨walls, d, spr, -, -, -, -, -, -, -, raws, h1, hp⟩ := M.stack
  obtain ⟨es, m, h2, hn, -, -, -, -, h3, -⟩ := parseStack_spec hp
  rw [h3, ids_assign, List.map_reverse, List.nodup_reverse]
  exact hn

theorem findIdx_nodup {α : Type} (f : α → String) : ∀ (l : List α), (l.map f).Nodup → ∀ (i : Nat) (a : α), l[i]? = some a → l.findIdx (fun x => f x == f a) = i
  | [], _, _, _, h => by simp at h
  | b :: l, hn, i, a, h => by
    rw [List.map_cons, List.nodup_cons] at hn
    rw [List.findIdx_cons]
    cases i with
    | zero =>
      rw [List.getElem?_cons_zero] at h
      obtain rfl := Option.some.inj h
      simp
    | succ i =>
      rw [List.getElem?_cons_succ] at h
      have hne : f b ≠ f a := fun hh => hn.1 (by rw [hh]; exact List.mem_map_of_mem (List.mem_of_getElem? h))
      rw [show (f b == f a) = false by simp [hne], findIdx_nodup f l hn.2 i a h]
      rfl

theorem id_fix (n : NU.NElem ℚ) : (NU.fixDiscr n).elem.id = n.elem.id := by
  unfold NU.fixDiscr; cases hb : n.elem.body <;> simp [hb]

/-- The place of an element in the stack. -/
theorem place_spec (M : Means nuReader w.eff (filesOf w.read) s D) (hG : G.ns = (nElems D).map NU.fixDiscr) {e : SElem ℚ NFlps} (he : e ∈ D.parsed.elems) :
    ∃ n, (nElems D)[placeOf G e]? = some n ∧ n.elem = elemMap (List.map (elOf D.mats)) e := by
  obtain ⟨i, hi, rfl⟩ := List.mem_iff_getElem.mp he
  have hl := discr_length M
  have hget : (nElems D)[i]? = some ⟨elemMap (List.map (elOf D.mats)) D.parsed.elems[i], (D.discr[i]'(by omega)).1, (D.discr[i]'(by omega)).2⟩ := by
    unfold nElems
    rw [List.getElem?_zipWith, List.getElem?_eq_getElem hi, List.getElem?_eq_getElem (by omega)]
  have hids : ((nElems D).map fun n => n.elem.id) = D.parsed.elems.map (·.id) :=
    zip_elem (fun e : SElem ℚ NFlps => e.id) (fun e (n : Nat × Nat) => (⟨elemMap (List.map (elOf D.mats)) e, n.1, n.2⟩ : NU.NElem ℚ)) (fun n => n.elem.id)
      (fun _ _ => rfl) _ _ hl
  refine ⟨_, Eq.trans (congrArg (fun k : Nat => (nElems D)[k]?) ?_) hget, rfl⟩
  unfold placeOf
  rw [hG, List.findIdx_map]
  have hc : ((fun n : NU.NElem ℚ => n.elem.id == (D.parsed.elems[i]).id) ∘ NU.fixDiscr) = fun n => n.elem.id == (D.parsed.elems[i]).id := by
    funext n; simp only [Function.comp_apply, id_fix]
  rw [hc]
  exact findIdx_nodup (fun n : NU.NElem ℚ => n.elem.id) (nElems D) (by rw [hids]; exact ids_nodup M) i _ hget

theorem sourceLayer_map {φ ψ : Type} (f : φ → ψ) (e : SElem ℚ φ) : sourceLayerOffset (elemMap f e) = sourceLayerOffset e := by
  unfold sourceLayerOffset elemMap
  cases hb : e.body <;> rfl

/-- What C71 uses of the grid. -/
structure ShownGrid (w : World π) (s : StackD) (D : Desc NFlps) (G : NU.Grid ℚ) : Prop where
  from_ : ∃ d0 rs, NU.FromStack d0 D.chan rs (nElems D) G
  fit : NU.ChipFits G.d
  whole : gridLength G.d = G.d.chipLength
  sides : G.d.chipLength = s.dims.chipL ∧ G.d.chipWidth = s.dims.chipW
  odd : NU.OddColumns G
  divided : ∀ n ∈ nElems D, NU.Divided n

theorem StartedNU.shown (h : StartedNU w s D an G s0) (hs : Sensible w.eff (filesOf w.read) s) (hg : GoodDivision (filesOf w.read) s) : ShownGrid w s D G := by
  obtain ⟨d0, raws, h1, h2, h3, h4, h5, h6, h7, h8, h9, h10, h11⟩ := h.begun hs
  obtain ⟨_, _, -, -, -, -, g, -⟩ := h.good hs hg
  obtain ⟨walls, d, spr, hw, hd, -, hch, -, -, -, raws', -, hp⟩ := h.means.stack
  obtain ⟨w1, w2, w3, w4, w5, w6, w7, w8, w9, w10⟩ := dims_good hs hw hd
  obtain ⟨es, m, -, -, -, -, -, -, -, hdim, -⟩ := parseStack_spec hp
  have e1 : G.d.chipLength = s.dims.chipL := by rw [h4, hdim]; exact w5
  have e2 : G.d.chipWidth = s.dims.chipW := by rw [h4, hdim]; exact w6
  exact ⟨⟨d0, _, by rw [← h3]; exact .fresh h2.grid⟩, g.fit, h9.trans e1.symm, ⟨e1, e2⟩, g.odd, fun n hn => (elems_good h.means hs hg hn).1⟩

/-! #### The cells of a layer -/

def layerIdx (cs : List (NU.Cell ℚ)) (l : Nat) : List Nat := (cs.zipIdx.filter fun p => decide (p.1.layer = l)).map (·.2)

theorem layerIdx_cells (G : NU.Grid ℚ) (l : Nat) : LayerCells G l (layerIdx G.cells l) := by
  constructor
  · have hsub : (layerIdx G.cells l).Sublist (G.cells.zipIdx.map Prod.snd) := List.Sublist.map Prod.snd List.filter_sublist
    rw [List.zipIdx_map_snd] at hsub
    exact List.Pairwise.sublist hsub List.pairwise_lt_range'
  · intro i
    unfold layerIdx InLayer
    simp only [List.mem_map, List.mem_filter, decide_eq_true_eq, Prod.exists, exists_eq_right]
    constructor
    · rintro ⟨c, h1, h2⟩
      exact ⟨c, List.mk_mem_zipIdx_iff_getElem?.mp h1, h2⟩
    · rintro ⟨c, h1, h2⟩
      exact ⟨c, List.mk_mem_zipIdx_iff_getElem?.mpr h1, h2⟩

theorem layerValues_eq (cs : List (NU.Cell ℚ)) (l : Nat) (x : List ℚ) : NU.layerValues cs l x = (layerIdx cs l).map fun i => x.getD i 0 := by
  unfold NU.layerValues layerIdx
  rw [List.map_map]; rfl

/-- The first cell of a layer. -/
theorem first_of_layer (ls : List (List (NU.Cell ℚ))) (a l : Nat) (hlay : ∀ (k : Nat) lc, ls[k]? = some lc → ∀ c ∈ lc, c.layer = a + k)
    {lc : List (NU.Cell ℚ)} (hlc : ls[l]? = some lc) (hne : lc ≠ []) :
    ls.flatten.findIdx (fun c => c.layer == a + l) = ((ls.take l).map List.length).sum := by
  induction ls generalizing a l with
  | nil => simp at hlc
  | cons L ls ih =>
    have hL : ∀ c ∈ L, c.layer = a := fun c hc => hlay 0 L rfl c hc
    have hrest : ∀ (k : Nat) lc, ls[k]? = some lc → ∀ c ∈ lc, c.layer = (a + 1) + k := by
      intro k lc hk c hc
      rw [hlay (k + 1) lc (by rw [List.getElem?_cons_succ]; exact hk) c hc]; omega
    rw [List.flatten_cons]
    cases l with
    | zero =>
      rw [List.getElem?_cons_zero] at hlc
      obtain rfl := Option.some.inj hlc
      cases L with
      | nil => exact absurd rfl hne
      | cons c L =>
        rw [List.cons_append, List.findIdx_cons, show (c.layer == a + 0) = true by simp [hL c (by simp)]]
        rfl
    | succ l =>
      rw [List.getElem?_cons_succ] at hlc
      have hn : L.findIdx (fun c => c.layer == a + (l + 1)) = L.length := by
        rw [List.findIdx_eq_length]
        intro c hc
        have := hL c hc
        simp; omega
      rw [List.findIdx_append, hn, if_neg (lt_irrefl _), show a + (l + 1) = a + 1 + l by omega, ih (a + 1) l hrest hlc,
        List.take_succ_cons, List.map_cons, List.sum_cons, Nat.add_comm]

/-! #### The points -/

section
variable {d0 : Dims ℚ} {rs : List (Raw ℚ (List (NU.FEl ℚ)))}

theorem shown_lt (hf : NU.FromStack d0 D.chan rs (nElems D) G) {n : NU.NElem ℚ} (hn : n ∈ nElems D) : sourceLayerOffset n.elem < G.d.nLayers := by
  have hok := hf.elemOk hn
  have key : ∃ k, k < nLayersOf n.elem ∧ sourceLayerOffset n.elem = n.elem.offset + k := by
    unfold ElemOk at hok
    unfold nLayersOf sourceLayerOffset
    cases hb : n.elem.body with
    | die b => rw [hb] at hok; exact ⟨b.srcOff, hok, rfl⟩
    | layer l => exact ⟨0, by simp, rfl⟩
    | channel ch => exact ⟨chSrcOff ch, by simp only [chLayers, chSrcOff]; split_ifs <;> omega, rfl⟩
  obtain ⟨k, k1, k2⟩ := key
  rw [k2]
  exact (hf.layersAt hn k1).1

theorem hits_eq (ms : Table (Material ℚ)) (fs : List FlpD) (x y : ℚ) : ((fs.map (elOf ms)).map (·.rect)).countP (NU.inRect x y) = hits fs x y := by
  unfold hits
  rw [List.map_map]
  have : ((fun e : NU.FEl ℚ => e.rect) ∘ elOf ms) = fun f => firstRect f.area := funext fun f => elOf_first ms f
  rw [this]
  rfl

theorem others_more (ms : Table (Material ℚ)) (f : FlpD) : (elOf ms f).others.length = more f := by
  unfold more areaRects elOf
  cases f.area with
  | one => rfl
  | many rs => cases rs <;> rfl

theorem over_of {n : NU.NElem ℚ} {l : Nat} (hl : sourceLayerOffset n.elem = l) {temps : List ℚ} {r : Rect ℚ} {S : Finset Nat} {q : QuantD} {k : Out.Quantity}
    {v : ℚ} {more : Nat} (hq : Quant q k) (h1 : S.Nonempty) (h2 : ∀ i, i ∈ S ↔ NU.ElementCell G n r i) (h3 : NU.AsWritten temps S more k v) :
    Over G l temps r more q v := by
  refine ⟨S, h1, ?_, ?_⟩
  · intro i; rw [h2]; unfold NU.ElementCell Inside; rw [hl]
  · rcases hq with ⟨rfl, rfl⟩ | ⟨rfl, rfl⟩ | ⟨rfl, rfl⟩ | ⟨rfl, rfl⟩ <;> exact h3

theorem quant_some {q : QuantD} {k : Out.Quantity} (h : Quant q k) : k ≠ .none := by
  rcases h with ⟨-, rfl⟩ | ⟨-, rfl⟩ | ⟨-, rfl⟩ | ⟨-, rfl⟩ <;> decide

end

theorem find_named_flp {fs : List FlpD} {sub : String} {i : Nat} (h : (fs.map (·.id))[i]? = some sub) (hj : ∀ j < i, (fs.map (·.id))[j]? ≠ some sub) :
    ∃ f, fs[i]? = some f ∧ fs.find? (fun x => x.id == sub) = some f := by
  induction fs generalizing i with
  | nil => simp at h
  | cons a fs ih =>
    rw [List.find?_cons]
    cases i with
    | zero =>
      have : a.id = sub := by simpa using h
      exact ⟨a, rfl, by rw [this]; simp⟩
    | succ i =>
      have ha : a.id ≠ sub := fun hh => hj 0 (by omega) (by simp [hh])
      rw [show (a.id == sub) = false by simp [ha]]
      simp only [List.getElem?_cons_succ]
      exact ih (by simpa using h) fun j hji => by simpa using hj (j + 1) (by omega)

/-! #### The outlet -/

section
variable {d0 : Dims ℚ} {rs : List (Raw ℚ (List (NU.FEl ℚ)))}

/-- The cells at the outlet of a channel. -/
theorem outlet_cells (hf : NU.FromStack d0 D.chan rs (nElems D) G) (g : ShownGrid w s D G) {n : NU.NElem ℚ} (hn : n ∈ nElems D) {ch : Channel ℚ}
    (hb : n.elem.body = .channel ch) (hodd : ch.model = .mc4rm → G.d.nCols % 2 = 1) :
    (∀ i, AtOutlet s G (sourceLayerOffset n.elem) i ↔ ∃ c ∈ Outlet.coolantCols ch.model G.d.nCols, i = G.at (sourceLayerOffset n.elem) (G.d.nRows - 1) c) ∧
      AtCorner s G (sourceLayerOffset n.elem) (G.at (sourceLayerOffset n.elem) (G.d.nRows - 1) 0) := by
  have hsz := hf.wf.sized
  have hr1 := hsz.rows.1
  have hc1 := hsz.cols.1
  have hk : chSrcOff ch < chLayers ch := by simp only [chLayers, chSrcOff]; split_ifs <;> omega
  have hl : sourceLayerOffset n.elem = n.elem.offset + chSrcOff ch := by unfold sourceLayerOffset; rw [hb]
  have hcl : n.elem.offset + chSrcOff ch = SM.coolantLayer n.elem ch := by
    simp only [chSrcOff, SM.coolantLayer]; split_ifs <;> rfl
  obtain ⟨h1, h2⟩ := NU.C58_cells hf g.whole hn hb hk
  rw [← hl] at h1 h2
  have hn0 : (0 : ℚ) < G.d.nRows := by exact_mod_cast hr1
  have hW := g.fit.chip
  have hrow : ∀ r : Nat, r < G.d.nRows → (G.d.chipWidth / (G.d.nRows : ℚ) * (r : ℚ) + G.d.chipWidth / (G.d.nRows : ℚ) = G.d.chipWidth ↔ r = G.d.nRows - 1) := by
    intro r hr
    constructor
    · intro h
      have : G.d.chipWidth * ((r : ℚ) + 1 - G.d.nRows) = 0 := by
        rw [← mul_add_one, div_mul_eq_mul_div, div_eq_iff (ne_of_gt hn0)] at h
        linarith
      rcases mul_eq_zero.mp this with h0 | h0
      · exact absurd h0 (ne_of_gt hW)
      · have : (r + 1 : ℚ) = G.d.nRows := by linarith
        have : r + 1 = G.d.nRows := by exact_mod_cast this
        omega
    · intro h
      have : (r + 1 : ℚ) = G.d.nRows := by exact_mod_cast (by omega : r + 1 = G.d.nRows)
      rw [← mul_add_one, this]; field_simp
  have hwet : ∀ c, c < G.d.nCols → (NU.WetCol G ch c ↔ c ∈ Outlet.coolantCols ch.model G.d.nCols) := by
    intro c hc
    unfold NU.WetCol Outlet.coolantCols
    simp only [Finset.mem_filter, Finset.mem_range]
    constructor
    · intro h; exact ⟨hc, fun hm => (h hm).1⟩
    · rintro ⟨-, h⟩ hm
      have := h hm; have := hodd hm
      exact ⟨h hm, by omega⟩
  refine ⟨?_, ?_⟩
  · intro i
    constructor
    · rintro ⟨c, hc, h3, h4, h5⟩
      obtain ⟨hi, hci⟩ := List.getElem?_eq_some_iff.mp hc
      obtain ⟨r, cc, q1, q2, rfl⟩ := h2 i hi (by rw [hci]; exact h3)
      obtain ⟨cell, k1, -, -, -, k5, k6, k7⟩ := h1 r cc q1 q2
      rw [k1] at hc
      obtain rfl := Option.some.inj hc
      rw [k6, k5, ← g.sides.2] at h5
      obtain rfl := (hrow r q1).mp h5
      exact ⟨cc, (hwet cc q2).mp (k7.mp h4).2, rfl⟩
    · rintro ⟨c, hc, rfl⟩
      have hcc : c < G.d.nCols := by
        unfold Outlet.coolantCols at hc
        exact Finset.mem_range.mp (Finset.mem_filter.mp hc).1
      obtain ⟨cell, k1, k2, -, -, k5, k6, k7⟩ := h1 (G.d.nRows - 1) c (by omega) hcc
      exact ⟨cell, k1, k2, k7.mpr ⟨by rw [hl, hcl], (hwet c hcc).mpr hc⟩, by rw [k6, k5, ← g.sides.2]; exact (hrow _ (by omega)).mpr rfl⟩
  · obtain ⟨cell, k1, k2, k3, -, k5, k6, -⟩ := h1 (G.d.nRows - 1) 0 (by omega) (by omega)
    exact ⟨cell, k1, k2, by rw [k3]; simp, by rw [k6, k5, ← g.sides.2]; exact (hrow _ (by omega)).mpr rfl⟩

/-- The temperatures at the outlet. -/
theorem outlet_temps (hf : NU.FromStack d0 D.chan rs (nElems D) G) {n : NU.NElem ℚ} (hn : n ∈ nElems D) {ch : Channel ℚ}
    (hb : n.elem.body = .channel ch) (temps : List ℚ) (c : Nat) :
    Outlet.outletTemp G.d (fromLayerNU G.ls.flatten (sourceLayerOffset n.elem) temps) c = temps.getD (G.at (sourceLayerOffset n.elem) (G.d.nRows - 1) c) 0 := by
  have hk : chSrcOff ch < chLayers ch := by simp only [chLayers, chSrcOff]; split_ifs <;> omega
  have hl : sourceLayerOffset n.elem = n.elem.offset + chSrcOff ch := by unfold sourceLayerOffset; rw [hb]
  obtain ⟨-, -, -, -, -, h⟩ := hf.channel hn hb
  have h1 := (h _ hk).1
  rw [← hl] at h1
  have hne : NU.channelLayer G.d ch.model n.elem.offset (chSrcOff ch) ≠ [] := by
    intro h0
    have h2 := congrArg List.length h0
    have hsz := hf.wf.sized
    have h3 := Nat.mul_pos hsz.cols.1 hsz.rows.1
    rw [NU.channelLayer_length] at h2
    exact absurd h2 (ne_of_gt h3)
  have hfirst := first_of_layer G.ls 0 (sourceLayerOffset n.elem) (fun k lc hk c hc => by rw [hf.layered k lc hk c hc, Nat.zero_add]) h1 hne
  rw [Nat.zero_add] at hfirst
  unfold Outlet.outletTemp fromLayerNU
  rw [hfirst, List.getD_eq_getElem?_getD, List.getElem?_drop, List.getD_eq_getElem?_getD]
  rfl
end

theorem chan_rm4 (M : Means nuReader w.eff (filesOf w.read) s D) {ch : Channel ℚ} (h : D.chan = some ch) (h4 : ch.model = .mc4rm) :
    ∃ a b c d e f g h i j, s.chan = some (.rm4 a b c d e f g h i j) := by
  obtain ⟨walls, d, spr, -, -, -, hc, -⟩ := M.stack
  rw [h] at hc
  cases hs : s.chan with
  | none => rw [hs] at hc; exact hc.elim
  | some x =>
    rw [hs] at hc
    have hc : ChanIs w.eff s.mats d x ch := hc
    cases x with
    | rm4 a b c d e f g h i j => exact ⟨_, _, _, _, _, _, _, _, _, _, rfl⟩
    | rm2 => rw [hc.2.2.1] at h4; cases h4
    | pin h di p st m u v i => rw [hc.2.2.1] at h4; cases st <;> cases h4

/-- What a point prints in its own file. -/
theorem point_value (M : Means nuReader w.eff (filesOf w.read) s D) (g : ShownGrid w s D G) {x : PointD} {p : RPoint NFlps}
    (hp : PointIs nuReader D.parsed.dims D.parsed.elems x p) {temps sources : List ℚ} {time : ℚ} {r : Out.Record ℚ}
    (hr : recordNU G temps sources time p.quantity p.target = some r) : PointValue (filesOf w.read) s G temps sources time x r := by
  obtain ⟨d0, rs, hf⟩ := g.from_
  have hns : G.ns = (nElems D).map NU.fixDiscr := by obtain ⟨_, -, -, -, -, -, -, h⟩ := hf.spec; exact h
  have sh : ∀ {e : SElem ℚ NFlps} {el}, e ∈ D.parsed.elems → e.id = el → Shown s el (sourceLayerOffset e) := by
    rintro e el he rfl; exact (shown_layer M he).1
  have spot : ∀ {e : SElem ℚ NFlps}, e ∈ D.parsed.elems → ∃ n, (nElems D)[placeOf G e]? = some n ∧ n.elem = elemMap (List.map (elOf D.mats)) e ∧
      n ∈ nElems D ∧ sourceLayerOffset n.elem = sourceLayerOffset e := by
    intro e he
    obtain ⟨n, h1, h2⟩ := place_spec M hns he
    exact ⟨n, h1, h2, List.mem_of_getElem? h1, by rw [h2, sourceLayer_map]⟩
  cases x with
  | tcell el x y fl wh =>
    obtain ⟨-, -, -, e, he, hid, ht⟩ := hp
    rw [ht] at hr
    refine ⟨_, sh he hid, fun x0 x1 y0 y1 hcov => ?_⟩
    obtain ⟨n, n1, n2, n3, n4⟩ := spot he
    have hone : ∀ n ∈ nElems D, ∀ b, n.elem.body = .die b → (b.flp.map (·.rect)).countP (NU.inRect x y) = 1 := by
      intro n hn b hb
      obtain ⟨d, x', hx', raw, e', k1, k2, k3, -⟩ := nElem_of M hn
      rw [hb] at k3
      cases x' with
      | channel id =>
        have k1 : raw = _ := k1
        subst k1
        obtain ⟨ch, -, rfl⟩ := Option.map_eq_some_iff.mp k2
        cases k3
      | layer id ref o => obtain ⟨l, -, rfl⟩ := k1; cases k2; cases k3
      | die id ref path o =>
        obtain ⟨q, f, g', -, hfl, hrd, rfl⟩ := k1
        cases k2
        have hgf : g' = f := by
          obtain ⟨_, -, e⟩ := Option.map_eq_some_iff.mp hrd
          exact e.symm
        subst hgf
        have hb' : b.flp = g'.map (elOf D.mats) := congrArg (fun b => match b with | .die d => d.flp | _ => []) k3
        rw [hb', hits_eq]
        exact hcov id g' ⟨ref, path, o, hx', hfl⟩
    obtain ⟨i, c, k1, k2, k3, k4, k5⟩ := NU.C55_probe_in_stack hf g.fit g.whole g.divided x y ⟨x0, by rw [g.sides.1]; exact x1⟩
      ⟨y0, by rw [g.sides.2]; exact y1⟩ hone (l := sourceLayerOffset e) (by rw [← n4]; exact shown_lt hf n3) temps sources time p.quantity
    have hr' : NU.renderNU G.cells temps sources time p.quantity (.tcell (sourceLayerOffset e) x y) = some r := hr
    rw [k5] at hr'
    refine ⟨i, ⟨c, k1, k2, by simpa [NU.inCell] using k3⟩, ?_, (Option.some.inj hr').symm⟩
    rintro j ⟨c', q1, q2, q3⟩
    exact k4 j c' q1 q2 (by simpa [NU.inCell] using q3)
  | tflp el fl q wh =>
    obtain ⟨-, hq, -, e, he, hid, b, hb, ht⟩ := hp
    rw [ht] at hr
    refine ⟨_, b.flp, sh he hid, hid ▸ die_file M he hb, fun hap => ?_⟩
    obtain ⟨n, n1, n2, n3, n4⟩ := spot he
    have hnb : n.elem.body = .die ⟨b.layers, b.srcOff, b.flp.map (elOf D.mats)⟩ := by rw [n2]; unfold elemMap; rw [hb]; rfl
    obtain ⟨vs, k1, k2, k3⟩ := NU.C55_floorplan_written hf n1 hnb (g.divided n n3) (fun x y => by rw [hits_eq]; exact hap x y) temps sources time (quant_some hq)
    have hr' : NU.renderNU G.cells temps sources time p.quantity (.tflp (NU.dieMarks G.d G.ns (placeOf G e))) = some r := hr
    rw [hns, k1] at hr'
    refine ⟨vs, (Option.some.inj hr').symm, ?_⟩
    rw [List.forall₂_iff_get]
    have hlen : vs.length = b.flp.length := by rw [k2]; simp
    refine ⟨hlen.symm, fun i h1 h2 => ?_⟩
    obtain ⟨v, S, q1, q2, q3, q4⟩ := k3 i (elOf D.mats b.flp[i]) (by rw [List.getElem?_map, List.getElem?_eq_getElem h1]; rfl)
    rw [List.getElem?_eq_getElem h2] at q1
    rw [List.get_eq_getElem, List.get_eq_getElem, Option.some.inj q1, ← elOf_first D.mats, ← others_more D.mats]
    exact over_of n4 hq q2 q3 q4
  | tflpel el sub fl q wh =>
    obtain ⟨-, hq, -, e, he, hid, b, i, hb, hi, hj, ht⟩ := hp
    rw [ht] at hr
    obtain ⟨f, f1, f2⟩ := find_named_flp (fs := b.flp) hi hj
    refine ⟨_, b.flp, f, sh he hid, hid ▸ die_file M he hb, f2, fun hap => ?_⟩
    obtain ⟨n, n1, n2, n3, n4⟩ := spot he
    have hnb : n.elem.body = .die ⟨b.layers, b.srcOff, b.flp.map (elOf D.mats)⟩ := by rw [n2]; unfold elemMap; rw [hb]; rfl
    obtain ⟨ml, v, S, k1, k2, k3, k4, k5⟩ := NU.C55_element_written hf n1 hnb (g.divided n n3) (fun x y => by rw [hits_eq]; exact hap x y)
      (j := i) (e := elOf D.mats f) (by rw [List.getElem?_map, f1]; rfl) temps sources time (quant_some hq)
    have hr' : NU.renderNU G.cells temps sources time p.quantity (.tflpel ((NU.dieMarks G.d G.ns (placeOf G e)).getD i [])) = some r := hr
    rw [hns, List.getD_eq_getElem?_getD, k1, Option.getD_some, k2] at hr'
    exact ⟨v, (Option.some.inj hr').symm, by rw [← elOf_first D.mats, ← others_more D.mats]; exact over_of n4 hq k3 k4 k5⟩
  | tmap el fl wh =>
    obtain ⟨-, -, -, e, he, hid, ht⟩ := hp
    rw [ht] at hr
    refine ⟨_, _, sh he hid, layerIdx_cells G _, ?_⟩
    have hr' : some (Out.Record.map [NU.layerValues G.cells (sourceLayerOffset e) temps]) = some r := hr
    rw [layerValues_eq] at hr'
    exact (Option.some.inj hr').symm
  | pmap el fl wh =>
    obtain ⟨-, -, -, e, he, hid, ht⟩ := hp
    rw [ht] at hr
    refine ⟨_, _, sh he hid, layerIdx_cells G _, ?_⟩
    have hr' : some (Out.Record.map [NU.layerValues G.cells (sourceLayerOffset e) sources]) = some r := hr
    rw [layerValues_eq] at hr'
    exact (Option.some.inj hr').symm
  | t3d fl wh => obtain ⟨-, -, -, ht⟩ := hp; rw [ht] at hr; cases hr
  | tcoolant el fl q wh =>
    obtain ⟨-, hq, -, e, he, hid, ch, hb, ht⟩ := hp
    rw [ht] at hr
    obtain ⟨n, n1, n2, n3, n4⟩ := spot he
    have hnb : n.elem.body = .channel ch := by rw [n2]; unfold elemMap; rw [hb]; rfl
    have hGc := (hf.channel n3 hnb).1
    have hDc := (shown_layer M he).2 ch hb
    obtain ⟨o1, o2⟩ := outlet_cells hf g n3 hnb (fun h => g.odd ch hGc h)
    have o3 := outlet_temps hf n3 hnb temps
    rw [n4] at o1 o2 o3
    have hsz := hf.wf.sized
    have hWa : G.d.nRows * G.d.nCols < W := by
      obtain ⟨a, -, b⟩ := wf_chip hf.wf
      have : G.d.nRows * G.d.nCols ≤ chip G.d := Nat.le_mul_of_pos_left _ hf.wf.L1
      omega
    obtain ⟨a1, a2, a3⟩ := Outlet.maxOut_spec hsz hWa ch (fromLayerNU G.ls.flatten (sourceLayerOffset e) temps)
    obtain ⟨b1, b2, b3⟩ := Outlet.minOut_spec hsz hWa ch (fromLayerNU G.ls.flatten (sourceLayerOffset e) temps)
    simp only [o3] at a1 a2 a3 b1 b2 b3
    have corner : ∀ {v : ℚ}, v = temps.getD (G.at (sourceLayerOffset e) (G.d.nRows - 1) 0) 0 →
        (∃ i, AtOutlet s G (sourceLayerOffset e) i ∧ temps.getD i 0 = v) ∨
          (∃ a b c d e f g h i j, s.chan = some (.rm4 a b c d e f g h i j)) ∧ ∃ i, AtCorner s G (sourceLayerOffset e) i ∧ temps.getD i 0 = v := by
      intro v hv
      by_cases h4 : ch.model = .mc4rm
      · exact .inr ⟨chan_rm4 M hDc h4, _, o2, hv.symm⟩
      · refine .inl ⟨_, (o1 _).mpr ⟨0, ?_, rfl⟩, hv.symm⟩
        unfold Outlet.coolantCols
        simp [h4]
        exact hsz.cols.1
    have hot : HottestOutlet s G (sourceLayerOffset e) temps (Outlet.maxOut ch G.d (fromLayerNU G.ls.flatten (sourceLayerOffset e) temps)) := by
      refine ⟨?_, ?_⟩
      · intro i hi
        obtain ⟨c, hc, rfl⟩ := (o1 i).mp hi
        exact a2 c hc
      · rcases a3 with a3 | ⟨c, hc, a3⟩
        · exact corner a3
        · exact .inl ⟨_, (o1 _).mpr ⟨c, hc, rfl⟩, a3⟩
    have cold : ColdestOutlet s G (sourceLayerOffset e) temps (Outlet.minOut ch G.d (fromLayerNU G.ls.flatten (sourceLayerOffset e) temps)) := by
      refine ⟨?_, ?_⟩
      · intro i hi
        obtain ⟨c, hc, rfl⟩ := (o1 i).mp hi
        exact b2 c hc
      · rcases b3 with b3 | ⟨c, hc, b3⟩
        · exact corner b3
        · exact .inl ⟨_, (o1 _).mpr ⟨c, hc, rfl⟩, b3⟩
    have hr' : (Out.outletStat ch G.d (fromLayerNU G.ls.flatten (sourceLayerOffset e) temps) p.quantity).map (fun v => Out.Record.line time [v]) = some r := hr
    obtain ⟨v, v1, v2⟩ := Option.map_eq_some_iff.mp hr'
    refine ⟨_, v, sh he hid, v2.symm, ?_⟩
    rcases hq with ⟨rfl, hq⟩ | ⟨rfl, hq⟩ | ⟨rfl, hq⟩ | ⟨rfl, hq⟩ <;> rw [hq] at v1 <;> obtain rfl := Option.some.inj v1
    · exact hot
    · exact cold
    · trivial
    · exact hot

theorem layer_rows (cs : List (NU.Cell ℚ)) (l : Nat) :
    List.Forall₂ (fun i row => ∃ c, cs[i]? = some c ∧ row = (c.x0, c.y0, c.x1 - c.x0, c.y1 - c.y0)) (layerIdx cs l)
      ((cs.filter fun c => c.layer == l).map fun c => (c.x0, c.y0, c.x1 - c.x0, c.y1 - c.y0)) := by
  have h1 : cs.filter (fun c => c.layer == l) = (cs.zipIdx.filter fun p => decide (p.1.layer = l)).map (·.1) := by
    have : cs = cs.zipIdx.map (·.1) := by rw [List.zipIdx_map_fst]
    conv_lhs => rw [this, List.filter_map]
    congr 1
  rw [h1, layerIdx, List.map_map, List.forall₂_map_left_iff, List.forall₂_map_right_iff, List.forall₂_same]
  intro p hp
  exact ⟨p.1, List.mk_mem_zipIdx_iff_getElem?.mp (List.mem_of_mem_filter hp), rfl⟩

/-- What a point writes. -/
theorem doc_writes (M : Means nuReader w.eff (filesOf w.read) s D) (g : ShownGrid w s D G) {x : PointD} {p : RPoint NFlps}
    (hp : PointIs nuReader D.parsed.dims D.parsed.elems x p) {canOpen : String → Bool} {temps sources : List ℚ} {time : ℚ} {step slotLength : Nat} {l : NLog}
    (h : PointWrites canOpen G temps sources time step slotLength p l) : DocWrites canOpen (filesOf w.read) s G temps sources time step slotLength x l := by
  have maps : ∀ (v : List ℚ) {e : SElem ℚ NFlps} {el : String}, e ∈ D.parsed.elems → e.id = el →
      (∀ r, recordNU G temps sources time p.quantity p.target = some r → r = .map [NU.layerValues G.cells (sourceLayerOffset e) v]) →
      ((canOpen ("xyaxis_" ++ e.id ++ ".txt") = true ∧ ∃ r, recordNU G temps sources time p.quantity p.target = some r ∧
        l = [⟨"xyaxis_" ++ e.id ++ ".txt", false, .axes ((G.cells.filter fun c => c.layer == sourceLayerOffset e).map
          fun c => (c.x0, c.y0, c.x1 - c.x0, c.y1 - c.y0))⟩, ⟨p.file, true, .record r⟩]) ∨
      (canOpen ("xyaxis_" ++ e.id ++ ".txt") = false ∧ l = [⟨p.file, true, .record (.map [])⟩])) → MapWrites canOpen s G v el p.file l := by
    rintro v e el he rfl hv (⟨h1, r, h2, h3⟩ | ⟨h1, h2⟩)
    · refine .inl ⟨h1, _, layerIdx G.cells (sourceLayerOffset e), _, (shown_layer M he).1, layerIdx_cells G _, layer_rows _ _, ?_⟩
      rw [← layerValues_eq, ← hv r h2]
      exact h3
    · exact .inr ⟨h1, h2⟩
  unfold PointWrites at h
  cases x with
  | tcell el x y fl wh =>
    have hp' := hp
    obtain ⟨-, -, hfl, e, he, hid, ht⟩ := hp
    rw [ht] at h
    obtain ⟨r, h1, h2⟩ := h
    exact ⟨r, point_value M g hp' (by rw [ht]; exact h1), by rw [h2, hfl]; rfl⟩
  | tflp el fl q wh =>
    have hp' := hp
    obtain ⟨-, hq, hfl, e, he, hid, b, hb, ht⟩ := hp
    rw [ht] at h
    obtain ⟨r, h1, h2⟩ := h
    exact ⟨r, point_value M g hp' (by rw [ht]; exact h1), by rw [h2, hfl]; rfl⟩
  | tflpel el sub fl q wh =>
    have hp' := hp
    obtain ⟨-, hq, hfl, e, he, hid, b, i, hb, hi, hj, ht⟩ := hp
    rw [ht] at h
    obtain ⟨r, h1, h2⟩ := h
    exact ⟨r, point_value M g hp' (by rw [ht]; exact h1), by rw [h2, hfl]; rfl⟩
  | tcoolant el fl q wh =>
    have hp' := hp
    obtain ⟨-, hq, hfl, e, he, hid, ch, hb, ht⟩ := hp
    rw [ht] at h
    obtain ⟨r, h1, h2⟩ := h
    exact ⟨r, point_value M g hp' (by rw [ht]; exact h1), by rw [h2, hfl]; rfl⟩
  | tmap el fl wh =>
    obtain ⟨-, -, hfl, e, he, hid, ht⟩ := hp
    rw [ht] at h
    show MapWrites canOpen s G temps el fl l
    rw [← hfl]
    refine maps temps he hid (fun r hr => ?_) (by rw [ht]; exact h)
    rw [ht] at hr
    exact (Option.some.inj hr).symm
  | pmap el fl wh =>
    obtain ⟨-, -, hfl, e, he, hid, ht⟩ := hp
    rw [ht] at h
    show MapWrites canOpen s G sources el fl l
    rw [← hfl]
    refine maps sources he hid (fun r hr => ?_) (by rw [ht]; exact h)
    rw [ht] at hr
    exact (Option.some.inj hr).symm
  | t3d fl wh =>
    obtain ⟨hat, -, hfl, ht⟩ := hp
    rw [ht] at h
    obtain ⟨n, h1, h2⟩ := h
    have : n = vtkFile fl wh step slotLength := by
      rw [← hfl]
      unfold VtkFile at h1
      rcases hat with ⟨rfl, hat⟩ | ⟨rfl, hat⟩ | ⟨hw, hat⟩ <;> rw [hat] at h1
      · rcases h1 with ⟨h1, -⟩ | ⟨h1, -⟩ | ⟨-, -, h1⟩
        · cases h1
        · cases h1
        · exact h1
      · rcases h1 with ⟨h1, -⟩ | ⟨-, h1⟩ | ⟨-, h1, -⟩
        · cases h1
        · exact h1
        · exact absurd rfl h1
      · have e : vtkFile p.file wh step slotLength = p.file := by rcases hw with rfl | rfl <;> rfl
        rw [e]
        rcases h1 with ⟨-, h1⟩ | ⟨h1, -⟩ | ⟨h1, -, -⟩
        · exact h1
        · cases h1
        · exact absurd rfl h1
    subst this
    exact h2

theorem filter_forall₂ {α β : Type} {r : α → β → Prop} {f : α → Bool} {f' : β → Bool} (hf : ∀ a b, r a b → f a = f' b) :
    ∀ {as : List α} {bs : List β}, List.Forall₂ r as bs → List.Forall₂ r (as.filter f) (bs.filter f')
  | _, _, .nil => .nil
  | a :: as, b :: bs, .cons h t => by
    rw [List.filter_cons, List.filter_cons, hf a b h]
    cases f' b
    · exact filter_forall₂ hf t
    · exact .cons h (filter_forall₂ hf t)

theorem at_iff {x : PointD} {p : RPoint NFlps} {d : Dims ℚ} {es : List (SElem ℚ NFlps)} (hp : PointIs nuReader d es x p) : At (whenOf x) p.instant := by
  cases x <;> exact hp.1

/-- The points of an instant. -/
theorem points_on (M : Means nuReader w.eff (filesOf w.read) s D) (i : Out.Instant) :
    List.Forall₂ (PointIs nuReader D.parsed.dims D.parsed.elems) (pointsOn s i) (D.points.filter fun p => p.instant = i) := by
  refine filter_forall₂ ?_ M.points
  intro x p hp
  have := at_iff hp
  rcases this with ⟨h1, h2⟩ | ⟨h1, h2⟩ | ⟨h1 | h1, h2⟩ <;> cases i <;> simp [h1, h2]

/-- What the points of an instant write, in the order of the stack file. -/
def DocAll (canOpen : String → Bool) (files : Files) (s : StackD) (i : Out.Instant) (G : NU.Grid ℚ) (x : NU.NSim ℚ π) (time : ℚ) (step slotLength : Nat)
    (l : NLog) : Prop :=
  ∃ ls, List.Forall₂ (DocWrites canOpen files s G x.temps x.sources time step slotLength) (pointsOn s i) ls ∧ l = ls.flatten

theorem doc_all (h : StartedNU w s D an G s0) (hs : Sensible w.eff (filesOf w.read) s) (hg : GoodDivision (filesOf w.read) s) {canOpen : String → Bool}
    {i : Out.Instant} {x : NU.NSim ℚ π} {time : ℚ} {step slotLength : Nat} {l : NLog} (ha : AllWrite canOpen D.points i G x time step slotLength l) :
    DocAll canOpen (filesOf w.read) s i G x time step slotLength l := by
  obtain ⟨ls, h1, h2⟩ := ha
  exact ⟨ls, forall₂_trans (p := PointIs nuReader D.parsed.dims D.parsed.elems) (q := PointWrites canOpen G x.temps x.sources time step slotLength)
    (r := DocWrites canOpen (filesOf w.read) s G x.temps x.sources time step slotLength)
    (fun a b c k1 k2 => doc_writes h.means (h.shown hs hg) k1 k2) (points_on h.means i) h1, h2⟩

/-- **C71 (transient)** What a transient simulation writes, in terms of the description files: after every step the `step` points of the stack
file, at the end of every slot also its `slot` points, at the end its `final` points and those with no instant; each with the values of
the cells it refers to, at the time of that step. -/
theorem C71_transient (h : SessionNU w file s D an G s0 log s') (hs : Sensible w.eff (filesOf w.read) s) (hg : GoodDivision (filesOf w.read) s)
    (hm : ∀ x, w.mul10 x = x * 10) {step slot : ℚ} (ht : s.solver.kind = some (step, slot))
    (hW : ∃ t ∈ filePowers (filesOf w.read) s, t.length * an.slotLength < 2 ^ 32) :
    ∃ n, (∀ k, k < n → Succeeded (NU.stepNU (configNU w an) (NU.afterSteps (configNU w an) s0 k)).1) ∧
      ((NU.stepNU (configNU w an) (NU.afterSteps (configNU w an) s0 n)).1 = .endOfSimulation ∨
        (NU.stepNU (configNU w an) (NU.afterSteps (configNU w an) s0 n)).1 = .solverError) ∧
      s' = NU.afterSteps (configNU w an) s0 (n + 1) ∧
      ∃ (steps slots : Nat → NLog) (final : NLog),
        log = ((List.range n).flatMap fun k => steps k ++ if an.slotLength ∣ k + 1 then slots k else []) ++ final ∧
        (∀ k, k < n → DocAll w.canOpen (filesOf w.read) s .step G (NU.afterSteps (configNU w an) s0 (k + 1)) ((k + 1 : Nat) * step) (k + 1) an.slotLength (steps k)) ∧
        (∀ k, k < n → an.slotLength ∣ k + 1 →
          DocAll w.canOpen (filesOf w.read) s .slot G (NU.afterSteps (configNU w an) s0 (k + 1)) ((k + 1 : Nat) * step) (k + 1) an.slotLength (slots k)) ∧
        DocAll w.canOpen (filesOf w.read) s .final G s' (n * step) n an.slotLength final := by
  obtain ⟨n, h1, h2, h3, steps, slots, final, h4, h5, h6, h7⟩ := C69_transient_outputs h hs hm ht hW
  exact ⟨n, h1, h2, h3, steps, slots, final, h4, fun k hk => doc_all h.start hs hg (h5 k hk), fun k hk hd => doc_all h.start hs hg (h6 k hk hd),
    doc_all h.start hs hg h7⟩

/-- **C71 (steady)** A steady simulation writes the `final` points of the stack file and those with no instant, once. -/
theorem C71_steady (h : SessionNU w file s D an G s0 log s') (hs : Sensible w.eff (filesOf w.read) s) (hg : GoodDivision (filesOf w.read) s)
    (hm : ∀ x, w.mul10 x = x * 10) (ht : s.solver.kind = none) :
    s' = (NU.steadyNU (configNU w an) s0).2 ∧ DocAll w.canOpen (filesOf w.read) s .final G s' 0 0 an.slotLength log := by
  obtain ⟨h1, h2⟩ := C69_steady_outputs h hs hm ht
  exact ⟨h1, doc_all h.start hs hg h2⟩

/-! ### `conductance_layer.txt` -/

/-- The line of a layer of a die: how many cells, their area, their height, and the sum of their conductances kz·area/height. -/
def LayerLine (G : NU.Grid ℚ) (l : Nat) (row : Nat × ℚ × ℚ × ℚ) : Prop :=
  ∃ is, LayerCells G l is ∧ row.1 = is.length ∧ row.2.2.1 = G.d.heights.getD l 0 ∧
    ∃ cs, List.Forall₂ (fun i c => G.cells[i]? = some c) is cs ∧ row.2.1 = (cs.map fun c => (c.x1 - c.x0) * (c.y1 - c.y0)).sum ∧
      row.2.2.2 = (cs.map fun c => c.mat.kz * ((c.x1 - c.x0) * (c.y1 - c.y0)) / G.d.heights.getD l 0).sum

/-- What is listed for an element whose first layer is number `off`. -/
def ReportRow (s : StackD) (G : NU.Grid ℚ) (off : Nat) (x : ElD) (row : String × Option (List (Nat × ℚ × ℚ × ℚ))) : Prop :=
  row.1 = nameOf x ∧
    match x with
    | .die _ _ _ _ => ∃ ls, row.2 = some ls ∧ ls.length = layersIn s x ∧ ∀ (k : Nat) r, ls[k]? = some r → LayerLine G (off + k) r
    | _ => row.2 = none

theorem layer_line (G : NU.Grid ℚ) (l : Nat) : LayerLine G l (layerLine G.d G.cells l) := by
  have h1 : G.cells.filter (fun c => c.layer == l) = (G.cells.zipIdx.filter fun p => decide (p.1.layer = l)).map (·.1) := by
    have : G.cells = G.cells.zipIdx.map (·.1) := by rw [List.zipIdx_map_fst]
    conv_lhs => rw [this, List.filter_map]
    congr 1
  refine ⟨layerIdx G.cells l, layerIdx_cells G l, ?_, rfl, G.cells.filter (fun c => c.layer == l), ?_, rfl, ?_⟩
  · show (G.cells.filter fun c => c.layer == l).length = _
    rw [h1, layerIdx, List.length_map, List.length_map]
  · rw [h1, layerIdx, List.forall₂_map_left_iff, List.forall₂_map_right_iff, List.forall₂_same]
    intro p hp
    exact List.mk_mem_zipIdx_iff_getElem?.mp (List.mem_of_mem_filter hp)
  · show ((G.cells.filter fun c => c.layer == l).map fun c => c.mat.kz * (c.x1 - c.x0) * (c.y1 - c.y0) / _).sum = _
    simp only [mul_assoc]

/-- **C71 (report)** `conductance_layer.txt` is created anew and lists the elements of the stack from the bottom: for a die, the number of cells, the
area, the height and the vertical conductance of each of its layers from the bottom; nothing for the other elements. -/
theorem C71_report (h : StartedNU w s D an G s0) (hs : Sensible w.eff (filesOf w.read) s) :
    ∃ rows, buildLog D = [⟨"conductance_layer.txt", false, .layers rows⟩] ∧ rows.length = s.elems.length ∧
      ∀ above x below, s.elems = above ++ x :: below → ∃ row, rows[below.length]? = some row ∧ ReportRow s G (below.map (layersIn s)).sum x row := by
  obtain ⟨d0, raws, -, hb, hG, hGd, hGt, -⟩ := h.begun hs
  have hf : NU.FromStack d0 D.chan (raws.map (rawMap (List.map (elOf D.mats)))) (nElems D) G := by rw [← hG]; exact .fresh hb.grid
  have hls : G.ls = NU.layersOf G.d G.g.top ((nElems D).map NU.fixDiscr) := by obtain ⟨_, -, -, -, -, h, -⟩ := hf.spec; exact h
  have hlog : buildLog D = [⟨"conductance_layer.txt", false, .layers (conductances G.d ((nElems D).map NU.fixDiscr) G.cells)⟩] := by
    unfold buildLog
    rw [← hGd, ← hGt, ← hls]
    rfl
  obtain ⟨walls, d, spr, -, -, -, hc, -, -, -, raws', h1, h2⟩ := h.means.stack
  obtain ⟨es, n, g1, -, -, -, -, -, g2, -⟩ := parseStack_spec h2
  have hlen := discr_length h.means
  have hF : List.Forall₂ (fun x e => Sized1 s D.chan x e ∧ match x with | .die _ _ _ _ => ∃ b, e.body = .die b | _ => ∀ b, e.body ≠ .die b) s.elems es :=
    forall₂_trans (p := ElemIs nuReader (filesOf w.read) s d) (q := fun r e => resolve D.chan r = some e)
      (r := fun x e => Sized1 s D.chan x e ∧ match x with | .die _ _ _ _ => ∃ b, e.body = .die b | _ => ∀ b, e.body ≠ .die b) (fun x r e a b => ⟨sized_one h.means hc a b, by
        cases x with
        | channel id =>
          have a : r = _ := a
          subst a
          obtain ⟨ch, -, rfl⟩ := Option.map_eq_some_iff.mp b
          exact fun b hb => by cases hb
        | layer id ref o => obtain ⟨l, -, rfl⟩ := a; cases b; exact fun b hb => by cases hb
        | die id ref p o => obtain ⟨q, f, g, -, -, -, rfl⟩ := a; cases b; exact ⟨_, rfl⟩⟩) h1 g1
  have hF' := forall₂_reverse hF
  have hl1 : (nElems D).length = s.elems.length := by
    unfold nElems
    rw [List.length_zipWith, ← hlen, Nat.min_self, g2, assign_length, List.length_reverse, hF.length_eq]
  refine ⟨_, hlog, by unfold conductances; rw [List.length_map, List.length_map, hl1], ?_⟩
  intro above x below hx
  have hxr : s.elems.reverse = below.reverse ++ x :: above.reverse := by rw [hx]; simp
  have hi1 : below.length < s.elems.reverse.length := by rw [hxr]; simp
  have hi2 : below.length < es.reverse.length := by rw [← hF'.length_eq]; exact hi1
  have hat := hF'.get hi1 hi2
  have hxe : s.elems.reverse.get ⟨below.length, hi1⟩ = x := by
    have : s.elems.reverse[below.length]? = some x := by
      rw [hxr, List.getElem?_append_right (by simp), List.length_reverse, Nat.sub_self]; rfl
    rw [List.getElem?_eq_getElem hi1] at this
    exact Option.some.inj this
  rw [hxe, List.get_eq_getElem] at hat
  obtain ⟨⟨t1, t2, t3, t4⟩, t5⟩ := hat
  have hel : D.parsed.elems[below.length]? = some { es.reverse[below.length] with offset := 0 + total (es.reverse.take below.length) } := by
    rw [g2, assignOffsets_get _ _ _ hi2]
  have htot : total (es.reverse.take below.length) = (below.map (layersIn s)).sum := by
    have hT : List.Forall₂ (fun x e => nLayersOf e = layersIn s x) below.reverse (es.reverse.take below.length) := by
      have := List.forall₂_take below.length hF'
      rw [hxr, List.take_append_of_le_length (by simp), List.take_of_length_le (by simp)] at this
      exact this.imp fun _ _ q => q.1.2.1
    have hsum : ∀ {xs : List ElD} {ys : List (SElem ℚ NFlps)}, List.Forall₂ (fun x e => nLayersOf e = layersIn s x) xs ys → (ys.map nLayersOf).sum = (xs.map (layersIn s)).sum := by
      intro xs ys hh
      induction hh with
      | nil => rfl
      | cons q _ ih => rw [List.map_cons, List.map_cons, List.sum_cons, List.sum_cons, q, ih]
    unfold total
    rw [hsum hT, List.map_reverse, List.sum_reverse]
  obtain ⟨hi3, hel'⟩ := List.getElem?_eq_some_iff.mp hel
  have hN : (nElems D)[below.length]? = some ⟨elemMap (List.map (elOf D.mats)) { es.reverse[below.length] with offset := (below.map (layersIn s)).sum },
      (D.discr[below.length]'(by omega)).1, (D.discr[below.length]'(by omega)).2⟩ := by
    unfold nElems
    rw [List.getElem?_zipWith, hel, List.getElem?_eq_getElem (by omega), htot, Nat.zero_add]
  refine ⟨_, by unfold conductances; rw [List.getElem?_map, List.getElem?_map, hN]; rfl, ?_⟩
  refine ⟨(id_fix _).trans t1.symm, ?_⟩
  cases x with
  | layer id ref o =>
    cases hbb : (es.reverse[below.length]).body with
    | die b => exact absurd hbb (t5 b)
    | layer l => simp only [NU.fixDiscr, elemMap, hbb, bodyMap]
    | channel ch => simp only [NU.fixDiscr, elemMap, hbb, bodyMap]
  | channel id =>
    cases hbb : (es.reverse[below.length]).body with
    | die b => exact absurd hbb (t5 b)
    | layer l => simp only [NU.fixDiscr, elemMap, hbb, bodyMap]
    | channel ch => simp only [NU.fixDiscr, elemMap, hbb, bodyMap]
  | die id ref p o =>
    obtain ⟨b, hbb⟩ := t5
    refine ⟨(List.range b.layers.length).map fun li => layerLine G.d G.cells ((below.map (layersIn s)).sum + li), by simp only [NU.fixDiscr, elemMap, hbb, bodyMap], ?_, ?_⟩
    · rw [List.length_map, List.length_range, ← t2]
      unfold nLayersOf
      rw [hbb]
    · intro k r hk
      rw [List.getElem?_map] at hk
      obtain ⟨k', hk', rfl⟩ := Option.map_eq_some_iff.mp hk
      obtain rfl : k = k' := by
        obtain ⟨q1, q2⟩ := List.getElem?_eq_some_iff.mp hk'
        rw [List.getElem_range] at q2; exact q2
      exact layer_line G _

/-! ### The contents of the files -/

/-- **C71 (contents)** A file that is only appended to contains all that was written to it, in the order of the writes. -/
theorem C71_appended (f : String) (l : NLog) (h : ∀ x ∈ l, x.file = f → x.append = true) :
    contentsNU f l = (l.filter fun x => x.file = f).map (·.what) := by
  have key : ∀ (l : NLog) (acc : List Content), (∀ x ∈ l, x.file = f → x.append = true) →
      l.foldl (after1 f) acc = acc ++ (l.filter fun x => x.file = f).map (·.what) := by
    intro l
    induction l with
    | nil => intro acc _; simp
    | cons a l ih =>
      intro acc h
      rw [List.foldl_cons, ih _ fun x hx => h x (by simp [hx])]
      unfold after1
      by_cases ha : a.file = f
      · rw [if_pos ha, if_pos (h a (by simp) ha), List.filter_cons, if_pos (by simp [ha]), List.map_cons]; simp
      · rw [if_neg ha, List.filter_cons, if_neg (by simp [ha])]
  rw [contentsNU, key l [] h, List.nil_append]

/-- **C71 (contents)** What replaces a file is all that the file contains until it is written again. -/
theorem C71_replaced (f : String) (l l' : NLog) (x : Content) (h : ∀ y ∈ l', y.file = f → False) :
    contentsNU f (l ++ ⟨f, false, x⟩ :: l') = [x] := by
  have key : ∀ (l : NLog) (acc : List Content), (∀ y ∈ l, y.file = f → False) → l.foldl (after1 f) acc = acc := by
    intro l
    induction l with
    | nil => intro acc _; rfl
    | cons a l ih =>
      intro acc h
      rw [List.foldl_cons, ih _ fun y hy => h y (by simp [hy])]
      unfold after1
      rw [if_neg fun ha => h a (by simp) ha]
  rw [contentsNU, List.foldl_append, List.foldl_cons, key l' _ h]
  unfold after1
  simp

/-! ### Files that cannot be opened -/

theorem point_file {x : PointD} {p : RPoint NFlps} {d : Dims ℚ} {es : List (SElem ℚ NFlps)} (hp : PointIs nuReader d es x p) :
    p.file = fileOf x ∧ (p.target = .t3d ↔ ∃ f wh, x = .t3d f wh) := by
  cases x with
  | tcell => obtain ⟨-, -, h, e, -, -, h'⟩ := hp; exact ⟨h, by rw [h']; simp⟩
  | tflp => obtain ⟨-, -, h, e, -, -, b, -, h'⟩ := hp; exact ⟨h, by rw [h']; simp⟩
  | tflpel => obtain ⟨-, -, h, e, -, -, b, i, -, -, -, h'⟩ := hp; exact ⟨h, by rw [h']; simp⟩
  | tmap => obtain ⟨-, -, h, e, -, -, h'⟩ := hp; exact ⟨h, by rw [h']; simp⟩
  | pmap => obtain ⟨-, -, h, e, -, -, h'⟩ := hp; exact ⟨h, by rw [h']; simp⟩
  | t3d => obtain ⟨-, -, h, h'⟩ := hp; exact ⟨h, by rw [h']; simp⟩
  | tcoolant => obtain ⟨-, -, h, e, -, -, c, -, h'⟩ := hp; exact ⟨h, by rw [h']; simp⟩

theorem headers_iff (M : Means nuReader w.eff (filesOf w.read) s D) (canOpen : String → Bool) :
    headersNU canOpen D.points = true ↔ ∀ x ∈ s.points, (∀ f wh, x ≠ .t3d f wh) → canOpen (fileOf x) = true := by
  unfold headersNU
  rw [List.all_eq_true]
  constructor
  · intro h x hx h3
    obtain ⟨p, hp, hxp⟩ := forall₂_mem_left M.points hx
    obtain ⟨e1, e2⟩ := point_file hxp
    have := h p hp
    have hne : p.target ≠ .t3d := fun hh => by obtain ⟨f, wh, e⟩ := e2.mp hh; exact h3 f wh e
    rw [← e1]
    revert this hne
    cases p.target <;> simp
  · intro h p hp
    obtain ⟨x, hx, hxp⟩ := forall₂_mem_right M.points hp
    obtain ⟨e1, e2⟩ := point_file hxp
    by_cases h3 : p.target = .t3d
    · rw [h3]
    · have := h x hx (fun f wh e => h3 (e2.mpr ⟨f, wh, e⟩))
      rw [← e1] at this
      revert h3
      cases p.target <;> simp [this]

/-- **C71 (files that cannot be opened)** The file of every inspection point but the 3D ones is opened before the simulation: if one of them cannot
be, the program fails and writes no results; 3D files are opened only when they are written, and do not prevent the simulation. -/
theorem C71_openable (hf : Contains w file s) :
    (∀ {st log o}, MainNU w [file] st log o → ∀ x ∈ s.points, (∀ f wh, x ≠ .t3d f wh) → w.canOpen (fileOf x) = false → st = .failure ∧ log = [] ∧ o = none) ∧
    (∀ {D an q}, readInputNU w file = some D → D.nonUniform = true → Analysed w.mul10 D.init D.times an → initPlugin w D an = some q →
      (∀ x ∈ s.points, (∀ f wh, x ≠ .t3d f wh) → w.canOpen (fileOf x) = true) → ∀ {st log o}, MainNU w [file] st log o → D.top ≠ none →
      w.canOpen "conductance_layer.txt" = true → log ≠ []) := by
  have same : ∀ {D}, readInputNU w file = some D → Means nuReader w.eff (filesOf w.read) s D := by
    intro D h
    obtain ⟨⟨s1, h1, h2⟩, -⟩ := readInputNU_iff.mp h
    obtain ⟨t, a1, a2⟩ := hf
    obtain ⟨t', b1, b2⟩ := h1
    rw [a1] at b1; cases b1
    rw [a2] at b2; cases b2
    exact h2
  constructor
  · intro st log o h x hx h3 hno
    have bad : ∀ {D}, readInputNU w file = some D → headersNU w.canOpen D.points = true → False := by
      intro D h1 h2
      have := (headers_iff (same h1) w.canOpen).mp h2 x hx h3
      rw [hno] at this; cases this
    cases h with
    | usage => exact ⟨rfl, rfl, rfl⟩
    | refused => exact ⟨rfl, rfl, rfl⟩
    | noPlugin => exact ⟨rfl, rfl, rfl⟩
    | unwritable => exact ⟨rfl, rfl, rfl⟩
    | noGrid h1 _ _ _ h5 => exact (bad h1 h5).elim
    | unbuilt h1 _ _ _ h5 => exact (bad h1 h5).elim
    | ran h1 _ _ _ h5 => exact (bad h1 h5).elim
  · intro D an q hD hnu han hq hopen st log o h htop hc
    have good := (headers_iff (same hD) w.canOpen).mpr hopen
    cases h with
    | usage hl => exact absurd rfl hl
    | refused h1 => rw [hD] at h1; cases h1
    | noPlugin h1 _ h3 h4 => rw [hD] at h1; cases h1; rw [analysed_det h3 han, hq] at h4; cases h4
    | unwritable h1 _ _ _ h5 => rw [hD] at h1; cases h1; rw [good] at h5; cases h5
    | noGrid => simp [buildLog]
    | unbuilt => simp [buildLog]
    | ran => simp [buildLog]

end Verif.Prog
