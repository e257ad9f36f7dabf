import Verif.Lemmas.NuContact

set_option linter.unusedSectionVars false
set_option linter.unusedSimpArgs false
set_option linter.unusedVariables false

/-! # C52: conductances of a non-uniform grid

The geometric notions (`commonX`, `commonY`, `TouchX`, `TouchY`, `Overlap`, `Nested`, `Apart`) are in `Verif.Lemmas.NuContact`. -/

namespace Verif.NU
open Verif.Dim Verif.TG Verif.Stk Verif.SM

variable {K : Type} [Field K] [LinearOrder K] [IsStrictOrderedRing K]
variable {d0 : Dims K} {rs : List (Raw K (List (FEl K)))} {ns : List (NElem K)} {G : Grid K} {a : Ana K} {m : Csc K}

/-! ## Specification -/

/-- Conductance between the centres of two neighbours in the x direction, when their common border has length `v`: two half cells
in series. -/
def sideX (G : Grid K) (v : K) (p q : Cell K) : K :=
  series ((ownMat G p).kx * (v * height G.d p.layer) / (p.length / 2)) ((ownMat G q).kx * (v * height G.d q.layer) / (q.length / 2))

/-- The same in the y direction. -/
def sideY (G : Grid K) (v : K) (p q : Cell K) : K :=
  series ((ownMat G p).ky * (v * height G.d p.layer) / (p.width / 2)) ((ownMat G q).ky * (v * height G.d q.layer) / (q.width / 2))

/-- Vertical conductivity of a cell. -/
def vertical (G : Grid K) (c : Cell K) : K := if c.layer < G.d.nLayers then (ownMat G c).kz else sprTerm G.g fun _ m => m.kz

/-- Vertical distance of the node of a cell to the face shared with the neighbouring layer: half of the height. The exception is the
lowest layer of a stack without a bottom sink, whose nodes are on the lower face, as in uniform grids. -/
def depth (G : Grid K) (c : Cell K) : K :=
  if c.layer < G.d.nLayers then (if c.layer = 0 ∧ G.g.bottom.isNone then height G.d c.layer else height G.d c.layer / 2)
  else sprTerm G.g fun s _ => s.height / 2

/-- Conductance between two cells, as given by their geometry and materials. -/
def link (G : Grid K) (p q : Cell K) : K :=
  if p.layer = q.layer then
    if TouchX p q then sideX G (commonY p q) p q else if TouchY p q then sideY G (commonX p q) p q else 0
  else if p.layer + 1 = q.layer ∨ q.layer + 1 = p.layer then
    if Overlap p q then series (vertical G p * (commonX p q * commonY p q) / depth G p) (vertical G q * (commonX p q * commonY p q) / depth G q)
    else 0
  else 0

/-- The border of one of the two neighbours lies strictly inside the border of the other. -/
def NestedSide (p q : Cell K) : Prop :=
  (TouchX p q ∧ Nested p.y0 p.y1 q.y0 q.y1) ∨ (TouchY p q ∧ Nested p.x0 p.x1 q.x0 q.x1)

/-- The borders of the cells coincide or are more than a thousandth apart (the unit is the micrometre). -/
def Sharp (G : Grid K) : Prop := ∀ c ∈ G.cells, ∀ c' ∈ G.cells, Apart c c'

/-! ## Proofs -/

theorem overlap_comm (lo hi lo' hi' : K) : overlap lo hi lo' hi' = overlap lo' hi' lo hi := by
  unfold overlap; rw [min_comm, max_comm]

theorem commonX_comm (p q : Cell K) : commonX p q = commonX q p := overlap_comm _ _ _ _
theorem commonY_comm (p q : Cell K) : commonY p q = commonY q p := overlap_comm _ _ _ _

theorem touchX_comm (p q : Cell K) : TouchX p q ↔ TouchX q p := by
  unfold TouchX; rw [commonY_comm, or_comm]
theorem touchY_comm (p q : Cell K) : TouchY p q ↔ TouchY q p := by
  unfold TouchY; rw [commonX_comm, or_comm]
theorem overlap'_comm (p q : Cell K) : Overlap p q ↔ Overlap q p := by
  unfold Overlap; rw [commonX_comm, commonY_comm]

theorem series_comm (x y : K) : series x y = series y x := by unfold series; rw [add_comm]

theorem link_comm (G : Grid K) (p q : Cell K) : link G p q = link G q p := by
  unfold link sideX sideY
  simp only [touchX_comm p q, touchY_comm p q, overlap'_comm p q, commonX_comm p q, commonY_comm p q, eq_comm (a := p.layer) (b := q.layer),
    or_comm (a := p.layer + 1 = q.layer), series_comm ((ownMat G p).kx * _ / _), series_comm ((ownMat G p).ky * _ / _),
    series_comm (vertical G p * _ / _)]

theorem nested_comm (lo hi lo' hi' : K) : Nested lo hi lo' hi' ↔ Nested lo' hi' lo hi := by unfold Nested; tauto

theorem nestedSide_comm (p q : Cell K) : NestedSide p q ↔ NestedSide q p := by
  unfold NestedSide
  rw [touchX_comm, touchY_comm, nested_comm, nested_comm p.x0]

theorem cellAt_eq {cs : List (Cell K)} {i : Nat} (h : i < cs.length) : cellAt cs i = cs[i] := by
  unfold cellAt; rw [List.getD_eq_getElem?_getD, List.getElem?_eq_getElem h]; rfl

section
variable (hf : FromFile d0 rs ns G)
include hf

/-- Position of a cell and its layer. -/
theorem pos_layer {i : Nat} (hi : i < G.cells.length) :
    start G.ls (G.cells[i]).layer ≤ i ∧ i < start G.ls ((G.cells[i]).layer + 1) ∧ (G.cells[i]).layer ≤ G.d.nLayers ∧
      ((G.cells[i]).layer = G.d.nLayers → G.ty (G.cells[i]).layer = 4) := by
  have hmem : G.cells[i] ∈ G.cells := List.getElem_mem hi
  obtain ⟨lc, hlc, hin⟩ := List.mem_flatten.mp hmem
  obtain ⟨k, hk⟩ := List.mem_iff_getElem?.mp hlc
  have hlay := hf.layered k lc hk _ hin
  have h := locate hf.stack (List.getElem?_eq_getElem hi) (lc := lc) (by rw [hlay]; exact hk)
  have hs : start G.ls ((G.cells[i]).layer + 1) = start G.ls (G.cells[i]).layer + lc.length := by
    rw [start_succ, hlay, hk]; rfl
  have e : firstCell G (G.cells[i]).layer = start G.ls (G.cells[i]).layer := rfl
  rw [e] at h
  refine ⟨h.1, by rw [hs]; exact h.2, ?_, ?_⟩
  · rcases (hf.cell hmem).2 with q | q
    · omega
    · omega
  · intro hl
    rcases (hf.cell hmem).2 with q | ⟨-, s, mm, ht⟩
    · omega
    · rw [hf.ty, ht]; simp only; rw [if_pos hl]

theorem layer_of_pos {i l : Nat} (hi : i < G.cells.length) (h1 : start G.ls l ≤ i) (h2 : i < start G.ls (l + 1)) : (G.cells[i]).layer = l := by
  obtain ⟨a, b, -⟩ := pos_layer hf hi
  by_contra hne
  rcases Nat.lt_or_gt_of_ne hne with q | q
  · have := start_mono G.ls (show (G.cells[i]).layer + 1 ≤ l from q); omega
  · have := start_mono G.ls (show l + 1 ≤ (G.cells[i]).layer from q); omega

theorem record_zero_or_four {l : Nat} (h : ¬ (l = G.d.nLayers ∧ G.ty l ≠ 4)) :
    G.ty l = 0 ∨ G.ty l = 4 := by
  rw [hf.ty]
  split
  · split_ifs <;> simp
  · exact Or.inl rfl

theorem not_crossing (l : Nat) : ¬ crossing G.ty l := by
  unfold crossing
  rw [hf.ty l]
  split
  · split_ifs <;> simp
  · simp

/-- The connections of the program, pair by pair. -/
theorem connected {L : List (Conn K)} (hr : Runs (regions G.d.nLayers G.ty G.ls) L) (ph : PhysicalNU G)
    (hs : Sharp G) {i j : Nat} (hij : i < j) (hj : j < G.cells.length) (hi : i < G.cells.length) (cn : Conn K) :
    (cn ∈ L ∧ cn.node1 = i ∧ cn.node2 = j) ↔
      (let p := G.cells[i]
       let q := G.cells[j]
       (p.layer = q.layer ∧ (if TouchX p q then some (⟨i, j, shortest (p.y0 - q.y1) (p.y1 - q.y0), 1⟩ : Conn K)
          else if TouchY p q then some ⟨i, j, shortest (p.x0 - q.x1) (p.x1 - q.x0), 2⟩ else none) = some cn) ∨
       (p.layer + 1 = q.layer ∧ (if Overlap p q then some (⟨i, j, commonX p q * commonY p q, 0⟩ : Conn K) else none) = some cn)) := by
  obtain ⟨pi1, pi2, pi3, pi4⟩ := pos_layer hf hi
  obtain ⟨pj1, pj2, pj3, pj4⟩ := pos_layer hf hj
  have hA := hs _ (List.getElem_mem hi) _ (List.getElem_mem hj)
  have hp : Solid (G.cells[i]) := ph.cell _ (List.getElem_mem hi)
  have hq : Solid (G.cells[j]) := ph.cell _ (List.getElem_mem hj)
  have hbet := between_spec (cellAt_eq hi) (cellAt_eq hj) hp hq hA
  simp only
  rw [mem_regions (not_crossing hf) hr]
  constructor
  · rintro ⟨h, rfl, rfl⟩
    rcases h with ⟨l, hl, hnot, h1, h2, h3, h4⟩ | ⟨l, hl, hl', hnot, h1, h2, h3, h4, h5⟩
    · left
      have e1 := layer_of_pos hf hi h1 (by omega)
      have e2 := layer_of_pos hf hj (by omega) h3
      refine ⟨by rw [e1, e2], ?_⟩
      rw [← h4]
      exact (inLayer_spec (record_zero_or_four hf hnot) (cellAt_eq hi) (cellAt_eq hj) hp hq hA).symm
    · right
      have e1 := layer_of_pos hf (l := l - 1) hi h1 (by rw [Nat.sub_add_cancel hl]; exact h2)
      have e2 := layer_of_pos hf hj h3 h4
      refine ⟨by omega, ?_⟩
      rw [← h5]
      exact hbet.symm
  · have hnodes : ∀ {o : Option (Conn K)}, o = some cn → (∀ x, o = some x → x.node1 = i ∧ x.node2 = j) → cn.node1 = i ∧ cn.node2 = j :=
      fun h1 h2 => h2 _ h1
    rintro (⟨hl, h⟩ | ⟨hl, h⟩)
    · have hnot : ¬ ((G.cells[i]).layer = G.d.nLayers ∧ G.ty (G.cells[i]).layer ≠ 4) := fun hh => hh.2 (pi4 hh.1)
      have e := inLayer_spec (record_zero_or_four hf hnot) (cellAt_eq hi) (cellAt_eq hj) hp hq hA
      have h' := e.trans h
      obtain ⟨n1, n2⟩ := inLayer_nodes h'
      refine ⟨Or.inl ⟨(G.cells[i]).layer, pi3, hnot, ?_⟩, n1, n2⟩
      rw [n1, n2]
      exact ⟨pi1, hij, by rw [hl]; exact pj2, h'⟩
    · have h' := hbet.trans h
      obtain ⟨n1, n2⟩ := between_nodes h'
      refine ⟨Or.inr ⟨(G.cells[j]).layer, by omega, pj3, fun hh => hh.2 (pj4 hh.1), ?_⟩, n1, n2⟩
      rw [n1, n2]
      have e : (G.cells[j]).layer - 1 = (G.cells[i]).layer := by omega
      rw [e, ← hl]
      exact ⟨pi1, pi2, by rw [hl]; exact pj1, by rw [hl]; exact pj2, h'⟩

end

/-- Lateral half conductances of a solid cell. -/
theorem gx_solid {decl : Option (Channel K)} (hf : FromStack d0 decl rs ns G) {c : Cell K} (hl : c.layer < G.d.nLayers)
    (hs : solidish (typeAt G.g c.layer) = true) (v note : K) :
    gx G.g G.d v c = (ownMat G c).kx * (v * height G.d c.layer) / (c.length / 2) ∧
    gy G.g G.d v c note = (ownMat G c).ky * (v * height G.d c.layer) / (c.width / 2) := by
  unfold gx gy
  have hn : ¬ (c.layer ≥ G.d.nLayers) := by omega
  rw [if_neg hn, if_neg hn]
  by_cases hsrc : isSource (typeAt G.g c.layer) = true
  · rw [show c.mat = ownMat G c by unfold ownMat; rw [if_pos hsrc]]
    revert hs hsrc
    cases typeAt G.g c.layer <;> intro hs hsrc <;> simp [solidish, isSource] at hs hsrc <;> (constructor <;> ring)
  · have hsrc' : isSource (typeAt G.g c.layer) = false := by simpa using hsrc
    unfold condX condY
    rw [show cellMaterial (layerAt G.g c.layer) G.d 0 0 = ownMat G c by unfold ownMat; rw [hsrc']; rfl]
    revert hs hsrc'
    cases typeAt G.g c.layer <;> intro hs hsrc <;> simp [solidish, isSource] at hs hsrc <;> (constructor <;> ring)

/-- Lateral half conductances. -/
theorem gx_eq (hf : FromFile d0 rs ns G) (ph : PhysicalNU G) {c : Cell K} (hc : c ∈ G.cells) (hl : c.layer < G.d.nLayers) (v note : K) :
    gx G.g G.d v c = (ownMat G c).kx * (v * height G.d c.layer) / (c.length / 2) ∧
    gy G.g G.d v c note = (ownMat G c).ky * (v * height G.d c.layer) / (c.width / 2) := gx_solid hf.stack hl (hf.types hl) v note

/-- Vertical half conductances of a solid cell. -/
theorem gz_solid {decl : Option (Channel K)} (hf : FromStack d0 decl rs ns G) {c : Cell K} (hl : c.layer < G.d.nLayers)
    (hsp : ∃ t : LType, (t = .solid ∨ t = .source) ∧
      typeAt G.g c.layer = (if c.layer = 0 ∧ G.g.bottom.isSome then withBottom G.g.bottom t else if c.layer = G.d.nLayers - 1 then withTop G.g.top t else t))
    (hz : 1 < G.d.nLayers ∨ ∃ s m, G.g.top = some (.pluggable s m)) (v : K) (up : Bool) :
    gz G.g G.d v c up = vertical G c * v / depth G c := by
  unfold gz vertical depth
  rw [if_neg (by omega), if_pos hl, if_pos hl]
  obtain ⟨t, ht, hty⟩ := hsp
  have hk : (c.mat.kz = (ownMat G c).kz ∧ isSource (typeAt G.g c.layer) = true) ∨
      (condZ G.g G.d c.layer 0 0 = (ownMat G c).kz ∧ isSource (typeAt G.g c.layer) = false) := by
    by_cases hsrc : isSource (typeAt G.g c.layer) = true
    · exact Or.inl ⟨by rw [show c.mat = ownMat G c by unfold ownMat; rw [if_pos hsrc]], hsrc⟩
    · have hsrc' : isSource (typeAt G.g c.layer) = false := by simpa using hsrc
      exact Or.inr ⟨by unfold condZ; rw [show cellMaterial (layerAt G.g c.layer) G.d 0 0 = ownMat G c by unfold ownMat; rw [hsrc']; rfl], hsrc'⟩
  by_cases hb : c.layer = 0 ∧ G.g.bottom.isSome = true
  · rw [if_pos hb] at hty
    obtain ⟨b, hb'⟩ := Option.isSome_iff_exists.mp hb.2
    rw [hb'] at hty ⊢
    have hn : ¬ (c.layer = 0 ∧ (some b).isNone = true) := by simp
    rw [if_neg hn, hty]
    rw [hty] at hk
    rcases ht with rfl | rfl
    · simp only [withBottom, reduceCtorEq, if_false, isSource, and_false, false_or, and_true, Bool.false_eq_true] at hk ⊢
      rw [hk]
    · simp only [withBottom, if_true, isSource, and_false, or_false, and_true, Bool.true_eq_false] at hk ⊢
      rw [hk]
  · rw [if_neg hb] at hty
    have hiff : (c.layer = 0 ∧ G.g.bottom.isNone = true) ↔ c.layer = 0 := by
      constructor
      · exact fun h => h.1
      · intro h
        refine ⟨h, ?_⟩
        cases hq : G.g.bottom with
        | none => rfl
        | some b => exact absurd ⟨h, by rw [hq]; rfl⟩ hb
    simp only [hiff]
    by_cases hlast : c.layer = G.d.nLayers - 1
    · rw [if_pos hlast] at hty
      rcases hf.top with ⟨s, htop⟩ | ⟨s, mm, htop⟩
      · have h1 : 1 < G.d.nLayers := by
          rcases hz with hz | ⟨s', m', hz⟩
          · exact hz
          · rw [hz] at htop; simp at htop
        have h0 : c.layer ≠ 0 := by omega
        rw [htop] at hty
        rw [if_neg h0]
        rw [hty] at hk ⊢
        rcases ht with rfl | rfl
        · simp only [withTop, reduceCtorEq, if_false, isSource, and_false, false_or, and_true, Bool.false_eq_true] at hk ⊢
          rw [hk]
        · simp only [withTop, if_true, isSource, and_false, or_false, and_true, Bool.true_eq_false] at hk ⊢
          rw [hk]
      · rw [htop] at hty
        rw [hty] at hk ⊢
        rcases ht with rfl | rfl
        · simp only [withTop, reduceCtorEq, if_false, isSource, and_false, false_or, and_true, Bool.false_eq_true] at hk ⊢
          rw [hk]
        · simp only [withTop, if_true, isSource, and_false, or_false, and_true, Bool.true_eq_false] at hk ⊢
          rw [hk]
    · rw [if_neg hlast] at hty
      have hsw : (c.layer ≠ 0 ∧ c.layer ≠ G.d.nLayers - 1) ↔ ¬ c.layer = 0 := ⟨fun h => h.1, fun h => ⟨h, hlast⟩⟩
      rw [hty] at hk ⊢
      rcases ht with rfl | rfl
      · simp only [reduceCtorEq, if_false, isSource, and_false, false_or, and_true, Bool.false_eq_true] at hk ⊢
        rw [hk]; simp only [hsw, ite_not]
      · simp only [if_true, isSource, and_false, or_false, and_true, Bool.true_eq_false] at hk ⊢
        rw [hk]; simp only [hsw, ite_not]

/-- Vertical half conductances. -/
theorem gz_eq (hf : FromFile d0 rs ns G) (ph : PhysicalNU G) {c : Cell K} (hc : c ∈ G.cells)
    (hz : 1 < G.d.nLayers ∨ ∃ s m, G.g.top = some (.pluggable s m)) (v : K) (up : Bool) :
    gz G.g G.d v c up = vertical G c * v / depth G c := by
  by_cases hl : c.layer < G.d.nLayers
  · obtain ⟨t, ht, -, hty⟩ := hf.typeSpec hl
    exact gz_solid hf.stack hl ⟨t, ht, hty⟩ hz v up
  · obtain ⟨-, s, mm, htop⟩ := (hf.cell hc).2.resolve_left hl
    unfold gz vertical depth
    rw [if_pos (by omega), if_neg hl, if_neg hl]
    unfold sprTerm
    rw [htop]

theorem par_eq_series {x y : K} (hx : 0 < x) (hy : 0 < y) : par x y = series x y := by
  unfold par series; field_simp; ring

section
variable (hf : FromFile d0 rs ns G) (ph : PhysicalNU G)
include hf ph

theorem half_pos {c : Cell K} (hc : c ∈ G.cells) (hl : c.layer < G.d.nLayers) {v : K} (hv : 0 < v) :
    0 < (ownMat G c).kx * (v * height G.d c.layer) / (c.length / 2) ∧ 0 < (ownMat G c).ky * (v * height G.d c.layer) / (c.width / 2) := by
  obtain ⟨h1, h2⟩ := ph.cell c hc
  obtain ⟨k1, k2, k3, k4⟩ := ph.mat c hc hl
  have := heightAt_pos hf.wf ph.hts hl
  exact ⟨by positivity, by positivity⟩

theorem depth_pos {c : Cell K} (hc : c ∈ G.cells) : 0 < depth G c ∧ 0 < vertical G c := by
  unfold depth vertical
  by_cases hl : c.layer < G.d.nLayers
  · rw [if_pos hl, if_pos hl]
    have := heightAt_pos hf.wf ph.hts hl
    obtain ⟨k1, k2, k3, k4⟩ := ph.mat c hc hl
    refine ⟨?_, k3⟩
    split_ifs <;> positivity
  · obtain ⟨-, s, mm, htop⟩ := (hf.cell hc).2.resolve_left hl
    obtain ⟨h1, h2, h3, k1, k2, k3, k4⟩ := ph.spr s mm htop
    rw [if_neg hl, if_neg hl]
    unfold sprTerm
    rw [htop]
    exact ⟨by positivity, k3⟩

theorem conductance_x {cn : Conn K} (hd : cn.dir = 1) (hv : 0 < cn.value) {p q : Cell K} (hp : p ∈ G.cells) (hq : q ∈ G.cells)
    (hlp : p.layer < G.d.nLayers) (hlq : q.layer < G.d.nLayers) : (conductance G.g G.d cn p q).1 = - sideX G cn.value p q := by
  unfold conductance sideX
  rw [if_neg (by omega), if_pos hd, (gx_eq hf ph hp hlp cn.value 0).1, (gx_eq hf ph hq hlq cn.value 0).1,
    par_eq_series (half_pos hf ph hp hlp hv).1 (half_pos hf ph hq hlq hv).1]

theorem conductance_y {cn : Conn K} (hd : cn.dir = 2) (hv : 0 < cn.value) {p q : Cell K} (hp : p ∈ G.cells) (hq : q ∈ G.cells)
    (hlp : p.layer < G.d.nLayers) (hlq : q.layer < G.d.nLayers) : (conductance G.g G.d cn p q).1 = - sideY G cn.value p q := by
  unfold conductance sideY
  rw [if_neg (by omega), if_neg (by omega), if_pos hd]
  simp only
  rw [if_neg (by rw [(hf.cell hq).1]; simp)]
  rw [(gx_eq hf ph hp hlp cn.value _).2, (gx_eq hf ph hq hlq cn.value _).2,
    par_eq_series (half_pos hf ph hp hlp hv).2 (half_pos hf ph hq hlq hv).2]

theorem conductance_z {cn : Conn K} (hd : cn.dir = 0) (hv : 0 < cn.value) {p q : Cell K} (hp : p ∈ G.cells) (hq : q ∈ G.cells)
    (hz : 1 < G.d.nLayers ∨ ∃ s m, G.g.top = some (.pluggable s m)) :
    (conductance G.g G.d cn p q).1 = - series (vertical G p * cn.value / depth G p) (vertical G q * cn.value / depth G q) := by
  obtain ⟨p1, p2⟩ := depth_pos hf ph hp
  obtain ⟨q1, q2⟩ := depth_pos hf ph hq
  have hgp : 0 < vertical G p * cn.value / depth G p := by positivity
  have hgq : 0 < vertical G q * cn.value / depth G q := by positivity
  unfold conductance
  rw [if_pos hd]
  simp only
  rw [gz_eq hf ph hp hz, gz_eq hf ph hq hz, if_neg (ne_of_gt hgp), if_neg (ne_of_gt hgq), par_eq_series hgp hgq]

end

theorem touch_pos {p q : Cell K} (hp : Solid p) (hq : Solid q) : (TouchX p q → 0 < shortest (p.y0 - q.y1) (p.y1 - q.y0)) ∧
    (TouchY p q → 0 < shortest (p.x0 - q.x1) (p.x1 - q.x0)) := by
  obtain ⟨ax, ay⟩ := solid_lt hp
  obtain ⟨bx, by'⟩ := solid_lt hq
  constructor
  · rintro ⟨-, h⟩
    obtain ⟨h1, h2⟩ := (overlap_pos ay by').mp h
    rw [shortest_eq h1 h2]
    exact lt_min (by linarith) (by linarith)
  · rintro ⟨-, h⟩
    obtain ⟨h1, h2⟩ := (overlap_pos ax bx).mp h
    rw [shortest_eq h1 h2]
    exact lt_min (by linarith) (by linarith)

/-- Two cells of the same layer cannot touch in both directions. -/
theorem not_both {p q : Cell K} (hp : Solid p) (hq : Solid q) (h : TouchX p q) : ¬ TouchY p q := by
  obtain ⟨ax, ay⟩ := solid_lt hp
  obtain ⟨bx, by'⟩ := solid_lt hq
  obtain ⟨h1, -⟩ := h
  rintro ⟨-, h2⟩
  obtain ⟨h3, h4⟩ := (overlap_pos ax bx).mp h2
  rcases h1 with h1 | h1 <;> linarith

/-- The coefficients, with the lengths as the program computes them. -/
theorem coefficient {rnd : K → K} (hf : FromFile d0 rs ns G) (ph : PhysicalNU G) (hs : Sharp G) (hm : Assembled rnd G a m) {i j : Nat}
    (hij : i < j) (hj : j < G.cells.length) (hi : i < G.cells.length) (hlat : G.cells[i].layer = G.cells[j].layer → G.cells[i].layer < G.d.nLayers) :
    m.entry j i = - (if G.cells[i].layer = G.cells[j].layer then
        if TouchX G.cells[i] G.cells[j] then sideX G (shortest (G.cells[i].y0 - G.cells[j].y1) (G.cells[i].y1 - G.cells[j].y0)) G.cells[j] G.cells[i]
        else if TouchY G.cells[i] G.cells[j] then
          sideY G (shortest (G.cells[i].x0 - G.cells[j].x1) (G.cells[i].x1 - G.cells[j].x0)) G.cells[j] G.cells[i]
        else 0
      else link G G.cells[j] G.cells[i]) := by
  obtain ⟨L, hr, rfl⟩ := hm
  have hP := runs_proper G.okTy hr
  have hmi : G.cells[i] ∈ G.cells := List.getElem_mem hi
  have hmj : G.cells[j] ∈ G.cells := List.getElem_mem hj
  have hsi : Solid G.cells[i] := ph.cell _ hmi
  have hsj : Solid G.cells[j] := ph.cell _ hmj
  have hcon := connected hf hr ph hs hij hj hi
  obtain ⟨pi1, pi2, pi3, pi4⟩ := pos_layer hf hi
  obtain ⟨pj1, pj2, pj3, pj4⟩ := pos_layer hf hj
  have hle : G.cells[i].layer ≤ G.cells[j].layer := by
    by_contra hh
    have := start_mono G.ls (show G.cells[j].layer + 1 ≤ G.cells[i].layer by omega)
    omega
  rw [entry_eq rnd G.g a G.d hP j hi, if_neg (by omega), add_zero]
  simp only at hcon
  have found : ∀ cn : Conn K, cn ∈ L ∧ cn.node1 = i ∧ cn.node2 = j →
      posSum (offDiag G.g G.d G.ls.flatten L) j i = (conductance G.g G.d cn G.cells[j] G.cells[i]).1 := by
    rintro cn ⟨hc, h1, h2⟩
    have h := posSum_of_mem (g := G.g) (d := G.d) (cs := G.ls.flatten) hP hc
    rw [h1, h2] at h
    rw [h]
    have e1 : cellAt G.ls.flatten i = G.cells[i] := cellAt_eq hi
    have e2 : cellAt G.ls.flatten j = G.cells[j] := cellAt_eq hj
    rw [e1, e2]
  have absent : (∀ cn : Conn K, ¬ (cn ∈ L ∧ cn.node1 = i ∧ cn.node2 = j)) → posSum (offDiag G.g G.d G.ls.flatten L) j i = 0 :=
    fun h => posSum_of_not_mem hP hij fun cn hc hh => h cn ⟨hc, hh⟩
  by_cases hsame : G.cells[i].layer = G.cells[j].layer
  · have hli := hlat hsame
    have hlj : G.cells[j].layer < G.d.nLayers := by omega
    rw [if_pos hsame]
    by_cases hX : TouchX G.cells[i] G.cells[j]
    · rw [if_pos hX]
      rw [found _ ((hcon _).mpr (Or.inl ⟨hsame, by rw [if_pos hX]⟩))]
      exact conductance_x hf ph rfl ((touch_pos hsi hsj).1 hX) hmj hmi hlj hli
    · rw [if_neg hX]
      by_cases hY : TouchY G.cells[i] G.cells[j]
      · rw [if_pos hY]
        rw [found _ ((hcon _).mpr (Or.inl ⟨hsame, by rw [if_neg hX, if_pos hY]⟩))]
        exact conductance_y hf ph rfl ((touch_pos hsi hsj).2 hY) hmj hmi hlj hli
      · rw [if_neg hY, neg_zero]
        refine absent fun cn hc => ?_
        rcases (hcon cn).mp hc with ⟨-, h⟩ | ⟨h, -⟩
        · rw [if_neg hX, if_neg hY] at h; cases h
        · omega
  · rw [if_neg hsame]
    unfold link
    rw [if_neg (fun h => hsame h.symm)]
    by_cases hc1 : G.cells[i].layer + 1 = G.cells[j].layer
    · rw [if_pos (Or.inr hc1)]
      by_cases hO : Overlap G.cells[i] G.cells[j]
      · rw [if_pos ((overlap'_comm _ _).mp hO)]
        have hv : 0 < commonX G.cells[i] G.cells[j] * commonY G.cells[i] G.cells[j] := mul_pos hO.1 hO.2
        have hz : 1 < G.d.nLayers ∨ ∃ s m, G.g.top = some (.pluggable s m) := by
          rcases (hf.cell hmj).2 with q | ⟨-, q⟩
          · left; omega
          · exact Or.inr q
        rw [found _ ((hcon _).mpr (Or.inr ⟨hc1, by rw [if_pos hO]⟩)), conductance_z hf ph rfl hv hmj hmi hz]
        rw [commonX_comm G.cells[j], commonY_comm G.cells[j]]
      · rw [if_neg (fun h => hO ((overlap'_comm _ _).mp h)), neg_zero]
        refine absent fun cn hc => ?_
        rcases (hcon cn).mp hc with ⟨h, -⟩ | ⟨-, h⟩
        · exact hsame h
        · rw [if_neg hO] at h; cases h
    · rw [if_neg (by omega), neg_zero]
      refine absent fun cn hc => ?_
      rcases (hcon cn).mp hc with ⟨h, -⟩ | ⟨h, -⟩
      · exact hsame h
      · exact hc1 h

/-- Conductances grow with the length of the contact. -/
theorem series_scale {x y v : K} : series (x * v) (y * v) = v * series x y := by
  unfold series
  by_cases hv : v = 0
  · subst hv; simp
  · rw [one_div, one_div, one_div, mul_inv, mul_inv, ← add_mul, mul_inv, inv_inv, one_div, one_div, one_div]; ring

theorem sideX_eq (G : Grid K) (v : K) (p q : Cell K) : sideX G v p q = v * sideX G 1 p q := by
  unfold sideX; rw [← series_scale]; congr 1 <;> ring
theorem sideY_eq (G : Grid K) (v : K) (p q : Cell K) : sideY G v p q = v * sideY G 1 p q := by
  unfold sideY; rw [← series_scale]; congr 1 <;> ring

section
variable {rnd : K → K} (hf : FromFile d0 rs ns G) (ph : PhysicalNU G) (hs : Sharp G) (hm : Assembled rnd G a m)
include hf ph hs hm

theorem ordered_link {i j : Nat} (hij : i < j) (hj : j < G.cells.length) (hi : i < G.cells.length)
    (hlat : G.cells[i].layer = G.cells[j].layer → G.cells[i].layer < G.d.nLayers) :
    (¬ (G.cells[i].layer = G.cells[j].layer ∧ NestedSide G.cells[i] G.cells[j]) → m.entry j i = - link G G.cells[j] G.cells[i]) ∧
    (G.cells[i].layer = G.cells[j].layer ∧ NestedSide G.cells[i] G.cells[j] → m.entry j i < - link G G.cells[j] G.cells[i]) := by
  have h := coefficient hf ph hs hm hij hj hi hlat
  have hmi : G.cells[i] ∈ G.cells := List.getElem_mem hi
  have hmj : G.cells[j] ∈ G.cells := List.getElem_mem hj
  have hsi : Solid G.cells[i] := ph.cell _ hmi
  have hsj : Solid G.cells[j] := ph.cell _ hmj
  obtain ⟨ax, ay⟩ := solid_lt hsi
  obtain ⟨bx, by'⟩ := solid_lt hsj
  by_cases hsame : G.cells[i].layer = G.cells[j].layer
  · have hli := hlat hsame
    have hlj : G.cells[j].layer < G.d.nLayers := by omega
    have hl : link G G.cells[j] G.cells[i] = if TouchX G.cells[i] G.cells[j] then sideX G (commonY G.cells[i] G.cells[j]) G.cells[j] G.cells[i]
        else if TouchY G.cells[i] G.cells[j] then sideY G (commonX G.cells[i] G.cells[j]) G.cells[j] G.cells[i] else 0 := by
      unfold link
      rw [if_pos hsame.symm]
      simp only [touchX_comm G.cells[j], touchY_comm G.cells[j], commonX_comm G.cells[j], commonY_comm G.cells[j]]
    rw [if_pos hsame] at h
    rw [hl, h]
    by_cases hX : TouchX G.cells[i] G.cells[j]
    · rw [if_pos hX, if_pos hX]
      obtain ⟨e1, e2⟩ := shortest_overlap hX.2 ay by'
      have hN : NestedSide G.cells[i] G.cells[j] ↔ Nested G.cells[i].y0 G.cells[i].y1 G.cells[j].y0 G.cells[j].y1 := by
        unfold NestedSide
        exact ⟨fun h => h.elim (fun h => h.2) fun h => absurd h.1 (not_both hsi hsj hX), fun h => Or.inl ⟨hX, h⟩⟩
      constructor
      · intro hn
        rw [e1 fun q => hn ⟨hsame, hN.mpr q⟩]; rfl
      · rintro ⟨-, hn⟩
        have h1 := e2 (hN.mp hn)
        rw [neg_lt_neg_iff, sideX_eq G (commonY _ _), sideX_eq G (shortest _ _)]
        refine mul_lt_mul_of_pos_right h1 ?_
        have p1 := (half_pos hf ph hmi hli (one_pos)).1
        have p2 := (half_pos hf ph hmj hlj (one_pos)).1
        unfold sideX series
        positivity
    · rw [if_neg hX, if_neg hX]
      by_cases hY : TouchY G.cells[i] G.cells[j]
      · rw [if_pos hY, if_pos hY]
        obtain ⟨e1, e2⟩ := shortest_overlap hY.2 ax bx
        have hN : NestedSide G.cells[i] G.cells[j] ↔ Nested G.cells[i].x0 G.cells[i].x1 G.cells[j].x0 G.cells[j].x1 := by
          unfold NestedSide
          exact ⟨fun h => h.elim (fun h => absurd h.1 hX) fun h => h.2, fun h => Or.inr ⟨hY, h⟩⟩
        constructor
        · intro hn
          rw [e1 fun q => hn ⟨hsame, hN.mpr q⟩]; rfl
        · rintro ⟨-, hn⟩
          have h1 := e2 (hN.mp hn)
          rw [neg_lt_neg_iff, sideY_eq G (commonX _ _), sideY_eq G (shortest _ _)]
          refine mul_lt_mul_of_pos_right h1 ?_
          have p1 := (half_pos hf ph hmi hli (one_pos)).2
          have p2 := (half_pos hf ph hmj hlj (one_pos)).2
          unfold sideY series
          positivity
      · rw [if_neg hY, if_neg hY]
        refine ⟨fun _ => rfl, ?_⟩
        rintro ⟨-, h | h⟩
        · exact absurd h.1 hX
        · exact absurd h.1 hY
  · rw [if_neg hsame] at h
    exact ⟨fun _ => h, fun hh => absurd hh.1 hsame⟩

/-! ## C52 -/

/-- The coefficient between two different cells is minus their conductance (zero if they do not touch): for all pairs, except two
cells of the spreader and neighbours of which one ends strictly inside the border of the other on both sides. -/
theorem C52_conductances_partial {i j : Nat} (hij : i ≠ j) (hi : i < G.cells.length) (hj : j < G.cells.length)
    (hlat : G.cells[i].layer = G.cells[j].layer → G.cells[i].layer < G.d.nLayers ∧ ¬ NestedSide G.cells[i] G.cells[j]) :
    m.entry i j = - link G G.cells[i] G.cells[j] := by
  rcases Nat.lt_or_gt_of_ne hij with h | h
  · rw [C44_symmetric hf hm i j hi hj, link_comm]
    exact (ordered_link hf ph hs hm h hj hi fun e => (hlat e).1).1 fun q => (hlat q.1).2 q.2
  · exact (ordered_link hf ph hs hm h hi hj fun e => by rw [e]; exact (hlat e.symm).1).1
      fun q => (hlat q.1.symm).2 ((nestedSide_comm _ _).mp q.2)

/-- In the excluded case the program uses too long a contact: the coefficient is larger than the conductance, for every such pair. -/
theorem C52_nested_violated {i j : Nat} (hij : i ≠ j) (hi : i < G.cells.length) (hj : j < G.cells.length)
    (hsame : G.cells[i].layer = G.cells[j].layer) (hl : G.cells[i].layer < G.d.nLayers) (hn : NestedSide G.cells[i] G.cells[j]) :
    m.entry i j < - link G G.cells[i] G.cells[j] := by
  rcases Nat.lt_or_gt_of_ne hij with h | h
  · rw [C44_symmetric hf hm i j hi hj, link_comm]
    exact (ordered_link hf ph hs hm h hj hi fun e => hl).2 ⟨hsame, hn⟩
  · exact (ordered_link hf ph hs hm h hi hj fun e => by rw [e]; exact hl).2 ⟨hsame.symm, (nestedSide_comm _ _).mp hn⟩

end

/-! ## Examples -/

instance (p q : Cell K) : Decidable (Apart p q) := inferInstanceAs (Decidable (_ ∧ _))
instance (p q : Cell K) : Decidable (NestedSide p q) := inferInstanceAs (Decidable ((_ ∧ (_ ∨ _)) ∨ (_ ∧ (_ ∨ _))))

theorem nuSharp (bottom : Option (Sink ℚ)) (p q : ℚ) : Sharp (nuGrid bottom p q) := by
  unfold Sharp
  rw [nuCells]
  decide +kernel

/-- The second part of the first element (5 × 10) and the lower part of the second one (10 × 5) share a border of length 5; the
upper layer is divided in two, and its second half covers the whole of the cell 7 of the layer below. -/
example (bottom : Option (Sink ℚ)) (p q : ℚ) (a : Ana ℚ) : ∃ m, Assembled id (nuGrid bottom p q) a m ∧
    m.entry 1 2 = - series (exMat.kx * (5 * 5) / (5 / 2)) (2 * (5 * 5) / (10 / 2)) ∧
    m.entry 9 7 = - series (exMat.kz * (10 * 5) / (7 / 2)) (exMat.kz * (10 * 5) / (20 / 2)) ∧ m.entry 0 2 = 0 := by
  obtain ⟨m, hm⟩ := assembled_exists id (nuGrid bottom p q) a
  have hlen : (nuGrid bottom p q).cells.length = 10 := by rw [nuCells]; rfl
  have hk := fun {i j : Nat} => C52_conductances_partial (i := i) (j := j) (nuFrom bottom p q) (nuPhysical bottom p q) (nuSharp bottom p q) hm
  have g0 : (nuGrid bottom p q).cells[0]'(by rw [hlen]; decide) = ⟨0, 0, 0, 5, 10, exMat, false⟩ := by simp only [nuCells]; rfl
  have g1 : (nuGrid bottom p q).cells[1]'(by rw [hlen]; decide) = ⟨0, 5, 0, 10, 10, exMat, false⟩ := by simp only [nuCells]; rfl
  have g2 : (nuGrid bottom p q).cells[2]'(by rw [hlen]; decide) = ⟨0, 10, 0, 20, 5, ⟨2, 3, 4, 5⟩, false⟩ := by simp only [nuCells]; rfl
  have g7 : (nuGrid bottom p q).cells[7]'(by rw [hlen]; decide) = ⟨1, 10, 5, 20, 10, exMat, false⟩ := by simp only [nuCells]; rfl
  have g9 : (nuGrid bottom p q).cells[9]'(by rw [hlen]; decide) = ⟨2, 10, 0, 20, 10, noMat, false⟩ := by simp only [nuCells]; rfl
  refine ⟨m, hm, ?_, ?_, ?_⟩
  · rw [hk (by decide) (by rw [hlen]; decide) (by rw [hlen]; decide) ?_, g1, g2]
    · have hT : TouchX (⟨0, 5, 0, 10, 10, exMat, false⟩ : Cell ℚ) ⟨0, 10, 0, 20, 5, ⟨2, 3, 4, 5⟩, false⟩ := by decide +kernel
      unfold link
      rw [if_pos rfl, if_pos hT]
      have h0 : isSource (typeAt (nuGrid bottom p q).g 0) = true := by cases bottom <;> rfl
      unfold sideX ownMat
      simp only
      rw [if_pos h0, if_pos h0]
      have h1 : commonY (⟨0, 5, 0, 10, 10, exMat, false⟩ : Cell ℚ) ⟨0, 10, 0, 20, 5, ⟨2, 3, 4, 5⟩, false⟩ = 5 := by decide +kernel
      have h2 : height (nuGrid bottom p q).d 0 = 5 := rfl
      have h3 : (⟨0, 5, 0, 10, 10, exMat, false⟩ : Cell ℚ).length = 5 := by decide +kernel
      have h4 : (⟨0, 10, 0, 20, 5, ⟨2, 3, 4, 5⟩, false⟩ : Cell ℚ).length = 10 := by decide +kernel
      rw [h1, h2, h3, h4]
    · intro _
      rw [g1, g2]
      exact ⟨show 0 < 3 by decide, by decide +kernel⟩
  · rw [hk (by decide) (by rw [hlen]; decide) (by rw [hlen]; decide) ?_, g7, g9]
    · have hO : Overlap (⟨2, 10, 0, 20, 10, noMat, false⟩ : Cell ℚ) ⟨1, 10, 5, 20, 10, exMat, false⟩ := by decide +kernel
      unfold link
      rw [if_neg (by decide), if_pos (by decide), if_pos hO]
      have e1 : commonX (⟨2, 10, 0, 20, 10, noMat, false⟩ : Cell ℚ) ⟨1, 10, 5, 20, 10, exMat, false⟩ = 10 := by decide +kernel
      have e2 : commonY (⟨2, 10, 0, 20, 10, noMat, false⟩ : Cell ℚ) ⟨1, 10, 5, 20, 10, exMat, false⟩ = 5 := by decide +kernel
      rw [e1, e2]
      rfl
    · rw [g7, g9]
      intro h; exact absurd h (by decide)
  · rw [hk (by decide) (by rw [hlen]; decide) (by rw [hlen]; decide) ?_, g0, g2]
    · have hT : ¬ TouchX (⟨0, 0, 0, 5, 10, exMat, false⟩ : Cell ℚ) ⟨0, 10, 0, 20, 5, ⟨2, 3, 4, 5⟩, false⟩ := by decide +kernel
      have hT' : ¬ TouchY (⟨0, 0, 0, 5, 10, exMat, false⟩ : Cell ℚ) ⟨0, 10, 0, 20, 5, ⟨2, 3, 4, 5⟩, false⟩ := by decide +kernel
      unfold link
      rw [if_pos rfl, if_neg hT, if_neg hT', neg_zero]
    · intro _
      rw [g0, g2]
      exact ⟨show 0 < 3 by decide, by decide +kernel⟩

/-- A chip of 20 × 30 with a large element and three small ones on its right. -/
def sideD0 : Dims ℚ := { exDims with chipLength := 20, chipWidth := 30, nRows := 3, nCols := 2 }
def sideFlp : List (FEl ℚ) :=
  [⟨⟨0, 0, 10, 30⟩, [], 1, 1, none, []⟩, ⟨⟨10, 0, 10, 10⟩, [], 1, 1, none, []⟩, ⟨⟨10, 10, 10, 10⟩, [], 1, 1, none, []⟩,
   ⟨⟨10, 20, 10, 10⟩, [], 1, 1, none, []⟩]
def sideRaw : List (Raw ℚ (List (FEl ℚ))) := [⟨"die", .die ⟨[], exLayer 5, [], sideFlp⟩⟩]
def sideElems : List (NElem ℚ) := [⟨⟨"die", .die ⟨[exLayer 5], 0, sideFlp⟩, 0⟩, 1, 1⟩]
def sideGrid : Grid ℚ :=
  { d := { sideD0 with nLayers := 1, heights := [5], nCells := 6 }, nCells := 4
    g := { nLayers := 1, types := [.sourceAmb], layers := [exLayer 5], channel := none, top := some (.ambient ⟨1, 300⟩), bottom := none }
    ls := [[⟨0, 0, 0, 10, 30, exMat, false⟩, ⟨0, 10, 0, 20, 10, exMat, false⟩, ⟨0, 10, 10, 20, 20, exMat, false⟩, ⟨0, 10, 20, 20, 30, exMat, false⟩]]
    flps := [some sideFlp]
    ns := sideElems.map fixDiscr }

theorem sideFrom : FromFile sideD0 sideRaw sideElems sideGrid := by
  refine ⟨_, sideGrid.g, ⟨?_, ?_, ?_, ?_, rfl, rfl⟩, rfl, ?_⟩
  · show 1 ≤ 3; decide
  · show 1 ≤ 2; decide
  · intro s h; simp [spreaderOf, sideGrid] at h
  · rintro ch h; simp at h
  · have e : buildNU sideGrid.d sideGrid.g.top sideGrid.g.bottom sideElems =
        some { sideGrid with ls := layersOf sideGrid.d sideGrid.g.top (sideElems.map fixDiscr) } := rfl
    refine e.trans ?_
    have hls : layersOf sideGrid.d sideGrid.g.top (sideElems.map fixDiscr) = sideGrid.ls := ?_
    · rw [hls]
    simp only [sideGrid, layersOf, stackLayers, elemLayers, spreaderLayer, sideElems, fixDiscr, List.map_cons, List.map_nil, sideFlp, fixEl]
    norm_num [List.range_succ, dieLayer, subCells, exLayer]

theorem sidePhysical : PhysicalNU sideGrid := by
  refine ⟨?_, ?_, ?_, ?_, ?_⟩
  · intro h hh
    simp only [sideGrid, List.mem_cons, List.not_mem_nil, or_false] at hh
    subst hh; norm_num
  · show ∀ c ∈ sideGrid.cells, 0 < c.length ∧ 0 < c.width
    decide +kernel
  · intro c hc _
    have h : ∀ c ∈ sideGrid.cells, c.layer = 0 ∧ c.mat = exMat := by
      intro c hc
      simp only [Grid.cells, sideGrid, List.flatten_cons, List.flatten_nil, List.append_nil, List.mem_cons, List.not_mem_nil, or_false] at hc
      rcases hc with rfl | rfl | rfl | rfl <;> exact ⟨rfl, rfl⟩
    obtain ⟨h1, h2⟩ := h c hc
    unfold ownMat
    rw [h1, h2]
    exact exMat_pos
  · intro s h
    simp only [sideGrid, Option.some.injEq, TopSink.ambient.injEq] at h
    subst h; norm_num
  · intro s m h; simp [sideGrid] at h

theorem sideSharp : Sharp sideGrid := by unfold Sharp; decide +kernel

/-- The large element and the middle one share a border of length 10, but the coefficient is that of a border of length 20: twice the
conductance. -/
theorem C52_double_conductance_violated (a : Ana ℚ) : FromFile sideD0 sideRaw sideElems sideGrid ∧ PhysicalNU sideGrid ∧ Sharp sideGrid ∧
    ∃ m, Assembled id sideGrid a m ∧ commonY (cellAt sideGrid.cells 0) (cellAt sideGrid.cells 2) = 10 ∧
      m.entry 0 2 = - (2 * link sideGrid (cellAt sideGrid.cells 0) (cellAt sideGrid.cells 2)) ∧ m.entry 0 2 ≠ 0 := by
  obtain ⟨m, hm⟩ := assembled_exists id sideGrid a
  refine ⟨sideFrom, sidePhysical, sideSharp, m, hm, by decide +kernel, ?_, ?_⟩
  · rw [C44_symmetric sideFrom hm 0 2 (by decide) (by decide), coefficient sideFrom sidePhysical sideSharp hm (i := 0) (j := 2) (by decide) (by decide) (by decide)
      (fun _ => by decide)]
    have hT : TouchX (sideGrid.cells[0]'(by decide)) (sideGrid.cells[2]'(by decide)) := by decide +kernel
    rw [if_pos (by decide), if_pos hT, link_comm]
    show - _ = - (2 * link sideGrid (sideGrid.cells[2]'(by decide)) (sideGrid.cells[0]'(by decide)))
    unfold link
    rw [if_pos (by decide), if_pos ((touchX_comm _ _).mp hT), sideX_eq, sideX_eq sideGrid (commonY _ _)]
    have h1 : shortest ((sideGrid.cells[0]'(by decide)).y0 - (sideGrid.cells[2]'(by decide)).y1)
      ((sideGrid.cells[0]'(by decide)).y1 - (sideGrid.cells[2]'(by decide)).y0) = 20 := by decide +kernel
    have h2 : commonY (sideGrid.cells[2]'(by decide)) (sideGrid.cells[0]'(by decide)) = 10 := by decide +kernel
    rw [h1, h2]; ring
  · refine ne_of_lt (lt_of_lt_of_le (C52_nested_violated sideFrom sidePhysical sideSharp hm (i := 0) (j := 2) (by decide) (by decide) (by decide)
      (by decide) (by decide) (by decide +kernel)) ?_)
    decide +kernel

end Verif.NU
