import Verif.Props.ProgramNuHeat
import Verif.Lemmas.NuRaster

/-! # C70: files whose rectangles lie on a raster -/

set_option linter.unusedSectionVars false
set_option linter.unusedSimpArgs false
set_option linter.unusedVariables false

namespace Verif.Prog
open Verif.Gram Verif.Dim Verif.TG Verif.SM Verif.Stk Verif.FE Verif.Emu Verif.Flp

variable {π : Type}

/-! ### Specification -/

/-- Columns and rows of a layer or a die: as given, else as many as cells in the chip. -/
def partsOf (x : DimD) (o : Option (ℚ × ℚ)) : Nat × Nat := (⌊(o.map (·.1)).getD (x.chipL / x.cellL)⌋₊, ⌊(o.map (·.2)).getD (x.chipW / x.cellW)⌋₊)

/-- The first rectangle of a floorplan element. -/
def firstRect : AreaD → Rect ℚ
  | .one x y l w _ _ => ⟨x, y, l, w⟩
  | .many rs => rs.headD ⟨0, 0, 0, 0⟩

/-- Columns and rows of a floorplan element: as given for it, else as for the die. -/
def elemParts (x : DimD) (o : Option (ℚ × ℚ)) : AreaD → Nat × Nat
  | .one _ _ _ _ _ (some n) => if ⌊n.1⌋₊ ≠ 0 ∧ ⌊n.2⌋₊ ≠ 0 then (⌊n.1⌋₊, ⌊n.2⌋₊) else partsOf x o
  | _ => partsOf x o

/-- All the borders that the files draw are whole numbers of a unit `u`, longer than a nanometre: corners of the floorplan elements, sides of
their cells, sides of the cells of the layers, of the channels and of the spreader. -/
structure OnRaster (u : ℚ) (files : Files) (s : StackD) : Prop where
  unit : 1 / 1000 < u
  layers : ∀ id ref o, .layer id ref o ∈ s.elems → NU.Mult u (s.dims.chipL / (partsOf s.dims o).1) ∧ NU.Mult u (s.dims.chipW / (partsOf s.dims o).2)
  dies : ∀ id ref p o f, .die id ref p o ∈ s.elems → files.flp p = some f → ∀ e ∈ f, NU.Mult u (firstRect e.area).x ∧ NU.Mult u (firstRect e.area).y ∧
    NU.Mult u ((firstRect e.area).length / (elemParts s.dims o e.area).1) ∧ NU.Mult u ((firstRect e.area).width / (elemParts s.dims o e.area).2)
  chan : ∀ id, .channel id ∈ s.elems → NU.Mult u s.dims.cellW ∧
    match s.chan with
    | some (.rm4 _ c w f l _ _ _ _ _) => NU.Mult u c ∧ NU.Mult u w ∧ NU.Mult u (wallOr w f) ∧ NU.Mult u (wallOr w l)
    | _ => NU.Mult u s.dims.cellL
  plug : ∀ p, s.top = some (.plug p) → NU.Mult u (s.dims.chipL / columns s) ∧ NU.Mult u s.dims.cellW

/-! ### Proofs -/

variable {w : World π} {file : String} {s : StackD} {D : Desc NFlps} {an : Analysis ℚ} {G : NU.Grid ℚ} {s0 s' : NU.NSim ℚ π} {log : NLog}

theorem elOf_first (ms : Table (Material ℚ)) (f : FlpD) : (elOf ms f).rect = firstRect f.area := by
  unfold elOf firstRect
  cases f.area with
  | one => rfl
  | many rs => cases rs <;> rfl

theorem elOf_parts (ms : Table (Material ℚ)) (f : FlpD) {n : NU.NElem ℚ} {x : DimD} {o : Option (ℚ × ℚ)} (h : (n.dx, n.dy) = partsOf x o) :
    NU.partsEl n (elOf ms f) = elemParts x o f.area := by
  unfold NU.partsEl elemParts
  rw [h]
  unfold elOf
  cases f.area with
  | one a b l w m q =>
    cases q with
    | none => simp
    | some q => simp
  | many rs => cases rs <;> simp

/-- **C70 (raster)** When all the borders that sensible files draw lie on a raster of more than a nanometre, the borders of the cells coincide or are
more than a nanometre apart: the tolerances of the program cannot confuse them. -/
theorem C70_raster (h : StartedNU w s D an G s0) (hs : Sensible w.eff (filesOf w.read) s) {u : ℚ} (hr : OnRaster u (filesOf w.read) s) : NU.Sharp G := by
  obtain ⟨d0, raws, h1, h2, h3, h4, h5, h6, h7, h8, h9, h10, h11⟩ := h.begun hs
  have hf : NU.FromStack d0 D.chan (raws.map (rawMap (List.map (elOf D.mats)))) (nElems D) G := by rw [← h3]; exact .fresh h2.grid
  obtain ⟨walls, d, spr, hw, hd, -, hch, htop, -, -, raws', -, hp⟩ := h.means.stack
  obtain ⟨w1, w2, w3, w4, w5, w6, w7, w8, w9, w10⟩ := dims_good hs hw hd
  obtain ⟨es, m, -, -, -, -, -, -, -, hdim, -⟩ := parseStack_spec hp
  have hGd : G.d = { d with nLayers := total es.reverse, heights := es.reverse.flatMap heightsOf, nCells := m } := h4.trans hdim
  have hnr : (0 : ℚ) < d.nRows := by exact_mod_cast w3
  have hrow : d.chipWidth / (d.nRows : ℚ) = s.dims.cellW := by
    rw [w6, ← w7, w8]; field_simp
  refine hf.sharp hr.unit ?_ ?_
  · intro n hn
    obtain ⟨d', x, hx, raw, e, k1, k2, k3, k4⟩ := nElem_of h.means hn
    cases x with
    | channel id =>
      have k1 : raw = _ := k1
      subst k1
      obtain ⟨ch, hD, rfl⟩ := Option.map_eq_some_iff.mp k2
      have hb : n.elem.body = .channel ch := k3
      unfold NU.UnitElem
      rw [hb, hGd]
      obtain ⟨c1, c2⟩ := hr.chan id hx
      obtain ⟨p0⟩ : Nonempty (PosGeom s.dims.chipL s.dims.chipW s.dims.cellL s.dims.cellW walls) := by
        refine ⟨hs.chip.1, hs.chip.2.1, hs.chip.2.2.1, hs.chip.2.2.2, ?_⟩
        rintro q rfl
        unfold WallsAre at hw
        split at hw
        · rename_i h ch w f l m fl t v i hc
          obtain ⟨q', e, h1, h2, h3, h4⟩ := hw
          cases e
          obtain ⟨-, g1, g2, g3, g4, -⟩ := hs.chan _ hc
          rw [wallOr_iff] at h3 h4
          rw [h1, h2, h3, h4]
          exact ⟨g1, g2, wallOr_pos g2 g3, wallOr_pos g2 g4⟩
        · cases hw
      obtain ⟨-, -, -, e3, e4, e5⟩ := parse_cases hd p0
      have hlast : NU.Mult u (d.chipWidth / (d.nRows : ℚ)) := by rw [hrow]; exact c1
      rcases e5 with ⟨e0, e5, e6, e7, e8, e9⟩ | ⟨f, k, e0, e5, e6, e7, e8, e9, e10⟩
      · have c2' : NU.Mult u s.dims.cellL := by
          unfold WallsAre at hw
          cases hsc : s.chan with
          | none => rw [hsc] at c2; exact c2
          | some y =>
            rw [hsc] at c2 hw
            cases y with
            | rm4 => obtain ⟨q, hq, -⟩ := hw; rw [e0] at hq; cases hq
            | rm2 => exact c2
            | pin => exact c2
        show NU.Mult u d.firstWall ∧ NU.Mult u d.wall ∧ NU.Mult u d.channel ∧ NU.Mult u d.lastWall ∧ NU.Mult u d.chipLength ∧ NU.Mult u (d.chipWidth / (d.nRows : ℚ))
        rw [e5, e6, e7, e8]
        refine ⟨c2', c2', c2', c2', ?_, hlast⟩
        rw [w5]
        rcases w10 with ⟨k, -, -, q⟩ | ⟨-, -, -, -, q, -⟩
        · rw [e5, e6, e7, e8] at q
          rw [← q]
          exact ((c2'.add (c2'.natMul _)).add (c2'.natMul _)).add c2'
        · rw [← q]; exact c2'.natMul _
      · unfold WallsAre at hw
        cases hsc : s.chan with
        | none => rw [hsc] at hw; rw [e0] at hw; cases hw
        | some y =>
          rw [hsc] at c2 hw
          cases y with
          | rm4 a b c d' e' f' g' h' i' j' =>
            obtain ⟨q, hq, q1, q2, q3, q4⟩ := hw
            rw [e0] at hq
            cases hq
            rw [wallOr_iff] at q3 q4
            obtain ⟨g1, g2, g3, g4⟩ := c2
            show NU.Mult u d.firstWall ∧ NU.Mult u d.wall ∧ NU.Mult u d.channel ∧ NU.Mult u d.lastWall ∧ NU.Mult u d.chipLength ∧ NU.Mult u (d.chipWidth / (d.nRows : ℚ))
            have f1 : NU.Mult u d.firstWall := by rw [e7, q3]; exact g3
            have f2 : NU.Mult u d.wall := by rw [e8, q2]; exact g2
            have f3 : NU.Mult u d.channel := by rw [e9, q1]; exact g1
            have f4 : NU.Mult u d.lastWall := by rw [e10, q4]; exact g4
            refine ⟨f1, f2, f3, f4, ?_, hlast⟩
            rw [w5, ← e6]
            exact ((f1.add (f3.natMul _)).add (f2.natMul _)).add f4
          | rm2 => rw [e0] at hw; cases hw
          | pin => rw [e0] at hw; cases hw
    | layer id ref o =>
      obtain ⟨l, -, k1⟩ := k1
      subst k1
      cases k2
      have hb : n.elem.body = .layer l := k3
      have k4 : (n.dx, n.dy) = partsOf s.dims o := k4
      unfold NU.UnitElem
      rw [hb, hGd]
      show NU.Mult u (d.chipLength / (n.dx : ℚ)) ∧ NU.Mult u (d.chipWidth / (n.dy : ℚ))
      have e1 : n.dx = (partsOf s.dims o).1 := congrArg Prod.fst k4
      have e2 : n.dy = (partsOf s.dims o).2 := congrArg Prod.snd k4
      rw [w5, w6, e1, e2]
      exact hr.layers id ref o hx
    | die id ref p o =>
      obtain ⟨q, f, g, -, hf', hrd, k1⟩ := k1
      subst k1
      cases k2
      have hgf : g = f := by
        obtain ⟨_, -, e⟩ := Option.map_eq_some_iff.mp hrd
        exact e.symm
      subst hgf
      have k4 : (n.dx, n.dy) = partsOf s.dims o := k4
      have hb : ∃ ls so, n.elem.body = .die ⟨ls, so, g.map (elOf D.mats)⟩ := ⟨_, _, k3⟩
      obtain ⟨ls, so, hb⟩ := hb
      unfold NU.UnitElem
      rw [hb]
      intro e he
      obtain ⟨y, hy, rfl⟩ := List.mem_map.mp he
      rw [elOf_first, elOf_parts D.mats y k4]
      exact hr.dies id ref p o g hx hf' y hy
  · intro sp mm ht
    rw [h5] at ht
    have hpl : ∃ p, s.top = some (.plug p) := by
      rw [ht] at htop
      cases hx : s.top with
      | none => rw [hx] at htop; exact htop.elim
      | some y =>
        rw [hx] at htop
        cases y with
        | conv x => have htop : TopSink.pluggable sp mm = .ambient ⟨x.htc, x.temp⟩ := htop; cases htop
        | plug p => exact ⟨p, rfl⟩
    obtain ⟨p, hpl⟩ := hpl
    obtain ⟨g1, g2⟩ := hr.plug p hpl
    rw [hGd]
    show NU.Mult u (d.chipLength / (d.nCols : ℚ)) ∧ NU.Mult u (d.chipWidth / (d.nRows : ℚ))
    rw [hrow, w5, w9]
    exact ⟨g1, g2⟩

end Verif.Prog
