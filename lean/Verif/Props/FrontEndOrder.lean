import Verif.Props.FrontEnd
import Verif.Props.GrammarFiles

/-! **C67** Consequences: order and number of the declarations, shorthands, names, and layout of the text do not change the simulation. -/

set_option linter.unusedSimpArgs false
set_option linter.unusedVariables false
set_option linter.unusedSectionVars false

namespace Verif.FE
open Verif.Gram Verif.Dim Verif.TG Verif.Stk

/-! ### Order and unused declarations -/

/-- Every layout file of `a` is one of `b`, up to the order of the materials declared in it; the floorplans are the same. -/
structure FilesLe (a b : Files) : Prop where
  flp : ∀ p f, a.flp p = some f → b.flp p = some f
  lay : ∀ p f, a.lay p = some f → ∃ g, b.lay p = some g ∧ f.mats.Perm g.mats ∧ f.areas = g.areas

/-- `s'` declares, in any order, what `s` declares, and possibly more; the rest is the same. -/
structure MoreDecls (s s' : StackD) : Prop where
  mats : s.mats ⊆ s'.mats
  layers : s.layers ⊆ s'.layers
  dies : s.dies ⊆ s'.dies
  top : s'.top = s.top
  bottom : s'.bottom = s.bottom
  chan : s'.chan = s.chan
  dims : s'.dims = s.dims
  elems : s'.elems = s.elems
  solver : s'.solver = s.solver
  points : s'.points = s.points

theorem findMaterial_mono {loc loc' glob glob' : Table (Material ℚ)} (hl : lookup loc = lookup loc')
    (hg : ∀ id m, lookup glob id = some m → lookup glob' id = some m) {id : String} {m : Material ℚ}
    (h : Flp.findMaterial loc glob id = some m) : Flp.findMaterial loc' glob' id = some m := by
  have e : ∀ a b : Table (Material ℚ), Flp.findMaterial a b id = (lookup a id).orElse fun _ => lookup b id := by
    intro a b
    unfold Flp.findMaterial lookup
    cases a.find? (fun m => m.1 == id) <;> rfl
  rw [e] at h ⊢
  rw [← hl]
  cases hx : lookup loc id with
  | none => rw [hx] at h; exact hg _ _ h
  | some x => rw [hx] at h; exact h

theorem parseLayout_mono {d : Dims ℚ} {loc loc' glob glob' : Table (Material ℚ)} (hl : lookup loc = lookup loc')
    (hg : ∀ id m, lookup glob id = some m → lookup glob' id = some m) {raws : List (String × List (Rect ℚ))}
    {L : List (String × Material ℚ × List (Rect ℚ))} (h : Flp.parseLayout d loc glob raws = some L) :
    Flp.parseLayout d loc' glob' raws = some L := by
  unfold Flp.parseLayout at h ⊢
  by_cases hr : raws = []
  · rw [if_pos hr] at h; cases h
  · rw [if_neg hr] at h ⊢
    have step : ∀ acc x r, Flp.addLayout d loc glob acc x = some r → Flp.addLayout d loc' glob' acc x = some r := by
      intro acc x r h
      unfold Flp.addLayout at h ⊢
      cases hm : Flp.findMaterial loc glob x.1 with
      | none => rw [hm] at h; cases h
      | some m => rw [hm] at h; rw [findMaterial_mono hl hg hm]; exact h
    have key : ∀ (raws : List (String × List (Rect ℚ))) acc, raws.foldlM (Flp.addLayout d loc glob) acc = some L →
        raws.foldlM (Flp.addLayout d loc' glob') acc = some L := by
      intro raws
      induction raws with
      | nil => intro acc h; exact h
      | cons x xs ih =>
        intro acc h
        rw [List.foldlM_cons] at h ⊢
        simp only [bind, Option.bind_eq_some_iff] at h ⊢
        obtain ⟨r, h1, h2⟩ := h
        exact ⟨r, step _ _ _ h1, ih _ h2⟩
    exact key raws [] h

section
variable {files files' : Files} (hf : FilesLe files files') {ms ms' : List MatD} (hm : ms ⊆ ms') (hn : (ms.map (·.id)).Nodup)
  (hn' : (ms'.map (·.id)).Nodup) {d : Dims ℚ}

include hm in
theorem MatIs.mono {id : String} {m : Material ℚ} (h : MatIs ms id m) : MatIs ms' id m := by
  obtain ⟨x, hx, h⟩ := h; exact ⟨x, hm hx, h⟩

include hf hm hn hn'
theorem LayoutIs.mono {o : Option String} {l : List (Material ℚ × List (Rect ℚ))} (h : LayoutIs files ms d o l) : LayoutIs files' ms' d o l := by
  rcases h with h | ⟨p, f, loc, glob, areas, L, rfl, h1, h2, h3, h4, h5, h6, rfl⟩
  · exact Or.inl h
  · obtain ⟨g, g1, g2, g3⟩ := hf.lay _ _ h1
    have h2' : (g.mats.map (·.id)).Nodup := (g2.map _).nodup_iff.mp h2
    cases declared_iff.mp h3
    cases declared_iff.mp h4
    refine Or.inr ⟨p, g, named g.mats, named ms', areas, L, rfl, g1, h2', declared_iff.mpr rfl, declared_iff.mpr rfl, g3 ▸ h5, ?_, rfl⟩
    refine parseLayout_mono ?_ ?_ h6
    · exact lookup_perm (g2.map _) (by rw [named_names]; exact h2)
    · intro id m h
      exact (matIs_iff hn').mpr (((matIs_iff hn).mp h).mono hm)

theorem LayerIs.mono {x : LayD} {l : Layer ℚ} (h : LayerIs files ms d x l) : LayerIs files' ms' d x l :=
  ⟨h.1, h.2.1.mono hm, h.2.2.mono hf hm hn hn'⟩

variable {ls ls' : List LayD} (hl : ls ⊆ ls')
include hl

theorem LayerNamed.mono {id : String} {l : Layer ℚ} (h : LayerNamed files ms d ls id l) : LayerNamed files' ms' d ls' id l := by
  obtain ⟨x, hx, h1, h2⟩ := h; exact ⟨x, hl hx, h1, h2.mono hf hm hn hn'⟩

theorem DieLayerIs.mono {x : DLayD} {l : Layer ℚ} (h : DieLayerIs files ms d ls x l) : DieLayerIs files' ms' d ls' x l := by
  cases x with
  | own h' m => exact ⟨h.1, h.2.1.mono hm, h.2.2⟩
  | ref id => exact LayerNamed.mono hf hm hn hn' hl h

theorem DieIs.mono {x : DieD} {p : Parts} (h : DieIs files ms d ls x p) : DieIs files' ms' d ls' x p :=
  ⟨h.1.imp fun _ _ h => DieLayerIs.mono hf hm hn hn' hl h, DieLayerIs.mono hf hm hn hn' hl h.2.1,
    h.2.2.imp fun _ _ h => DieLayerIs.mono hf hm hn hn' hl h⟩

end

theorem ChanIs.mono {eff : Bool → ℚ → ℚ} {ms ms' : List MatD} (hm : ms ⊆ ms') {d : Dims ℚ} {x : ChanD} {c : Channel ℚ} (h : ChanIs eff ms d x c) :
    ChanIs eff ms' d x c := by
  unfold ChanIs at h ⊢
  refine ⟨h.1, h.2.1, ?_⟩
  have h := h.2.2
  cases x with
  | rm4 => obtain ⟨a, b, c, d, e, f, g⟩ := h; exact ⟨a, b, c, d, e, f.mono hm, g⟩
  | rm2 => obtain ⟨a, b, c, d, e, f, g⟩ := h; exact ⟨a, b, c, d, e, f.mono hm, g⟩
  | pin => obtain ⟨a, b, c, d, e, f, g⟩ := h; exact ⟨a, b, c, d, e, f.mono hm, g⟩

theorem TopIs.mono {ms ms' : List MatD} (hm : ms ⊆ ms') {d : Dims ℚ} {x : TopD} {t : TopSink ℚ} (h : TopIs ms d x t) : TopIs ms' d x t := by
  cases x with
  | conv s => exact h
  | plug p => obtain ⟨s, m, h1, h2⟩ := h; exact ⟨s, m, h1.mono hm, h2⟩

theorem Both.imp {α β : Type} {r r' : α → β → Prop} (h : ∀ a b, r a b → r' a b) {x : Option α} {y : Option β} (h' : Both r x y) : Both r' x y := by
  cases x <;> cases y <;> first | exact h' | exact h _ _ h'

/-- Every layer and die declared in `s` can be built, used or not. -/
def Buildable (files : Files) (s : StackD) : Prop :=
  ∀ walls d, WallsAre s.chan walls → parseDimensions s.dims.chipL s.dims.chipW s.dims.cellL s.dims.cellW walls = .ok d →
    (∀ x ∈ s.layers, ∃ l, LayerIs files s.mats d x l) ∧ ∀ x ∈ s.dies, ∃ p, DieIs files s.mats d s.layers x p

/-- **C67** Declarations may be in any order, and ones that are not used change nothing: if a file is accepted, so is every file with
at least its declarations, each name declared once and every layer and die of which can be built, and the simulation is the same. -/
theorem C67_declarations {φ : Type} (R : Reader φ) (eff : Bool → ℚ → ℚ) {files files' : Files} (hf : FilesLe files files') {s s' : StackD}
    (hs : MoreDecls s s') {D : Desc φ} (h : describe R eff files s = some D)
    (hm : (s'.mats.map (·.id)).Nodup) (hl : (s'.layers.map (·.id)).Nodup) (hd : (s'.dies.map (·.id)).Nodup) (hb : Buildable files' s') :
    ∃ mats, Declared s'.mats mats ∧ describe R eff files' s' = some { D with mats := mats } := by
  refine ⟨named s'.mats, declared_iff.mpr rfl, ?_⟩
  rw [C67_meaning] at h ⊢
  obtain ⟨walls, d, spr, h1, h2, h3, h4, h5, -, -, raws, h8, h9⟩ := h.stack
  obtain ⟨b1, b2⟩ := hb walls d (by rw [hs.chan]; exact h1) (by rw [hs.dims]; exact h2)
  have hn := h.matNames
  exact {
    matNames := hm
    layerNames := hl
    dieNames := hd
    mats := declared_iff.mpr rfl
    bottom := by rw [hs.bottom]; exact h.bottom
    plugin := by rw [hs.top]; exact h.plugin
    nonUniform := by rw [hs.dims]; exact h.nonUniform
    discr := by rw [hs.dims, hs.elems]; exact h.discr
    times := by rw [hs.solver]; exact h.times
    init := by rw [hs.solver]; exact h.init
    cores := by rw [hs.solver]; exact h.cores
    stack := by
      refine ⟨walls, d, spr, by rw [hs.chan]; exact h1, by rw [hs.dims]; exact h2, h3, ?_, ?_, b1, b2, raws, ?_, h9⟩
      · rw [hs.chan]; exact h4.imp fun _ _ => ChanIs.mono hs.mats
      · rw [hs.top]; exact h5.imp fun _ _ => TopIs.mono hs.mats
      · rw [hs.elems]
        refine h8.imp fun x r hx => ?_
        cases x with
        | layer id ref o => obtain ⟨l, h1, h2⟩ := hx; exact ⟨l, h1.mono hf hs.mats hn hm hs.layers, h2⟩
        | channel id => exact hx
        | die id ref p o =>
          obtain ⟨q, f, g, ⟨y, hy, e, h1⟩, h2, h3, h4⟩ := hx
          exact ⟨q, f, g, ⟨y, hs.dies hy, e, h1.mono hf hs.mats hn hm hs.layers⟩, hf.flp _ _ h2, h3, h4⟩
    points := by rw [hs.points]; exact h.points }

/-- `s'` is `s` with the declarations of each section in another order. -/
structure Reordered (s s' : StackD) : Prop where
  mats : s.mats.Perm s'.mats
  layers : s.layers.Perm s'.layers
  dies : s.dies.Perm s'.dies
  top : s'.top = s.top
  bottom : s'.bottom = s.bottom
  chan : s'.chan = s.chan
  dims : s'.dims = s.dims
  elems : s'.elems = s.elems
  solver : s'.solver = s.solver
  points : s'.points = s.points

theorem Reordered.symm {s s' : StackD} (h : Reordered s s') : Reordered s' s :=
  ⟨h.mats.symm, h.layers.symm, h.dies.symm, h.top.symm, h.bottom.symm, h.chan.symm, h.dims.symm, h.elems.symm, h.solver.symm, h.points.symm⟩

/-- The materials declared in a layout file may also be in any order. -/
structure FilesReordered (a b : Files) : Prop where
  flp : ∀ p, a.flp p = b.flp p
  lay : ∀ p, Both (fun f g : LayoutD => f.mats.Perm g.mats ∧ f.areas = g.areas) (a.lay p) (b.lay p)

theorem FilesReordered.le {a b : Files} (h : FilesReordered a b) : FilesLe a b := by
  refine ⟨fun p f hf => by rw [← h.flp]; exact hf, fun p f hf => ?_⟩
  have := h.lay p
  rw [hf] at this
  cases hb : b.lay p with
  | none => rw [hb] at this; exact absurd this (by simp [Both])
  | some g => rw [hb] at this; exact ⟨g, rfl, this⟩

theorem FilesReordered.symm {a b : Files} (h : FilesReordered a b) : FilesReordered b a := by
  refine ⟨fun p => (h.flp p).symm, fun p => ?_⟩
  have := h.lay p
  revert this
  cases a.lay p <;> cases b.lay p <;> intro this <;> first | exact this | exact ⟨this.1.symm, this.2.symm⟩

/-- **C67** The order of the materials, of the layers and of the dies in the file, and of the materials in a layout file, does not
matter: the file is accepted or refused, and means the same, whatever the order. -/
theorem C67_order {φ : Type} (R : Reader φ) (eff : Bool → ℚ → ℚ) {files files' : Files} (hf : FilesReordered files files') {s s' : StackD}
    (hs : Reordered s s') :
    (describe R eff files s).map (fun D => { D with mats := [] }) = (describe R eff files' s').map (fun D => { D with mats := [] }) := by
  have key : ∀ {files files' s s'}, FilesReordered files files' → Reordered s s' → ∀ D : Desc φ, describe R eff files s = some D →
      ∃ mats, describe R eff files' s' = some { D with mats := mats } := by
    intro files files' s s' hf hs D hD
    have M := (C67_meaning R eff files s D).mp hD
    have hm : (s'.mats.map (·.id)).Nodup := (hs.mats.map _).nodup_iff.mp M.matNames
    have hmore : MoreDecls s s' := ⟨hs.mats.subset, hs.layers.subset, hs.dies.subset, hs.top, hs.bottom, hs.chan, hs.dims, hs.elems, hs.solver, hs.points⟩
    have hb : Buildable files' s' := by
      intro walls d h1 h2
      obtain ⟨walls', d', spr, h1', h2', -, -, -, h6, h7, -⟩ := M.stack
      rw [hs.chan] at h1
      cases (walls_iff.mp h1).trans (walls_iff.mp h1').symm
      rw [hs.dims, h2'] at h2
      cases h2
      constructor
      · intro x hx
        obtain ⟨l, h⟩ := h6 x (hs.layers.symm.subset hx)
        exact ⟨l, h.mono hf.le hmore.mats M.matNames hm⟩
      · intro x hx
        obtain ⟨l, h⟩ := h7 x (hs.dies.symm.subset hx)
        exact ⟨l, h.mono hf.le hmore.mats M.matNames hm hmore.layers⟩
    obtain ⟨mats, -, h⟩ := C67_declarations R eff hf.le hmore hD hm ((hs.layers.map _).nodup_iff.mp M.layerNames)
      ((hs.dies.map _).nodup_iff.mp M.dieNames) hb
    exact ⟨mats, h⟩
  cases h : describe R eff files s with
  | some D =>
    obtain ⟨mats, h'⟩ := key hf hs D h
    rw [h']; rfl
  | none =>
    cases h' : describe R eff files' s' with
    | none => rfl
    | some D =>
      obtain ⟨mats, h''⟩ := key hf.symm hs.symm D h'
      rw [h] at h''; cases h''

/-! ### Shorthands -/

/-- A material with the three conductivities written out. -/
def MatD.full (m : MatD) : MatD := match m.cond with
  | .iso k => { m with cond := .aniso k k k }
  | _ => m

/-- The discretization of an element written out. -/
def ElD.full (x : DimD) : ElD → ElD
  | .layer id ref none => .layer id ref (some (x.chipL / x.cellL, x.chipW / x.cellW))
  | .die id ref p none => .die id ref p (some (x.chipL / x.cellL, x.chipW / x.cellW))
  | e => e

/-- A channel with all its walls and heat transfer coefficients written out. -/
def ChanD.full : ChanD → ChanD
  | .rm4 h c w f l m fl t v i =>
    .rm4 h c w (some (if f = none ∨ f = some 0 then w else f.getD w)) (some (if l = none ∨ l = some 0 then w else l.getD w)) m fl
      (match t with | .one a => .three a a a | t => t) v i
  | .rm2 h c w m fl t v i => .rm2 h c w m fl (match t with | .one a => .two a a | t => t) v i
  | c => c

def WhenD.full : WhenD → WhenD
  | .unsaid => .final
  | w => w

def PointD.full : PointD → PointD
  | .tcell el x y file w => .tcell el x y file (WhenD.full w)
  | .tflp el file q w => .tflp el file q (WhenD.full w)
  | .tflpel el sub file q w => .tflpel el sub file q (WhenD.full w)
  | .tmap el file w => .tmap el file (WhenD.full w)
  | .t3d file w => .t3d file (WhenD.full w)
  | .pmap el file w => .pmap el file (WhenD.full w)
  | .tcoolant el file q w => .tcoolant el file q (WhenD.full w)

/-- A stack file with everything that may be left out written out. -/
def StackD.full (s : StackD) : StackD :=
  { s with
    mats := s.mats.map MatD.full, chan := s.chan.map ChanD.full, elems := s.elems.map (ElD.full s.dims),
    dims := { s.dims with nonUniform := some (s.dims.nonUniform.getD false) },
    solver := { s.solver with cores := some (s.solver.cores.getD 1) }, points := s.points.map PointD.full }

theorem named_full (ms : List MatD) : named (ms.map MatD.full) = named ms := by
  unfold named
  rw [List.map_map]
  apply List.map_congr_left
  intro m _
  obtain ⟨i, c, v⟩ := m
  cases c <;> rfl

theorem materials_full (ms : List MatD) : materials (ms.map MatD.full) = materials ms := by
  apply Option.ext
  intro t
  rw [materials_named, materials_named, named_full, List.map_map]
  have : ((fun x => x.id) ∘ MatD.full : MatD → String) = fun x => x.id := by
    funext m; obtain ⟨i, c, v⟩ := m; cases c <;> rfl
  rw [this]

theorem wallOr_full (w : ℚ) (f : Option ℚ) : wallOr w (some (if f = none ∨ f = some 0 then w else f.getD w)) = wallOr w f := by
  unfold wallOr
  cases f with
  | none => simp
  | some x =>
    by_cases h : x = 0
    · subst h; simp
    · simp [h]

theorem fourOf_full (c : Option ChanD) : fourOf (c.map ChanD.full) = fourOf c := by
  cases c with
  | none => rfl
  | some c =>
    cases c with
    | rm4 h c w f l m fl t v i => simp only [Option.map_some, ChanD.full, fourOf, wallOr_full]
    | rm2 => rfl
    | pin => rfl

theorem channelOpt_full (eff : Bool → ℚ → ℚ) (mats : Table (Material ℚ)) (d : Dims ℚ) (c : Option ChanD) :
    channelOpt eff mats d (c.map ChanD.full) = channelOpt eff mats d c := by
  cases c with
  | none => rfl
  | some c =>
    cases c with
    | rm4 h c w f l m fl t v i => cases t <;> rfl
    | rm2 h c w m fl t v i => cases t <;> rfl
    | pin => rfl

/-- **C67** What may be left out of the file has the default value that the manual gives: the file with everything written out means
the same. -/
theorem C67_shorthand {φ : Type} (R : Reader φ) (eff : Bool → ℚ → ℚ) (files : Files) (s : StackD) :
    describe R eff files (StackD.full s) = describe R eff files s := by
  have e1 : ∀ d layers dies, ((s.elems.map (ElD.full s.dims)).mapM (elemOf R files d layers dies)) = s.elems.mapM (elemOf R files d layers dies) := by
    intro d layers dies
    rw [List.mapM_map]
    congr 1
    funext e
    cases e with
    | layer id ref o => cases o <;> rfl
    | channel => rfl
    | die id ref p o => cases o <;> rfl
  have e2 : ∀ d (es : List (SElem ℚ φ)), ((s.points.map PointD.full).mapM (pointOf R d es)) = s.points.mapM (pointOf R d es) := by
    intro d es
    rw [List.mapM_map]
    congr 1
    funext e
    have hw : ∀ w, instantOf (WhenD.full w) = instantOf w := by intro w; cases w <;> rfl
    cases e <;> simp only [PointD.full, Function.comp, pointOf, hw]
  have e3 : ∀ nu, (s.elems.map (ElD.full s.dims)).map (elemDiscr { s.dims with nonUniform := nu }) = s.elems.map (elemDiscr s.dims) := by
    intro nu
    rw [List.map_map]
    apply List.map_congr_left
    intro e _
    cases e with
    | layer id ref o => cases o <;> rfl
    | channel => rfl
    | die id ref p o => cases o <;> rfl
  have e4 : solverOk { s.solver with cores := some (s.solver.cores.getD 1) } = solverOk s.solver := by
    unfold solverOk
    congr 1
    cases s.solver.cores with
    | none => simp
    | some c => rfl
  have e5 : ∀ nu, dimsOf { s.dims with nonUniform := nu } (s.chan.map ChanD.full) = dimsOf s.dims s.chan := by
    intro nu
    unfold dimsOf
    rw [fourOf_full]
  unfold describe StackD.full
  simp only [materials_full, channelOpt_full, e1, e2, e3, e4, e5, Option.getD_some]
  rfl

/-! ### Names -/

/-- New names for materials, layers and dies. -/
structure Renaming where
  mat : String → String
  layer : String → String
  die : String → String
  matInj : Function.Injective mat
  layerInj : Function.Injective layer
  dieInj : Function.Injective die

variable (ρ : Renaming)

def MatD.rename (m : MatD) : MatD := { m with id := ρ.mat m.id }
def LayD.rename (x : LayD) : LayD := { x with id := ρ.layer x.id, mat := ρ.mat x.mat }
def DLayD.rename : DLayD → DLayD
  | .own h m => .own h (ρ.mat m)
  | .ref id => .ref (ρ.layer id)
def DieD.rename (x : DieD) : DieD :=
  { id := ρ.die x.id, above := x.above.map (DLayD.rename ρ), source := DLayD.rename ρ x.source, below := x.below.map (DLayD.rename ρ) }
def ElD.rename : ElD → ElD
  | .layer id ref o => .layer id (ρ.layer ref) o
  | .channel id => .channel id
  | .die id ref p o => .die id (ρ.die ref) p o
def TopD.rename : TopD → TopD
  | .conv s => .conv s
  | .plug p => .plug { p with mat := ρ.mat p.mat }
def ChanD.rename : ChanD → ChanD
  | .rm4 h c w f l m fl t v i => .rm4 h c w f l (ρ.mat m) fl t v i
  | .rm2 h c w m fl t v i => .rm2 h c w (ρ.mat m) fl t v i
  | .pin h di p s m u v i => .pin h di p s (ρ.mat m) u v i
def AreaD.rename : AreaD → AreaD
  | .one x y l w m d => .one x y l w (m.map ρ.mat) d
  | .many rs => .many rs
def FlpD.rename (f : FlpD) : FlpD := { f with area := AreaD.rename ρ f.area }
def LayoutD.rename (l : LayoutD) : LayoutD := { mats := l.mats.map (MatD.rename ρ), areas := l.areas.map fun a => (ρ.mat a.1, a.2) }

/-- The stack file with the new names. -/
def StackD.rename (s : StackD) : StackD :=
  { s with
    mats := s.mats.map (MatD.rename ρ), top := s.top.map (TopD.rename ρ), chan := s.chan.map (ChanD.rename ρ),
    layers := s.layers.map (LayD.rename ρ), dies := s.dies.map (DieD.rename ρ), elems := s.elems.map (ElD.rename ρ) }

/-- The files it names, with the new names of the materials. -/
def Files.rename (f : Files) : Files where
  flp p := (f.flp p).map fun l => l.map (FlpD.rename ρ)
  lay p := (f.lay p).map (LayoutD.rename ρ)

def renT {α : Type} (g : String → String) (t : Table α) : Table α := t.map fun x => (g x.1, x.2)

theorem lookup_renT {α : Type} {t : Table α} {g : String → String} (hg : Function.Injective g) (id : String) : lookup (renT g t) (g id) = lookup t id :=
  lookup_map hg id

theorem declare_rename {δ α : Type} {f f' : δ → Option (String × α)} {r : δ → δ} {g : String → String} (hg : Function.Injective g)
    (h : ∀ x, f' (r x) = (f x).map fun y => (g y.1, y.2)) (xs : List δ) : declare f' (xs.map r) = (declare f xs).map (renT g) := by
  have key : ∀ (xs : List δ) (acc : Table α), (xs.map r).foldlM (addDecl f') (renT g acc) = (xs.foldlM (addDecl f) acc).map (renT g) := by
    intro xs
    induction xs with
    | nil => intro acc; rfl
    | cons x xs ih =>
      intro acc
      rw [List.map_cons, List.foldlM_cons, List.foldlM_cons]
      have e : addDecl f' (renT g acc) (r x) = (addDecl f acc x).map (renT g) := by
        unfold addDecl
        rw [h x]
        cases f x with
        | none => rfl
        | some y =>
          have e : (renT g acc).any (fun z => z.1 == g y.1) = acc.any (fun z => z.1 == y.1) := by
            unfold renT
            rw [List.any_map]
            congr 1
            funext z
            simp [hg.eq_iff]
          simp only [Option.map_some, Option.bind_some, e]
          split
          · rfl
          · simp [renT]
      rw [e]
      cases addDecl f acc x with
      | none => rfl
      | some acc' => exact ih acc'
  exact key xs []

theorem materials_rename (ms : List MatD) : materials (ms.map (MatD.rename ρ)) = (materials ms).map (renT ρ.mat) :=
  declare_rename (f := fun m : MatD => some (m.id, material m)) (f' := fun m : MatD => some (m.id, material m)) (r := MatD.rename ρ) ρ.matInj
    (fun x => rfl) ms

theorem findMaterial_rename (loc glob : Table (Material ℚ)) (id : String) :
    Flp.findMaterial (renT ρ.mat loc) (renT ρ.mat glob) (ρ.mat id) = Flp.findMaterial loc glob id := by
  have e : ∀ (a b : Table (Material ℚ)) id, Flp.findMaterial a b id = (lookup a id).orElse fun _ => lookup b id := by
    intro a b id
    unfold Flp.findMaterial lookup
    cases a.find? (fun m => m.1 == id) <;> rfl
  rw [e, e, lookup_renT ρ.matInj, lookup_renT ρ.matInj]

theorem parseLayout_rename (d : Dims ℚ) (loc glob : Table (Material ℚ)) (raws : List (String × List (Rect ℚ))) :
    Flp.parseLayout d (renT ρ.mat loc) (renT ρ.mat glob) (raws.map fun a => (ρ.mat a.1, a.2)) =
      (Flp.parseLayout d loc glob raws).map (renT ρ.mat) := by
  unfold Flp.parseLayout
  by_cases hr : raws = []
  · subst hr; rfl
  · rw [if_neg hr, if_neg (by simpa using hr)]
    have key : ∀ (raws : List (String × List (Rect ℚ))) (acc : List (String × Material ℚ × List (Rect ℚ))),
        (raws.map fun a => (ρ.mat a.1, a.2)).foldlM (Flp.addLayout d (renT ρ.mat loc) (renT ρ.mat glob)) (renT ρ.mat acc) =
          (raws.foldlM (Flp.addLayout d loc glob) acc).map (renT ρ.mat) := by
      intro raws
      induction raws with
      | nil => intro acc; rfl
      | cons x xs ih =>
        intro acc
        rw [List.map_cons, List.foldlM_cons, List.foldlM_cons]
        have e : Flp.addLayout d (renT ρ.mat loc) (renT ρ.mat glob) (renT ρ.mat acc) (ρ.mat x.1, x.2) =
            (Flp.addLayout d loc glob acc x).map (renT ρ.mat) := by
          unfold Flp.addLayout
          rw [findMaterial_rename]
          have e1 : Flp.meets x.2 (renT ρ.mat acc) = Flp.meets x.2 acc := by
            unfold Flp.meets renT
            congr 1
            funext a
            rw [List.any_map]; rfl
          have e2 : (renT ρ.mat acc).any (fun z => z.1 == ρ.mat x.1) = acc.any (fun z => z.1 == x.1) := by
            unfold renT
            rw [List.any_map]
            congr 1
            funext z
            simp [ρ.matInj.eq_iff]
          cases Flp.findMaterial loc glob x.1 with
          | none => rfl
          | some m =>
            simp only [e1, e2]
            split_ifs <;> simp [renT]
        rw [e]
        cases Flp.addLayout d loc glob acc x with
        | none => rfl
        | some acc' => exact ih acc'
    exact key raws []

theorem layoutOf_rename (files : Files) (mats : Table (Material ℚ)) (d : Dims ℚ) (o : Option String) :
    layoutOf (Files.rename ρ files) (renT ρ.mat mats) d o = layoutOf files mats d o := by
  cases o with
  | none => rfl
  | some p =>
    simp only [layoutOf, Files.rename]
    cases files.lay p with
    | none => rfl
    | some f =>
      simp only [Option.map_some, Option.bind_some, LayoutD.rename, materials_rename]
      cases materials f.mats with
      | none => rfl
      | some loc =>
        simp only [Option.map_some, Option.bind_some]
        have e : (f.areas.map fun a => (ρ.mat a.1, a.2)).map (fun a => (a.1, layRects a.2)) =
            (f.areas.map fun a => (a.1, layRects a.2)).map fun a => (ρ.mat a.1, a.2) := by
          rw [List.map_map, List.map_map]; rfl
        rw [e, parseLayout_rename]
        cases Flp.parseLayout d loc mats (f.areas.map fun a => (a.1, layRects a.2)) with
        | none => rfl
        | some L => simp [renT, Function.comp]

theorem layerOf_rename (files : Files) (mats : Table (Material ℚ)) (d : Dims ℚ) (x : LayD) :
    layerOf (Files.rename ρ files) (renT ρ.mat mats) d (LayD.rename ρ x) = (layerOf files mats d x).map fun y => (ρ.layer y.1, y.2) := by
  unfold layerOf LayD.rename
  simp only [lookup_renT ρ.matInj, layoutOf_rename]
  cases lookup mats x.mat with
  | none => rfl
  | some m => cases layoutOf files mats d x.layout <;> rfl

theorem dieLayerOf_rename (mats : Table (Material ℚ)) (layers : Table (Layer ℚ)) (x : DLayD) :
    dieLayerOf (renT ρ.mat mats) (renT ρ.layer layers) (DLayD.rename ρ x) = dieLayerOf mats layers x := by
  cases x with
  | own h m => simp only [DLayD.rename, dieLayerOf, lookup_renT ρ.matInj]
  | ref id => simp only [DLayD.rename, dieLayerOf, lookup_renT ρ.layerInj]

theorem dieOf_rename (mats : Table (Material ℚ)) (layers : Table (Layer ℚ)) (x : DieD) :
    dieOf (renT ρ.mat mats) (renT ρ.layer layers) (DieD.rename ρ x) = (dieOf mats layers x).map fun y => (ρ.die y.1, y.2) := by
  unfold dieOf DieD.rename
  have e : ∀ l : List DLayD, (l.map (DLayD.rename ρ)).mapM (dieLayerOf (renT ρ.mat mats) (renT ρ.layer layers)) = l.mapM (dieLayerOf mats layers) := by
    intro l
    rw [List.mapM_map]
    congr 1
    funext x
    exact dieLayerOf_rename ρ mats layers x
  simp only [e, dieLayerOf_rename]
  cases x.above.mapM (dieLayerOf mats layers) with
  | none => rfl
  | some a =>
    cases dieLayerOf mats layers x.source with
    | none => rfl
    | some b => cases x.below.mapM (dieLayerOf mats layers) <;> rfl

/-- **C67** Names are only names: when materials, layers and dies get new ones, everywhere and different ones for different things, the
file is accepted or refused as before and describes the same simulation. -/
theorem C67_names {φ : Type} (R : Reader φ) (hR : ∀ d fs, R.read d (fs.map (FlpD.rename ρ)) = R.read d fs) (eff : Bool → ℚ → ℚ) (files : Files)
    (s : StackD) :
    describe R eff (Files.rename ρ files) (StackD.rename ρ s) = (describe R eff files s).map fun D => { D with mats := renT ρ.mat D.mats } := by
  have e1 : ∀ d layers dies, ((s.elems.map (ElD.rename ρ)).mapM (elemOf R (Files.rename ρ files) d (renT ρ.layer layers) (renT ρ.die dies))) =
      s.elems.mapM (elemOf R files d layers dies) := by
    intro d layers dies
    rw [List.mapM_map]
    congr 1
    funext e
    cases e with
    | layer id ref o => simp only [Function.comp, ElD.rename, elemOf, lookup_renT ρ.layerInj]
    | channel => rfl
    | die id ref p o =>
      simp only [Function.comp, ElD.rename, elemOf, lookup_renT ρ.dieInj, Files.rename]
      cases lookup dies ref with
      | none => rfl
      | some x =>
        cases files.flp p with
        | none => rfl
        | some f => simp only [Option.map_some, Option.bind_some, hR]
  have e2 : (s.elems.map (ElD.rename ρ)).map (elemDiscr s.dims) = s.elems.map (elemDiscr s.dims) := by
    rw [List.map_map]
    apply List.map_congr_left
    intro e _
    cases e <;> rfl
  have e3 : dimsOf s.dims (s.chan.map (ChanD.rename ρ)) = dimsOf s.dims s.chan := by
    unfold dimsOf
    congr 2
    cases s.chan with
    | none => rfl
    | some c => cases c <;> rfl
  have e4 : ∀ mats d, channelOpt eff (renT ρ.mat mats) d (s.chan.map (ChanD.rename ρ)) = channelOpt eff mats d s.chan := by
    intro mats d
    cases s.chan with
    | none => rfl
    | some c => cases c <;> simp only [Option.map_some, channelOpt, channelOf, ChanD.rename, lookup_renT ρ.matInj]
  have e5 : ∀ mats d, topOf (renT ρ.mat mats) d (s.top.map (TopD.rename ρ)) = topOf mats d s.top := by
    intro mats d
    cases s.top with
    | none => rfl
    | some c => cases c <;> simp only [Option.map_some, topOf, TopD.rename, lookup_renT ρ.matInj]
  have e6 : pluginOf (s.top.map (TopD.rename ρ)) = pluginOf s.top := by
    cases s.top with
    | none => rfl
    | some c => cases c <;> rfl
  unfold describe StackD.rename
  simp only [materials_rename, e3, e6, e2]
  cases materials s.mats with
  | none => rfl
  | some mats =>
    simp only [Option.map_some, Option.bind_some]
    cases dimsOf s.dims s.chan with
    | none => rfl
    | some d =>
      simp only [Option.bind_some, e4, e5]
      cases channelOpt eff mats d s.chan with
      | none => rfl
      | some c =>
        simp only [Option.bind_some]
        cases topOf mats d s.top with
        | none => rfl
        | some t =>
          simp only [Option.bind_some]
          rw [declare_rename ρ.layerInj (layerOf_rename ρ files mats d)]
          cases declare (layerOf files mats d) s.layers with
          | none => rfl
          | some layers =>
            simp only [Option.map_some, Option.bind_some]
            rw [declare_rename ρ.dieInj (dieOf_rename ρ mats layers)]
            cases declare (dieOf mats layers) s.dies with
            | none => rfl
            | some dies =>
              simp only [Option.map_some, Option.bind_some, e1]
              cases s.elems.mapM (elemOf R files d layers dies) with
              | none => rfl
              | some raws =>
                simp only [Option.bind_some]
                cases parseStack d c (sprOf t) raws with
                | none => rfl
                | some p =>
                  simp only [Option.bind_some]
                  by_cases hs : solverOk s.solver = true
                  · rw [if_pos hs, if_pos hs]
                    cases s.points.mapM (pointOf R p.dims p.elems.reverse) <;> rfl
                  · rw [if_neg hs, if_neg hs]; rfl

/-- The floorplans of the uniform grid do not look at materials. -/
theorem uniformReader_rename (d : Dims ℚ) (fs : List FlpD) : uniformReader.read d (fs.map (FlpD.rename ρ)) = uniformReader.read d fs := by
  unfold uniformReader
  simp only [List.map_map]
  congr 1
  apply List.map_congr_left
  intro f _
  obtain ⟨i, a, p⟩ := f
  cases a <;> rfl

/-! ### From the text of the files -/

/-- Two sets of files that may only differ by white space, comments, order of the declarations of each section, and what is left to its
default: `read` and `read'` give the texts. -/
structure SameContent (read read' : String → Option (List Char)) (text text' : List Char) where
  s : StackD
  s' : StackD
  ok : s.Ok
  ok' : s'.Ok
  written : Scan.Written Scan.stackLex s.toks text
  written' : Scan.Written Scan.stackLex s'.toks text'
  same : Reordered (StackD.full s) (StackD.full s')
  files : FilesReordered (filesOf read) (filesOf read')

/-- **C67** With C65 and C66: how the text of the files is laid out and in which order things are declared does not change the
simulation that is run, nor whether it is. -/
theorem C67_text {eff : Bool → ℚ → ℚ} {read read' : String → Option (List Char)} {text text' : List Char} (h : SameContent read read' text text') :
    (load eff read text).map (fun D => { D with mats := [] }) = (load eff read' text').map (fun D => { D with mats := [] }) := by
  unfold load
  rw [C66_text_partial h.ok h.written, C66_text_partial h.ok' h.written']
  simp only [Option.bind_some]
  rw [← C67_shorthand uniformReader eff _ h.s, ← C67_shorthand uniformReader eff _ h.s']
  exact C67_order uniformReader eff h.files h.same

end Verif.FE
