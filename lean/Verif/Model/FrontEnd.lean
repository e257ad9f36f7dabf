import Verif.Model.Grammar
import Verif.Model.Stack
import Verif.Model.Layout
import Verif.Model.Output
import Verif.Model.Solver

/-! Model of the actions of `bison/stack_description_parser.y`, `bison/floorplan_parser.y` and `bison/layout_parser.y`: from the document
that a stack file forms (`Verif.Model.Grammar`) to the description of the simulation: references by name are resolved, lengths and
units converted, defaults filled in. `none`: the file is refused. Conversions of a negative number to an unsigned integer and divisions
by zero (undefined behaviour in C) give 0, as everywhere in the model; the undefined conversions of the `dimensions:` rule are
refusals here (`Verif.Dim.parseDimensions` tells them apart). Numbers are rationals. Not modelled: the content of error messages, and
loading the plug-in of a pluggable heat sink. -/

namespace Verif.FE
open Verif.Gram Verif.Dim Verif.TG Verif.Stk

/-- The other files that a stack file names, after their syntax check; `none`: the file cannot be opened or has a syntax error. -/
structure Files where
  flp : String → Option (List FlpD)
  lay : String → Option LayoutD

/-- `fill_floorplan` and `parse_floorplan_file` (sources/floorplan.c:170-205, sources/floorplan_file_parser.c:55-97), `fill_layout` and
`parse_layout_file` (sources/layer.c:165-181, sources/layout_file_parser.c:60-100), as far as the syntax: `read` gives the text of a file. -/
def filesOf (read : String → Option (List Char)) : Files where
  flp p := (read p).bind fun t => parseFlpFile (Scan.scan Scan.flpRules .initial t)
  lay p := (read p).bind fun t => parseLayoutFile (Scan.scan Scan.layRules .initial t)

/-- How floorplans are represented: the uniform grid and the non-uniform one keep different things. `read` is what the actions of the
floorplan file do, `names` the identifiers of the elements. -/
structure Reader (φ : Type) where
  read : Dims ℚ → List FlpD → Option φ
  names : φ → List String

/-! ### Declarations -/

/-- The list of the things declared in a section, with their names. -/
abbrev Table (α : Type) := List (String × α)

/-- One more declaration: `materials_list`, `layers_list`, `dies_list` (bison/stack_description_parser.y:267-293, 745-774, 1002-1028),
`materials_list` of a layout (bison/layout_parser.y:168-186). -/
def addDecl {δ α : Type} (f : δ → Option (String × α)) (acc : Table α) (x : δ) : Option (Table α) :=
  (f x).bind fun y => if acc.any (fun z => z.1 == y.1) then none else some (acc ++ [y])

/-- A whole section. -/
def declare {δ α : Type} (f : δ → Option (String × α)) (xs : List δ) : Option (Table α) := xs.foldlM (addDecl f) []

/-- `material_list_find`, `layer_list_find`, `die_list_find`, `stack_element_list_find`: the first one with the same name:
sources/list_template.c:289-310. -/
def lookup {α : Type} (t : Table α) (id : String) : Option α := (t.find? fun x => x.1 == id).map (·.2)

/-- The actions of `material`: bison/stack_description_parser.y:299-341, bison/layout_parser.y:195-240. -/
def material (m : MatD) : Material ℚ :=
  match m.cond with
  | .iso k => ⟨k, k, k, m.vhc⟩
  | .aniso kx ky kz => ⟨kx, ky, kz, m.vhc⟩

/-- `materials_list`: bison/stack_description_parser.y:267-293. -/
def materials (ms : List MatD) : Option (Table (Material ℚ)) := declare (fun m => some (m.id, material m)) ms

/-! ### Cooling and dimensions -/

/-- PI: include/macros.h:60. -/
def piC : ℚ := 314159265358979323846 / 100000000000000000000

/-- FLOW_RATE_FROM_MLMIN_TO_UM3SEC: include/macros.h:221. -/
def flowRate (f : ℚ) : ℚ := f * 1000000000000 / 60

/-- POROSITY: include/macros.h:240-242. -/
def porosity (diameter pitch : ℚ) : ℚ := 1 - (piC * diameter * diameter / 4) / (pitch * pitch)

/-- A wall length not given, or given as 0, is that of the inner walls: bison/stack_description_parser.y:530-531, 718-726. -/
def wallOr (w : ℚ) (o : Option ℚ) : ℚ := if o.getD 0 ≠ 0 then o.getD 0 else w

/-- The lengths of a 4RM channel, kept in global variables: bison/stack_description_parser.y:528-531. -/
def fourOf (c : Option ChanD) : Option (FourRM ℚ) :=
  match c with
  | some (.rm4 _ ch w f l _ _ _ _ _) => some ⟨ch, w, wallOr w f, wallOr w l⟩
  | _ => none

/-- The rule `dimensions`: bison/stack_description_parser.y:1076-1149 (see `parseDimensions`). -/
def dimsOf (x : DimD) (c : Option ChanD) : Option (Dims ℚ) :=
  match parseDimensions x.chipL x.chipW x.cellL x.cellW (fourOf c) with
  | .ok d => some d
  | _ => none

/-- Side, top and bottom heat transfer coefficients: bison/stack_description_parser.y:683-716. -/
def htc4 : Htc4 → ℚ × ℚ × ℚ
  | .one h => (h, h, h)
  | .three s t b => (s, t, b)
def htc2 : Htc2 → ℚ × ℚ × ℚ
  | .one h => (0, h, h)
  | .two t b => (0, t, b)

/-- `microchannel_opt`: bison/stack_description_parser.y:501-681, with the number of channels, which is filled in by the rule `dimensions`
(1142, 1146). `eff` are the two formulas for the heat transfer of pin fins (include/macros.h:193-212). Fields that an alternative
does not set are 0 (sources/channel.c:49-67). -/
def channelOf (eff : Bool → ℚ → ℚ) (mats : Table (Material ℚ)) (d : Dims ℚ) : ChanD → Option (Channel ℚ)
  | .rm4 h _ _ _ _ m fl t v i => (lookup mats m).map fun m =>
      { model := .mc4rm, height := h, length := 0, porosity := 0, nChannels := (d.nCols - 1) / 2, wallMat := m,
        coolant := ⟨(htc4 t).1, (htc4 t).2.1, (htc4 t).2.2, v, flowRate fl, 0, i⟩, effInline := eff false, effStag := eff true }
  | .rm2 h c w m fl t v i => (lookup mats m).map fun m =>
      { model := .mc2rm, height := h, length := c, porosity := c / (w + c), nChannels := ⌊d.chipLength / (w + c) + 1 / 2⌋₊, wallMat := m,
        coolant := ⟨(htc2 t).1, (htc2 t).2.1, (htc2 t).2.2, v, flowRate fl, 0, i⟩, effInline := eff false, effStag := eff true }
  | .pin h di p s m u v i => (lookup mats m).map fun m =>
      { model := if s then .pfStag else .pfInline, height := h, length := 0, porosity := porosity di p, nChannels := 0, wallMat := m,
        coolant := ⟨0, 0, 0, v, 0, u, i⟩, effInline := eff false, effStag := eff true }

/-- `microchannel_opt`: the section may be missing: bison/stack_description_parser.y:503. -/
def channelOpt (eff : Bool → ℚ → ℚ) (mats : Table (Material ℚ)) (d : Dims ℚ) : Option ChanD → Option (Option (Channel ℚ))
  | none => some none
  | some c => (channelOf eff mats d c).map some

/-- The top sink: bison/stack_description_parser.y:362-382, 405-496, and the initialization of the heat spreader, which is done in the rule
`stack`: 1185-1189. -/
def topOf (mats : Table (Material ℚ)) (d : Dims ℚ) : Option TopD → Option (Option (TopSink ℚ))
  | none => some none
  | some (.conv s) => some (some (.ambient ⟨s.htc, s.temp⟩))
  | some (.plug p) => (lookup mats p.mat).bind fun m => (initSpreader d p.length p.width p.height).map fun s => some (.pluggable s m)

/-- The bottom sink: bison/stack_description_parser.y:384-403. -/
def bottomOf (s : Option SinkD) : Option (Sink ℚ) := s.map fun s => ⟨s.htc, s.temp⟩

/-- The spreader of the top sink. -/
def sprOf : Option (TopSink ℚ) → Option (Spreader ℚ)
  | some (.pluggable s _) => some s
  | _ => none

/-! ### Layers and dies -/

/-- Rectangles of a material in a layout: bison/layout_parser.y:404-490. -/
def layRects : LAreaD → List (Rect ℚ)
  | .one x y l w => [⟨x, y, l, w⟩]
  | .many rs => rs

/-- A layout file: bison/layout_parser.y:137-402. -/
def layoutOf (files : Files) (mats : Table (Material ℚ)) (d : Dims ℚ) : Option String → Option (List (Material ℚ × List (Rect ℚ)))
  | none => some []
  | some p => (files.lay p).bind fun f => (materials f.mats).bind fun loc =>
      (Flp.parseLayout d loc mats (f.areas.map fun a => (a.1, layRects a.2))).map fun l => l.map (·.2)

/-- `layer`: bison/stack_description_parser.y:776-853. -/
def layerOf (files : Files) (mats : Table (Material ℚ)) (d : Dims ℚ) (x : LayD) : Option (String × Layer ℚ) :=
  (lookup mats x.mat).bind fun m => (layoutOf files mats d x.layout).map fun l => (x.id, ⟨x.height, m, l⟩)

/-- `die_layer_content`: bison/stack_description_parser.y:919-997. -/
def dieLayerOf (mats : Table (Material ℚ)) (layers : Table (Layer ℚ)) : DLayD → Option (Layer ℚ)
  | .own h m => (lookup mats m).map fun m => ⟨h, m, []⟩
  | .ref id => lookup layers id

/-- The three parts of a die: layers above the source, the source, layers below. -/
abbrev Parts := List (Layer ℚ) × Layer ℚ × List (Layer ℚ)

/-- `die`: bison/stack_description_parser.y:1030-1064 (and 872-916 for its parts). -/
def dieOf (mats : Table (Material ℚ)) (layers : Table (Layer ℚ)) (x : DieD) : Option (String × Parts) :=
  (x.above.mapM (dieLayerOf mats layers)).bind fun a => (dieLayerOf mats layers x.source).bind fun s =>
    (x.below.mapM (dieLayerOf mats layers)).map fun b => (x.id, (a, s, b))

/-! ### The stack -/

/-- `Discr_X`, `Discr_Y` of an element: bison/stack_description_parser.y:1099-1100, 1451-1452, 1513-1514, 1630-1631, 1713-1714. -/
def discrOf (x : DimD) : Option (ℚ × ℚ) → Nat × Nat
  | none => (⌊x.chipL / x.cellL⌋₊, ⌊x.chipW / x.cellW⌋₊)
  | some p => (⌊p.1⌋₊, ⌊p.2⌋₊)

/-- `stack_element`: bison/stack_description_parser.y:1399-1728. Whether a channel has been declared is checked by `Stk.resolve`. -/
def elemOf {φ : Type} (R : Reader φ) (files : Files) (d : Dims ℚ) (layers : Table (Layer ℚ)) (dies : Table Parts) : ElD → Option (Raw ℚ φ)
  | .layer id ref _ => (lookup layers ref).map fun l => ⟨id, .layer l⟩
  | .channel id => some ⟨id, .channel⟩
  | .die id ref p _ => (lookup dies ref).bind fun x => (files.flp p).bind fun f => (R.read d f).map fun f => ⟨id, .die ⟨x.1, x.2.1, x.2.2, f⟩⟩

/-- The discretization of an element; channels have none. -/
def elemDiscr (x : DimD) : ElD → Nat × Nat
  | .layer _ _ o => discrOf x o
  | .channel _ => (0, 0)
  | .die _ _ _ o => discrOf x o

/-! ### Analysis and output -/

/-- The checks of `solver`: bison/stack_description_parser.y:1758-1777, 1822-1833. -/
def solverOk (s : SolverD) : Bool :=
  (match s.kind with
    | none => true
    | some (step, slot) => !(decide (slot < step) || decide (step ≤ 0) || decide (slot ≤ 0))) &&
  (match s.cores with
    | none => true
    | some c => !decide (c ≤ 0))

/-- What the rule `solver` stores: bison/stack_description_parser.y:1734-1812. `mul10` is the multiplication by 10.0. -/
inductive Analysed (mul10 : ℚ → ℚ) (init : ℚ) : Option (ℚ × ℚ) → Emu.Analysis ℚ → Prop
  | steady : Analysed mul10 init none ⟨.steady, (Solver.steadySolver (K := ℚ)).1, (Solver.steadySolver (K := ℚ)).2, init⟩
  | transient {step slot st n} : Solver.Transient mul10 step slot (.ok (st, n)) →
      Analysed mul10 init (some (step, slot)) ⟨.transient, st, n, init⟩

/-- `numofcores`: bison/stack_description_parser.y:1814-1833. -/
def coresOf (s : SolverD) : Nat := ⌊s.cores.getD 1⌋₊

/-- `when`: bison/stack_description_parser.y:2303-2310. -/
def instantOf : WhenD → Out.Instant
  | .unsaid => .final
  | .step => .step
  | .slot => .slot
  | .final => .final

/-- `maxminavg`: bison/stack_description_parser.y:2295-2301. -/
def quantityOf : QuantD → Out.Quantity
  | .maximum => .maximum
  | .minimum => .minimum
  | .average => .average
  | .gradient => .gradient

/-- What an inspection point refers to: the stack element, and the place and its cell, the floorplan or one of its elements. -/
inductive Target (φ : Type) where
  | cell (e : SElem ℚ φ) (x y : ℚ) (row col : Nat)
  | flp (e : SElem ℚ φ) (f : φ)
  | flpel (e : SElem ℚ φ) (f : φ) (i : Nat)
  | tmap (e : SElem ℚ φ)
  | t3d
  | pmap (e : SElem ℚ φ)
  | coolant (e : SElem ℚ φ) (ch : Channel ℚ)

/-- `InspectionPoint_t`: include/inspection_point.h:60-140. The quantity is `none` where the rule does not set it
(sources/inspection_point.c:47-63). -/
structure RPoint (φ : Type) where
  instant : Out.Instant
  quantity : Out.Quantity
  file : String
  target : Target φ

/-- `stack_element_list_find`: sources/list_template.c. -/
def findElem {φ : Type} (es : List (SElem ℚ φ)) (id : String) : Option (SElem ℚ φ) := es.find? fun e => e.id == id

/-- Index of the first element of a floorplan with the given name: `get_floorplan_element`, sources/floorplan.c:244-263. -/
def findName (l : List String) (id : String) : Option Nat := l.findIdx? fun x => x == id

/-- The floorplan of an element, which must be a die. -/
def flpOf {φ : Type} (e : SElem ℚ φ) : Option φ := match e.body with | .die d => some d.flp | _ => none
/-- The channel of an element, which must be a channel. -/
def chanOf {φ : Type} (e : SElem ℚ φ) : Option (Channel ℚ) := match e.body with | .channel c => some c | _ => none

/-- `inspection_point`: bison/stack_description_parser.y:1864-2293. -/
def pointOf {φ : Type} (R : Reader φ) (d : Dims ℚ) (es : List (SElem ℚ φ)) : PointD → Option (RPoint φ)
  | .tcell el x y file w => (findElem es el).map fun e =>
      ⟨instantOf w, .none, file, .cell e x y (alignTcell d x y).row (alignTcell d x y).col⟩
  | .tflp el file q w => (findElem es el).bind fun e => (flpOf e).map fun f => ⟨instantOf w, quantityOf q, file, .flp e f⟩
  | .tflpel el sub file q w => (findElem es el).bind fun e => (flpOf e).bind fun f => (findName (R.names f) sub).map fun i =>
      ⟨instantOf w, quantityOf q, file, .flpel e f i⟩
  | .tmap el file w => (findElem es el).map fun e => ⟨instantOf w, .none, file, .tmap e⟩
  | .t3d file w => some ⟨instantOf w, .none, file, .t3d⟩
  | .pmap el file w => (findElem es el).map fun e => ⟨instantOf w, .none, file, .pmap e⟩
  | .tcoolant el file q w => (findElem es el).bind fun e => (chanOf e).map fun c => ⟨instantOf w, quantityOf q, file, .coolant e c⟩

/-! ### The whole file -/

/-- What is left in `StackDescription_t`, `Analysis_t` and `Output_t` (the part of the analysis that needs a loop is `Analysed`).
`parsed.elems` and `discr` are from the bottom of the stack. -/
structure Desc (φ : Type) where
  mats : Table (Material ℚ)
  top : Option (TopSink ℚ)
  plugin : Option (String × String)
  bottom : Option (Sink ℚ)
  chan : Option (Channel ℚ)
  nonUniform : Bool
  parsed : Parsed ℚ φ
  discr : List (Nat × Nat)
  times : Option (ℚ × ℚ)
  init : ℚ
  cores : Nat
  points : List (RPoint φ)

/-- Path and arguments of the plug-in: bison/stack_description_parser.y:445-446, 489-490. -/
def pluginOf : Option TopD → Option (String × String)
  | some (.plug p) => some (p.plugin, p.args.getD "")
  | _ => none

/-- `parse_stack_description_file` after the syntax check: bison/stack_description_parser.y:250-2310. -/
def describe {φ : Type} (R : Reader φ) (eff : Bool → ℚ → ℚ) (files : Files) (s : StackD) : Option (Desc φ) :=
  (materials s.mats).bind fun mats =>
  (dimsOf s.dims s.chan).bind fun d =>
  (channelOpt eff mats d s.chan).bind fun chan =>
  (topOf mats d s.top).bind fun top =>
  (declare (layerOf files mats d) s.layers).bind fun layers =>
  (declare (dieOf mats layers) s.dies).bind fun dies =>
  (s.elems.mapM (elemOf R files d layers dies)).bind fun raws =>
  (parseStack d chan (sprOf top) raws).bind fun p =>
    if solverOk s.solver then
      (s.points.mapM (pointOf R p.dims p.elems.reverse)).map fun pts =>
        { mats := mats, top := top, plugin := pluginOf s.top, bottom := bottomOf s.bottom, chan := chan,
          nonUniform := s.dims.nonUniform.getD false, parsed := p, discr := (s.elems.map (elemDiscr s.dims)).reverse,
          times := s.solver.kind, init := s.solver.init, cores := coresOf s.solver, points := pts }
    else none

/-! ### The uniform grid -/

/-- Rectangles of a floorplan element: bison/floorplan_parser.y:289-462. -/
def areaRects : AreaD → List (Rect ℚ)
  | .one x y l w _ _ => [⟨x, y, l, w⟩]
  | .many rs => rs

/-- Floorplans of the uniform grid: material and discretization of an element are not used. -/
noncomputable def uniformReader : Reader (List (Flp.FlpEl ℚ)) where
  read d fs := Flp.parseFloorplan d (fs.map fun f => ⟨f.id, areaRects f.area, f.powers⟩)
  names fs := fs.map (·.name)

/-- What an inspection point reads: `get_source_layer_offset` of its element (sources/stack_element.c:212-226), the floorplan or the
floorplan element. -/
def kindOf : Target (List (Flp.FlpEl ℚ)) → Out.Kind ℚ
  | .cell e _ _ r c => .tcell (sourceLayerOffset e) r c
  | .flp e f => .tflp (sourceLayerOffset e) f
  | .flpel e f i => (f[i]?).elim .none fun el => .tflpel (sourceLayerOffset e) el
  | .tmap e => .tmap (sourceLayerOffset e)
  | .t3d => .t3d
  | .pmap e => .pmap (sourceLayerOffset e)
  | .coolant e c => .tcoolant (sourceLayerOffset e) c

def uniformPoint (p : RPoint (List (Flp.FlpEl ℚ))) : Out.Point ℚ := ⟨p.instant, kindOf p.target, p.quantity, p.file⟩

/-- `Output_t` after the output section: bison/stack_description_parser.y:1839-1862. -/
def outputOf (ps : List (RPoint (List (Flp.FlpEl ℚ)))) : Out.Output ℚ := (ps.map uniformPoint).foldl Out.addPoint Out.Output.empty

/-- `parse_stack_description_file`: sources/stack_file_parser.c:61-103, from the text of the stack file and of the files it names. -/
noncomputable def load (eff : Bool → ℚ → ℚ) (read : String → Option (List Char)) (text : List Char) : Option (Desc (List (Flp.FlpEl ℚ))) :=
  (parseStackFile (Scan.scan Scan.stackRules .initial text)).bind (describe uniformReader eff (filesOf read))

end Verif.FE
