import Verif.Model.Program
import Verif.Model.NuEmulate
import Verif.Model.NuOutput

/-! Model of `main` of `bin/3D-ICE-Emulator.c` for a stack file with `non-uniform 1`: the same program as in `Verif.Model.Program`, with the
cells, connections and outputs of non-uniform grids.

What is undefined behaviour in C has no outcome here: a stack without top sink (null pointer), a name that does not fit the buffers of 50
bytes in which the names of the map files are built, and a `.vtk` file or `conductance_layer.txt` that cannot be created (`fprintf` on a null
stream). Not modelled: what is printed on the terminal, the headers of the output files, failures of `malloc`, the material labels of
`.vtk` files. A character is a byte. -/

namespace Verif.FE
open Verif.TG Verif.Stk

variable {φ ψ : Type} (f : φ → ψ)

/-- A stack element with its floorplan in another representation (`StackElement_t`, include/stack_element.h:60-125). -/
def bodyMap : Body ℚ φ → Body ℚ ψ
  | .die d => .die ⟨d.layers, d.srcOff, f d.flp⟩
  | .layer l => .layer l
  | .channel c => .channel c
def elemMap (e : SElem ℚ φ) : SElem ℚ ψ := ⟨e.id, bodyMap f e.body, e.offset⟩

end Verif.FE

namespace Verif.Prog
open Verif.Gram Verif.Dim Verif.TG Verif.Stk Verif.FE Verif.Emu

variable {π : Type}

/-! ### Reading the files -/

/-- Floorplans of a non-uniform grid, as they are written in the file. -/
abbrev NFlps := List FlpD

/-- The actions of the floorplan file are those of the uniform grid, whether the grid is uniform or not: bison/floorplan_parser.y:126-520. The
position, dimensions, material and discretization of a rectangle stay as written (`align_to_grid` only adds indices of rows and columns,
sources/ic_element.c:232-274). -/
noncomputable def nuReader : Reader NFlps where
  read d fs := (uniformReader.read d fs).map fun _ => fs
  names fs := fs.map (·.id)

/-- `parse_stack_description_file`: sources/stack_file_parser.c:61-103, with the plug-in of the heat sink (see `readInput`). -/
noncomputable def readInputNU (w : World π) (file : String) : Option (Desc NFlps) :=
  (w.read file).bind fun text => (parseStackFile (Scan.scan Scan.stackRules .initial text)).bind fun s =>
    (describe nuReader w.eff (filesOf w.read) s).bind fun D =>
      match D.plugin with
      | some p => if w.canLoad p.1 then some D else none
      | none => some D

/-- The floorplan element as `thermal_data.c` reads it: its first rectangle with its discretization (`double`, truncated when it is read:
sources/thermal_data.c:98-99, 198-199; 0 when not given) and its material, looked up among the materials of the stack file; if it is not
there a message is printed and the cells keep the material of `non_uniform_cell_init` (sources/thermal_data.c:241-252). The grammar
does not allow an element without rectangles. -/
def elOf (mats : Table (Material ℚ)) (f : FlpD) : NU.FEl ℚ :=
  match f.area with
  | .one x y l w m o =>
    { rect := ⟨x, y, l, w⟩, others := [], dx := ⌊(o.map (·.1)).getD 0⌋₊, dy := ⌊(o.map (·.2)).getD 0⌋₊,
      mat := m.map fun n => (lookup mats n).getD NU.noMat, powers := f.powers }
  | .many (r :: rs) => { rect := r, others := rs, dx := 0, dy := 0, mat := none, powers := f.powers }
  | .many [] => { rect := ⟨0, 0, 0, 0⟩, others := [], dx := 0, dy := 0, mat := none, powers := f.powers }

/-- The elements of the stack, from the bottom, with their discretizations. -/
def nElems (D : Desc NFlps) : List (NU.NElem ℚ) :=
  List.zipWith (fun e n => ⟨elemMap (List.map (elOf D.mats)) e, n.1, n.2⟩) D.parsed.elems D.discr

/-! ### Outputs -/

/-- One call of the program on a file: what is printed in it. -/
inductive Content where
  /-- a line or a map of an inspection point -/
  | record (r : Out.Record ℚ)
  /-- left side, bottom side, length and width of the cells of a layer -/
  | axes (rows : List (ℚ × ℚ × ℚ × ℚ))
  /-- a `.vtk` file: the boxes of the cells, with the height at which they begin and their own, and the temperatures -/
  | solid (boxes : List (NU.Cell ℚ × ℚ × ℚ)) (temps : List ℚ)
  /-- `conductance_layer.txt`: for each die its layers from the bottom: number of cells, area, height, conductance; nothing else is listed -/
  | layers (rows : List (String × Option (List (Nat × ℚ × ℚ × ℚ))))

/-- One write: to the end of the file (`fopen (…, "a")`) or instead of what was there (`fopen (…, "w")`). -/
structure Write where
  file : String
  append : Bool
  what : Content

abbrev NLog := List Write

/-- What a file contains after some writes. -/
def after1 (file : String) (acc : List Content) (x : Write) : List Content :=
  if x.file = file then (if x.append then acc ++ [x.what] else [x.what]) else acc
def contentsNU (file : String) (log : NLog) : List Content := log.foldl (after1 file) []

/-- A name written in `char name [50]`; `none`: it does not fit. -/
def inBuffer (s : String) : Option String := if s.length < 50 then some s else none

/-- The name of the file with the positions of the cells of a map: sources/stack_element.c:241-243, 426-428. -/
def axesName (id : String) : Option String := inBuffer ("xyaxis_" ++ id ++ ".txt")

/-- The name of the `.vtk` file: sources/stack_element.c:301-333. Every `.` is replaced by the end of the string, so that the name is cut at
the first one; then the number of the step or of the slot is appended (`char index [10]`). -/
def vtkName (file : String) (i : Out.Instant) (time slotLength : Nat) : Option String :=
  (inBuffer file).bind fun f =>
    if i = .final then some f
    else
      let n := toString (if i = .slot then time / slotLength else time)
      if n.length < 10 then inBuffer (String.ofList (f.toList.takeWhile fun c => c != '.') ++ n ++ ".vtk") else none

/-- The box of a cell: `left_z` and `height`: sources/thermal_data.c:163-164, 232-235, 283-284 and the same for the other layers. The height
of the cells of a spreader is read after the end of the array of the heights (line 697); here it is 0. -/
def boxOf (d : Dims ℚ) (c : NU.Cell ℚ) : NU.Cell ℚ × ℚ × ℚ := (c, ((d.heights.take c.layer).sum, d.heights.getD c.layer 0))

/-- Temperatures from the first cell of a layer on: sources/inspection_point.c:813-825. -/
def fromLayerNU (cs : List (NU.Cell ℚ)) (layer : Nat) (x : List ℚ) : List ℚ := x.drop (cs.findIdx fun c => c.layer == layer)

/-- Place in the stack of the element that an inspection point refers to (a pointer in C). -/
def placeOf (G : NU.Grid ℚ) (e : SElem ℚ NFlps) : Nat := G.ns.findIdx fun n => n.elem.id == e.id

/-- What an inspection point prints in its own file, once it is open: sources/inspection_point.c:620-870. -/
def recordNU (G : NU.Grid ℚ) (temps sources : List ℚ) (time : ℚ) (q : Out.Quantity) : Target NFlps → Option (Out.Record ℚ)
  | .cell e x y _ _ => NU.renderNU G.ls.flatten temps sources time q (.tcell (sourceLayerOffset e) x y)
  | .flp e _ => NU.renderNU G.ls.flatten temps sources time q (.tflp (NU.dieMarks G.d G.ns (placeOf G e)))
  | .flpel e _ i => NU.renderNU G.ls.flatten temps sources time q (.tflpel ((NU.dieMarks G.d G.ns (placeOf G e)).getD i []))
  | .tmap e => NU.renderNU G.ls.flatten temps sources time q (.tmap (sourceLayerOffset e))
  | .pmap e => NU.renderNU G.ls.flatten temps sources time q (.pmap (sourceLayerOffset e))
  | .coolant e ch => (Out.outletStat ch G.d (fromLayerNU G.ls.flatten (sourceLayerOffset e) temps) q).map fun v => .line time [v]
  | .t3d => none

/-- The positions of the cells of a layer: sources/stack_element.c:251-262, 436-447. -/
def axesOf (G : NU.Grid ℚ) (layer : Nat) : List (ℚ × ℚ × ℚ × ℚ) :=
  (G.ls.flatten.filter fun c => c.layer == layer).map fun c => (c.x0, c.y0, c.length, c.width)

/-- A map: the positions of the cells go to another file; if that file cannot be created the map is empty: sources/stack_element.c:228-263,
414-448. -/
def mapNU (canOpen : String → Bool) (G : NU.Grid ℚ) (temps sources : List ℚ) (time : ℚ) (p : RPoint NFlps) (e : SElem ℚ NFlps) : Option NLog :=
  (axesName e.id).map fun n =>
    if canOpen n then
      ⟨n, false, .axes (axesOf G (sourceLayerOffset e))⟩ ::
        (recordNU G temps sources time p.quantity p.target).toList.map fun r => ⟨p.file, true, .record r⟩
    else [⟨p.file, true, .record (.map [])⟩]

/-- `generate_inspection_point_output`: sources/inspection_point.c:594-890, with its result. `none`: undefined behaviour. -/
def pointNU (canOpen : String → Bool) (G : NU.Grid ℚ) (temps sources : List ℚ) (time : ℚ) (step slotLength : Nat) (p : RPoint NFlps) :
    Option (NLog × Bool) :=
  match p.target with
  | .t3d => (vtkName p.file p.instant step slotLength).bind fun n =>
      if canOpen n then some ([⟨n, false, .solid (G.ls.flatten.map (boxOf G.d)) ((List.range G.nCells).map (NU.tAt temps))⟩], true) else none
  | .tmap e | .pmap e => if canOpen p.file then (mapNU canOpen G temps sources time p e).map fun l => (l, true) else some ([], false)
  | _ =>
    if canOpen p.file then some ((recordNU G temps sources time p.quantity p.target).toList.map fun r => ⟨p.file, true, .record r⟩, true)
    else some ([], false)

/-- The loop of `generate_output`: it stops at the first failure: sources/output.c:274-292. -/
def pointsNU (canOpen : String → Bool) (G : NU.Grid ℚ) (temps sources : List ℚ) (time : ℚ) (step slotLength : Nat) :
    List (RPoint NFlps) → Option (NLog × Bool)
  | [] => some ([], true)
  | p :: ps => (pointNU canOpen G temps sources time step slotLength p).bind fun r =>
      if r.2 then (pointsNU canOpen G temps sources time step slotLength ps).map fun r' => (r.1 ++ r'.1, r'.2) else some (r.1, false)

/-- The list of the points of an instant: sources/output.c:161-186, 249-263. -/
def pointsAt (i : Out.Instant) (ps : List (RPoint NFlps)) : List (RPoint NFlps) := ps.filter fun p => p.instant = i

/-- The call of `generate_output`: bin/3D-ICE-Emulator.c:189-194, 201-206, 211-216; its result is ignored. -/
def outputNU (canOpen : String → Bool) (ps : List (RPoint NFlps)) (an : Analysis ℚ) (s : NU.NSim ℚ π) (i : Out.Instant) : Option NLog :=
  (pointsNU canOpen s.G s.temps s.sources (s.time * an.stepTime) s.time an.slotLength (pointsAt i ps)).map (·.1)

/-! ### The simulation -/

/-- The function pointer `emulate`: bin/3D-ICE-Emulator.c:94-112. -/
def emulateNU (cfg : NU.NCfg ℚ π) : Option (NU.NSim ℚ π → SimResult × NU.NSim ℚ π) :=
  match cfg.an.type with
  | .transient => some (NU.stepNU cfg)
  | .steady => some (NU.steadyNU cfg)
  | .none => none

/-- The outputs after a call of `emulate`: bin/3D-ICE-Emulator.c:174-207. -/
def afterNU (canOpen : String → Bool) (ps : List (RPoint NFlps)) (an : Analysis ℚ) (r : SimResult) (s : NU.NSim ℚ π) : Option NLog :=
  (if r = .stepDone ∨ r = .slotDone then outputNU canOpen ps an s .step else some []).bind fun l1 =>
  (if r = .slotDone then outputNU canOpen ps an s .slot else some []).map fun l2 => l1 ++ l2

/-- The loop: bin/3D-ICE-Emulator.c:158-209. -/
inductive LoopNU (canOpen : String → Bool) (ps : List (RPoint NFlps)) (an : Analysis ℚ) (f : NU.NSim ℚ π → SimResult × NU.NSim ℚ π) :
    NU.NSim ℚ π → NLog → NU.NSim ℚ π → Prop
  | stop {s r s' l} : f s = (r, s') → r = .endOfSimulation ∨ r = .solverError → afterNU canOpen ps an r s' = some l →
      LoopNU canOpen ps an f s l s'
  | again {s r s1 l log s'} : f s = (r, s1) → r ≠ .endOfSimulation → r ≠ .solverError → afterNU canOpen ps an r s1 = some l →
      LoopNU canOpen ps an f s1 log s' → LoopNU canOpen ps an f s (l ++ log) s'

/-- The loop and the final outputs: bin/3D-ICE-Emulator.c:156-216. -/
def EmulatedNU (canOpen : String → Bool) (ps : List (RPoint NFlps)) (cfg : NU.NCfg ℚ π) (s : NU.NSim ℚ π) (log : NLog) (s' : NU.NSim ℚ π) : Prop :=
  ∃ f log1 log2, emulateNU cfg = some f ∧ LoopNU canOpen ps cfg.an f s log1 s' ∧ outputNU canOpen ps cfg.an s' .final = some log2 ∧
    log = log1 ++ log2

/-! ### The program -/

/-- The parameters of the functions that run the simulation. -/
def configNU (w : World π) (an : Analysis ℚ) : NU.NCfg ℚ π := ⟨an, w.solve, w.factor, w.plugin⟩

/-- The grid: sources/thermal_data.c:1052-1100. -/
def gridNU (D : Desc NFlps) : Option (NU.Grid ℚ) := NU.buildNU D.parsed.dims D.top D.bottom (nElems D)

/-- One line of `conductance_layer.txt`: sources/thermal_data.c:1876-1916. -/
def layerLine (d : Dims ℚ) (cs : List (NU.Cell ℚ)) (l : Nat) : Nat × ℚ × ℚ × ℚ :=
  let lc := cs.filter fun c => c.layer == l
  (lc.length, ((lc.map fun c => c.length * c.width).sum, (d.heights.getD l 0,
    (lc.map fun c => c.mat.kz * c.length * c.width / d.heights.getD l 0).sum)))

/-- `print_conductance_map_non_uniform`: sources/thermal_data.c:1760-1942. Every layer of a die has at least one cell. -/
def conductances (d : Dims ℚ) (ns : List (NU.NElem ℚ)) (cs : List (NU.Cell ℚ)) : List (String × Option (List (Nat × ℚ × ℚ × ℚ))) :=
  ns.map fun n => (n.elem.id, match n.elem.body with
    | .die b => some ((List.range b.layers.length).map fun li => layerLine d cs (n.elem.offset + li))
    | _ => none)

/-- The headers can be written: sources/output.c:190-233, sources/inspection_point.c:361-590. A file of a 3D map is not opened. -/
def headersNU (canOpen : String → Bool) (ps : List (RPoint NFlps)) : Bool :=
  ps.all fun p => match p.target with | .t3d => true | _ => canOpen p.file

/-- `thermal_data_build`: sources/thermal_data.c:1033-1232, for a grid `G` whose connections were found in the order `L`. -/
def startNU (w : World π) (an : Analysis ℚ) (G : NU.Grid ℚ) (L : List (NU.Conn ℚ)) (q : π) : Option (NU.NSim ℚ π) :=
  NU.buildSim (configNU w an) G L q

/-- What is written while the cells are generated, before the thermal grid is filled: sources/thermal_data.c:663, 1080. -/
def buildLog (D : Desc NFlps) : NLog :=
  [⟨"conductance_layer.txt", false, .layers (conductances D.parsed.dims ((nElems D).map NU.fixDiscr)
    (NU.layersOf D.parsed.dims D.top ((nElems D).map NU.fixDiscr)).flatten)⟩]

/-- `main` with the arguments `args`, for a stack file with `non-uniform 1`: bin/3D-ICE-Emulator.c:60-262. -/
inductive MainNU (w : World π) : List String → Status → NLog → Option (NU.NSim ℚ π) → Prop
  /-- bin/3D-ICE-Emulator.c:70-74 -/
  | usage {args} : args.length ≠ 1 → MainNU w args .failure [] none
  /-- bin/3D-ICE-Emulator.c:90-92 -/
  | refused {file} : readInputNU w file = none → MainNU w [file] .failure [] none
  /-- The same, when the initialization of the plug-in fails. -/
  | noPlugin {file D an} : readInputNU w file = some D → D.nonUniform = true → Analysed w.mul10 D.init D.times an → initPlugin w D an = none →
      MainNU w [file] .failure [] none
  /-- bin/3D-ICE-Emulator.c:120-132 -/
  | unwritable {file D an q} : readInputNU w file = some D → D.nonUniform = true → Analysed w.mul10 D.init D.times an →
      initPlugin w D an = some q → headersNU w.canOpen D.points = false → MainNU w [file] .failure [] none
  /-- bin/3D-ICE-Emulator.c:141-156: the thermal grid is refused. -/
  | noGrid {file D an q} : readInputNU w file = some D → D.nonUniform = true → Analysed w.mul10 D.init D.times an →
      initPlugin w D an = some q → headersNU w.canOpen D.points = true → D.top ≠ none →
      w.canOpen "conductance_layer.txt" = true → gridNU D = none → MainNU w [file] .failure (buildLog D) none
  /-- bin/3D-ICE-Emulator.c:141-156: the matrix cannot be factored. -/
  | unbuilt {file D an q G L} : readInputNU w file = some D → D.nonUniform = true → Analysed w.mul10 D.init D.times an →
      initPlugin w D an = some q → headersNU w.canOpen D.points = true → gridNU D = some G → w.canOpen "conductance_layer.txt" = true →
      NU.Runs (NU.regions G.d.nLayers G.ty G.ls) L → startNU w an G L q = none → MainNU w [file] .failure (buildLog D) none
  /-- bin/3D-ICE-Emulator.c:158-262 -/
  | ran {file D an q G L s log s'} : readInputNU w file = some D → D.nonUniform = true → Analysed w.mul10 D.init D.times an →
      initPlugin w D an = some q → headersNU w.canOpen D.points = true → gridNU D = some G → w.canOpen "conductance_layer.txt" = true →
      NU.Runs (NU.regions G.d.nLayers G.ty G.ls) L → startNU w an G L q = some s →
      EmulatedNU w.canOpen D.points (configNU w an) s log s' → MainNU w [file] .success (buildLog D ++ log) (some s')

end Verif.Prog
