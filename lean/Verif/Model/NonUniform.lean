import Verif.Model.Stack
import Verif.Model.Floorplan

/-! Model of the non-uniform grids: cells and connections (`sources/thermal_data.c`), conductances
(`sources/thermal_grid.c`), matrix (`sources/system_matrix.c`) and source vector (`sources/power_grid.c`).

Stacks made of dies, layers and channels, with or without the spreader of a pluggable sink.
Numbers are elements of an ordered field. The discretization of a floorplan element is a natural number (C: a `double`, converted
to an integer when it is used). -/

namespace Verif.NU
open Verif.Dim Verif.TG Verif.Stk

variable {K : Type} [Field K] [LinearOrder K]

/-- Floorplan element on a non-uniform grid: its rectangles, the discretization and the material of the first one
(`ICElement_t`, include/ic_element.h:65-110) and its power values. A discretization not given is 0 (sources/ic_element.c:52). -/
structure FEl (K : Type) where
  rect : Rect K
  others : List (Rect K)
  dx : Nat
  dy : Nat
  mat : Option (Material K)
  powers : List K

/-- Element of the stack with its `Discr_X`, `Discr_Y` (include/die.h:98-102, include/layer.h:95-99). -/
structure NElem (K : Type) where
  elem : SElem K (List (FEl K))
  dx : Nat
  dy : Nat

/-- `Non_uniform_cell_t` (include/non_uniform_cell.h) together with its row of `position_info`. -/
structure Cell (K : Type) where
  layer : Nat
  x0 : K
  y0 : K
  x1 : K
  y1 : K
  mat : Material K
  chan : Bool

/-- `length` and `width` of the cell: sources/thermal_data.c:232-233, 309-310, 690-691. -/
def Cell.length (c : Cell K) : K := c.x1 - c.x0
def Cell.width (c : Cell K) : K := c.y1 - c.y0

/-- The material of a cell before anything is copied into it: sources/non_uniform_cell.c:54. -/
def noMat : Material K := ⟨0, 0, 0, 0⟩

/-! ### Number and position of the cells -/

/-- An element without discretization takes the one of its die: sources/thermal_data.c:98-110. -/
def fixEl (n : NElem K) (e : FEl K) : FEl K :=
  if e.dx ≠ 0 ∧ e.dy ≠ 0 then e else { e with dx := n.dx, dy := n.dy }

/-- Change made to the stack by `update_number_of_cells`: sources/thermal_data.c:70-150. -/
def fixDiscr (n : NElem K) : NElem K :=
  match n.elem.body with
  | .die d => { n with elem := { n.elem with body := .die { d with flp := d.flp.map (fixEl n) } } }
  | _ => n

/-- Cells of one stack element counted by `update_number_of_cells`: sources/thermal_data.c:84-128. -/
def countElem (d : Dims K) (n : NElem K) : Nat :=
  match n.elem.body with
  | .die b => (b.flp.map fun e => if e.dx ≠ 0 ∧ e.dy ≠ 0 then e.dx * e.dy else n.dx * n.dy).sum * b.layers.length
  | .layer _ => n.dx * n.dy
  | .channel ch => chLayers ch * d.nRows * d.nCols

/-- `update_number_of_cells`: sources/thermal_data.c:70-150. `none`: the program reads through the null pointer `TopSink`
(line 145) when the stack has no top sink. The count is not reduced modulo 2^32. -/
def numberOfCells (d : Dims K) (top : Option (TopSink K)) (ns : List (NElem K)) : Option Nat :=
  match top with
  | none => none
  | some (.ambient _) => some ((ns.map (countElem d)).sum)
  | some (.pluggable _ _) => some ((ns.map (countElem d)).sum + d.nRows * d.nCols)

/-- The sub-rectangles of a rectangle, from left to right and from bottom to top: sources/thermal_data.c:205-266, 290-313,
672-695. -/
def subCells (r : Rect K) (nx ny layer : Nat) (m : Material K) : List (Cell K) :=
  (List.range (nx * ny)).map fun s =>
    { layer := layer
      x0 := r.x + (r.length / (nx : K)) * ((s % nx : Nat) : K)
      y0 := r.y + (r.width / (ny : K)) * ((s / nx : Nat) : K)
      x1 := r.x + (r.length / (nx : K)) * ((s % nx + 1 : Nat) : K)
      y1 := r.y + (r.width / (ny : K)) * ((s / nx + 1 : Nat) : K)
      mat := m
      chan := false }

/-- The cells of one layer of a die: sources/thermal_data.c:180-277. `li` counts from the bottom of the die. Only the first
rectangle of each floorplan element is used. The material of the element counts in the source layer only. -/
def dieLayer (n : NElem K) (b : Die K (List (FEl K))) (cur li : Nat) : List (Cell K) :=
  b.flp.flatMap fun e =>
    let f := if e.dx = 0 ∨ e.dy = 0 then (n.dx, n.dy) else (e.dx, e.dy)
    let own := ((b.layers.reverse[li]?).map (·.mat)).getD noMat
    subCells e.rect f.1 f.2 (cur + li) (if li = b.srcOff then e.mat.getD own else own)

/-- The rectangle of the chip. -/
def chipRect (d : Dims K) : Rect K := ⟨0, 0, d.chipLength, d.chipWidth⟩

/-- Left border of a column of a channel layer: sources/thermal_data.c:365-411, 457-503, 570-611 (three times the same code). -/
def chanX0 (d : Dims K) (c : Nat) : K :=
  if c = 0 then 0
  else if c = d.nCols - 1 then d.chipLength - d.lastWall
  else if c % 2 ≠ 0 then d.firstWall + (((c - 1) / 2 : Nat) : K) * (d.wall + d.channel)
  else (d.firstWall + d.channel) + (((c - 2) / 2 : Nat) : K) * (d.wall + d.channel)

/-- Right border of a column of a channel layer: the same lines. -/
def chanX1 (d : Dims K) (c : Nat) : K :=
  if c = 0 then d.firstWall
  else if c = d.nCols - 1 then d.chipLength
  else if c % 2 ≠ 0 then chanX0 d c + d.channel
  else chanX0 d c + d.wall

/-- `isChannel` of a cell: column `c` of the layer `li` of a channel (counted from its first layer). 4RM: the odd columns that
are neither the first nor the last (sources/thermal_data.c:572-601). Otherwise all the cells of the third layer (353-356, 445-448). -/
def chanFlag (d : Dims K) (m : ChModel) (li c : Nat) : Bool :=
  match m with
  | .mc4rm => decide (c ≠ 0 ∧ c ≠ d.nCols - 1 ∧ c % 2 ≠ 0)
  | _ => decide (li = 2)

/-- The cells of one layer of a channel: sources/thermal_data.c:335-640. -/
def channelLayer (d : Dims K) (m : ChModel) (cur li : Nat) : List (Cell K) :=
  (List.range (d.nCols * d.nRows)).map fun s =>
    { layer := cur + li
      x0 := chanX0 d (s % d.nCols)
      y0 := (d.chipWidth / (d.nRows : K)) * ((s / d.nCols : Nat) : K)
      x1 := chanX1 d (s % d.nCols)
      y1 := (d.chipWidth / (d.nRows : K)) * ((s / d.nCols + 1 : Nat) : K)
      mat := noMat
      chan := chanFlag d m li (s % d.nCols) }

/-- The layers of one stack element: sources/thermal_data.c:168-640. -/
def elemLayers (d : Dims K) (cur : Nat) (n : NElem K) : List (List (Cell K)) :=
  match n.elem.body with
  | .die b => (List.range b.layers.length).map (dieLayer n b cur)
  | .layer _ => [subCells (chipRect d) n.dx n.dy cur noMat]
  | .channel ch => (List.range (chLayers ch)).map (channelLayer d ch.model cur)

/-- The layers of the stack, from the bottom: the loop of `get_cell_position`, sources/thermal_data.c:155-658. -/
def stackLayers (d : Dims K) : Nat → List (NElem K) → List (List (Cell K))
  | _, [] => []
  | cur, n :: ns => elemLayers d cur n ++ stackLayers d (cur + (elemLayers d cur n).length) ns

/-- The layer of the spreader: sources/thermal_data.c:662-708. -/
def spreaderLayer (d : Dims K) (top : Option (TopSink K)) (cur : Nat) : List (List (Cell K)) :=
  match top with
  | some (.pluggable _ _) => [subCells (chipRect d) d.nCols d.nRows cur noMat]
  | _ => []

/-- `get_cell_position`: sources/thermal_data.c:155-710. The list of the layers with their cells; `Cell_list` is its
concatenation. -/
def layersOf (d : Dims K) (top : Option (TopSink K)) (ns : List (NElem K)) : List (List (Cell K)) :=
  let ls := stackLayers d 0 ns
  ls ++ spreaderLayer d top ls.length

/-- What one stack element writes into `layer_type_record`: sources/thermal_data.c:270, 318, 426-429, 534-539, 634. -/
def elemRecord (n : NElem K) : List Nat :=
  match n.elem.body with
  | .die b => List.replicate b.layers.length 0
  | .layer _ => [0]
  | .channel ch =>
    match ch.model with
    | .mc4rm => [0]
    | .mc2rm => [1, 2, 2, 1]
    | .pfInline | .pfStag => [1, 3, 2, 1]
    | .none => []

/-- `layer_type_record`: sources/thermal_data.c:1072-1078 (all zeros), then the elements, then 4 for the spreader (704). -/
def recordOf (top : Option (TopSink K)) (ns : List (NElem K)) : List Nat :=
  ns.flatMap elemRecord ++ (match top with | some (.pluggable _ _) => [4] | _ => [])

/-! ### Connections -/

/-- `Connection_t`: include/connection.h (the layers of the nodes are never read). -/
structure Conn (K : Type) where
  node1 : Nat
  node2 : Nat
  value : K
  dir : Nat
deriving DecidableEq

/-- `get_minkowski_difference`: sources/thermal_data.c:714-720. -/
def mink (a b : Cell K) : K × K × K × K := (a.x0 - b.x1, a.y0 - b.y1, a.x1 - b.x0, a.y1 - b.y0)

/-- `get_overlap_area`: sources/thermal_data.c:724-745 (the message is left out). -/
def overlapArea (a b : Cell K) : K :=
  let m := mink a b
  let l := if |m.1| ≤ |m.2.2.1| then |m.1| else |m.2.2.1|
  let w := if |m.2.1| ≤ |m.2.2.2| then |m.2.1| else |m.2.2.2|
  let nl := if a.x1 - a.x0 ≤ b.x1 - b.x0 then a.x1 - a.x0 else b.x1 - b.x0
  let nw := if a.y1 - a.y0 ≤ b.y1 - b.y0 then a.y1 - a.y0 else b.y1 - b.y0
  (if l ≤ nl then l else nl) * (if w ≤ nw then w else nw)

/-- A cell of the list; an index outside it would be undefined behaviour. -/
def cellAt (cs : List (Cell K)) (i : Nat) : Cell K := cs.getD i ⟨0, 0, 0, 0, 0, noMat, false⟩

/-- Body of the inner loop of `get_connections_in_layer`: sources/thermal_data.c:782-827. The last case prints a message and
keeps the initial value and direction (sources/connection.c). -/
def inLayer (cs : List (Cell K)) (ty i j : Nat) : Option (Conn K) :=
  let m := mink (cellAt cs i) (cellAt cs j)
  let d0 := m.1
  let d1 := m.2.1
  let d2 := m.2.2.1
  let d3 := m.2.2.2
  if |d0| < Flp.epsilon ∨ |d1| < Flp.epsilon ∨ |d2| < Flp.epsilon ∨ |d3| < Flp.epsilon then
    if d0 * d2 + d1 * d3 < - Flp.epsilon then
      if |d0 * d2| < Flp.epsilon then
        if ty = 1 ∨ ty = 2 ∨ ty = 3 then none else some ⟨i, j, if |d1| ≤ |d3| then |d1| else |d3|, 1⟩
      else if |d1 * d3| < Flp.epsilon then
        if ty = 1 ∨ ty = 3 then none else some ⟨i, j, if |d0| ≤ |d2| then |d0| else |d2|, 2⟩
      else some ⟨i, j, 0, 0⟩
    else none
  else none

/-- Body of the inner loop of `get_connections_between_layer`: sources/thermal_data.c:982-1010. -/
def between (cs : List (Cell K)) (i j : Nat) : Option (Conn K) :=
  let m := mink (cellAt cs i) (cellAt cs j)
  let d0 := m.1
  let d1 := m.2.1
  let d2 := m.2.2.1
  let d3 := m.2.2.2
  if |d0 * d2| > Flp.epsilon ∧ |d1 * d3| > Flp.epsilon then
    if d0 * d2 < - Flp.epsilon ∧ d1 * d3 < - Flp.epsilon then
      some ⟨i, j, overlapArea (cellAt cs i) (cellAt cs j), 0⟩
    else none
  else none

/-- A parallel loop: its iterations, and what one iteration appends to the list of its thread. -/
structure Region (K : Type) where
  iters : List Nat
  body : Nat → List (Conn K)

/-- First cell of a layer: `layer_cell_record [l - 1]`. -/
def start (ls : List (List (Cell K))) (l : Nat) : Nat := ((ls.take l).map List.length).sum

/-- The parallel loop of `get_connections_in_layer` for one layer: sources/thermal_data.c:773-834. -/
def inRegion (ls : List (List (Cell K))) (ty l : Nat) : Region K :=
  { iters := List.range' (start ls l) (start ls (l + 1) - start ls l)
    body := fun i => (List.range' (i + 1) (start ls (l + 1) - (i + 1))).filterMap (inLayer ls.flatten ty i) }

/-- The parallel loop of `get_connections_between_layer` for the layers `p.1` and `p.2`: sources/thermal_data.c:882-920, 927-965,
970-1022. -/
def betweenRegion (ls : List (List (Cell K))) (p : Nat × Nat) : Region K :=
  { iters := List.range' (start ls p.1) (start ls (p.1 + 1) - start ls p.1)
    body := fun i => (List.range' (start ls p.2) (start ls (p.2 + 1) - start ls p.2)).filterMap (between ls.flatten i) }

/-- The coolant layer of a 2RM or pin fin channel is recognized by its type and that of the virtual wall under it:
sources/thermal_data.c:875. -/
def crossing (ty : Nat → Nat) (l : Nat) : Prop := (ty (l - 1) = 2 ∧ ty l = 2) ∨ (ty (l - 1) = 3 ∧ ty l = 2)

instance (ty : Nat → Nat) (l : Nat) : Decidable (crossing ty l) := by unfold crossing; infer_instance

/-- The pairs of layers compared at the iteration `l`: sources/thermal_data.c:875-1024. The coolant (`l`) touches the bottom wall
and the top wall touches the virtual wall. A channel is never the first element, so that `l - 3 ≥ 0` there (line 877). -/
def layerPairs (ty : Nat → Nat) (l : Nat) : List (Nat × Nat) :=
  if crossing ty l then [(l - 2, l), (l - 1, l + 1)] else [(l - 1, l)]

/-- The parallel loops, in program order: sources/thermal_data.c:749-842, 846-1030. The index `nL` is skipped unless it is the
layer of the spreader. -/
def regions (nL : Nat) (ty : Nat → Nat) (ls : List (List (Cell K))) : List (Region K) :=
  ((List.range (nL + 1)).filter fun l => ¬ (l = nL ∧ ty l ≠ 4)).map (fun l => inRegion ls (ty l) l) ++
  (((List.range' 1 nL).filter fun l => ¬ (l = nL ∧ ty l ≠ 4)).flatMap (layerPairs ty)).map (betweenRegion ls)

/-- Possible results of a parallel loop (`omp for schedule(dynamic)` or `static`, then `omp critical`): the iterations are
distributed over threads in some way, each thread runs its own in some order and appends to its list, and the lists are
merged one after the other. -/
def Region.Produces (r : Region K) (L : List (Conn K)) : Prop :=
  ∃ threads : List (List Nat), threads.flatten.Perm r.iters ∧ L = threads.flatMap fun t => t.flatMap r.body

/-- Possible contents of `connections_list` after the parallel loops, executed one after the other. -/
def Runs (rs : List (Region K)) (L : List (Conn K)) : Prop :=
  ∃ parts : List (List (Conn K)), List.Forall₂ Region.Produces rs parts ∧ L = parts.flatten

/-! ### Conductances -/

/-- `get_convective_term_nonuniform`: sources/channel.c:284-340. -/
def convectiveNU (g : TGrid K) (d : Dims K) (l : Nat) (len : K) : K :=
  match g.channel with
  | none => 0
  | some ch =>
    match ch.model with
    | .mc4rm => (ch.coolant.vhc * ch.coolant.flowRate) / ((ch.nChannels : K) * 2)
    | .mc2rm => (ch.coolant.vhc * ch.coolant.flowRate * ch.porosity * len) / ((ch.nChannels : K) * 2 * ch.length)
    | .pfInline | .pfStag => (ch.coolant.vhc * ch.coolant.darcy * len * height d l) / 2
    | .none => 0

/-- Spreader terms; a cell above the last layer without a spreader cannot exist. -/
def sprTerm (g : TGrid K) (f : Spreader K → Material K → K) : K :=
  match g.top with
  | some (.pluggable s m) => f s m
  | _ => 0

/-- `get_capacity_non_uniform`: sources/thermal_grid.c:326-430. -/
def capacityNU (g : TGrid K) (d : Dims K) (c : Cell K) : K :=
  if c.layer ≥ g.nLayers then sprTerm g sprCapacity
  else match typeAt g c.layer with
  | .solid | .solidAmb | .solidSpr | .solidPcb => heatCap g d c.layer 0 0 * c.length * c.width * height d c.layer
  | .source | .sourceAmb | .sourceSpr | .sourcePcb => c.mat.vhc * c.length * c.width * height d c.layer
  | .ch4rm =>
    if c.chan then chan g (·.coolant.vhc) * c.length * c.width * height d c.layer
    else heatCap g d c.layer 0 0 * c.length * c.width * height d c.layer
  | .ch2rm | .pfInline | .pfStag =>
    chan g (·.coolant.vhc) * chan g (·.porosity) * c.length * c.width * height d c.layer
  | .vwallCh | .vwallPf => heatCap g d c.layer 0 0 * (1 - chan g (·.porosity)) * c.length * c.width * height d c.layer
  | .topWall | .bottomWall | .none => 0

/-- `get_conductance_non_uniform_z`: sources/thermal_grid.c:533-665. `v` is the value of the connection, `up` is
`direction_note == 1`. -/
def gz (g : TGrid K) (d : Dims K) (v : K) (c : Cell K) (up : Bool) : K :=
  if c.layer ≥ d.nLayers then sprTerm g fun s m => (m.kz * v) / (s.height / 2)
  else match typeAt g c.layer with
  | .solid =>
    (condZ g d c.layer 0 0 * v) / (if c.layer ≠ 0 ∧ c.layer ≠ d.nLayers - 1 then height d c.layer / 2 else height d c.layer)
  | .source =>
    (c.mat.kz * v) / (if c.layer ≠ 0 ∧ c.layer ≠ d.nLayers - 1 then height d c.layer / 2 else height d c.layer)
  | .solidSpr => (condZ g d c.layer 0 0 * v) / (if c.layer = 0 then height d c.layer else height d c.layer / 2)
  | .sourceSpr => (c.mat.kz * v) / (if c.layer = 0 then height d c.layer else height d c.layer / 2)
  | .solidAmb | .solidPcb => (condZ g d c.layer 0 0 * v) / (height d c.layer / 2)
  | .sourceAmb | .sourcePcb => (c.mat.kz * v) / (height d c.layer / 2)
  | .ch4rm =>
    if c.chan then (if up then chan g (·.coolant.htcTop) * v else chan g (·.coolant.htcBottom) * v)
    else (condZ g d c.layer 0 0 * v) / (height d c.layer / 2)
  | .ch2rm => if up then chan g (·.coolant.htcTop) * v else chan g (·.coolant.htcBottom) * v
  | .pfInline => chan g (fun ch => ch.effInline ch.coolant.darcy) * v
  | .pfStag => chan g (fun ch => ch.effStag ch.coolant.darcy) * v
  | .vwallCh | .vwallPf => (condZ g d c.layer 0 0 * v) / (height d c.layer / 2) * (1 - chan g (·.porosity))
  | .topWall | .bottomWall | .none => 0

/-- `get_conductance_non_uniform_y`: sources/thermal_grid.c:669-767. -/
def gy (g : TGrid K) (d : Dims K) (v : K) (c : Cell K) (note : K) : K :=
  if c.layer ≥ d.nLayers then sprTerm g sprNS
  else match typeAt g c.layer with
  | .solid | .solidAmb | .solidSpr | .solidPcb => (condY g d c.layer 0 0 * v * height d c.layer) / (c.width / 2)
  | .source | .sourceAmb | .sourceSpr | .sourcePcb => (c.mat.ky * v * height d c.layer) / (c.width / 2)
  | .ch4rm =>
    if c.chan then note * convective g d c.layer 0
    else (condY g d c.layer 0 0 * v * height d c.layer) / (c.width / 2)
  | .ch2rm | .pfInline | .pfStag => note * convectiveNU g d c.layer v
  | .vwallCh => (condY g d c.layer 0 0 * v * height d c.layer) / (v / 2) * (1 - chan g (·.porosity))
  | .vwallPf | .topWall | .bottomWall | .none => 0

/-- `get_conductance_non_uniform_x`: sources/thermal_grid.c:771-859. -/
def gx (g : TGrid K) (d : Dims K) (v : K) (c : Cell K) : K :=
  if c.layer ≥ d.nLayers then sprTerm g sprEW
  else match typeAt g c.layer with
  | .solid | .solidAmb | .solidSpr | .solidPcb => (condX g d c.layer 0 0 * v * height d c.layer) / (c.length / 2)
  | .source | .sourceAmb | .sourceSpr | .sourcePcb => (c.mat.kx * v * height d c.layer) / (c.length / 2)
  | .ch4rm =>
    if c.chan then chan g (·.coolant.htcSide) * v * height d c.layer
    else (condX g d c.layer 0 0 * v * height d c.layer) / (c.length / 2)
  | .ch2rm | .pfInline | .pfStag | .vwallCh | .vwallPf | .topWall | .bottomWall | .none => 0

/-- `get_conductance_non_uniform`: sources/thermal_grid.c:862-960, with the value of `*sign_note`. `a` and `b` are the cells of
its arguments `node1_index` and `node2_index`. -/
def conductance (g : TGrid K) (d : Dims K) (cn : Conn K) (a b : Cell K) : K × K :=
  if cn.dir = 0 then
    let up := decide (a.layer < b.layer)
    let g1 := gz g d cn.value a up
    let g2 := gz g d cn.value b (!up)
    (if g1 = 0 then - g2 else if g2 = 0 then - g1 else - par g1 g2, 1)
  else if cn.dir = 1 then (- par (gx g d cn.value a) (gx g d cn.value b), 1)
  else if cn.dir = 2 then
    let note : K := if a.y0 < b.y0 then 1 else -1
    if b.chan then (gy g d cn.value b note, -1)
    else (- par (gy g d cn.value a note) (gy g d cn.value b (- note)), 1)
  else (0, 1)

/-! ### The matrix -/

/-- A row of `matrix_tmp`. -/
structure Trip (K : Type) where
  row : Nat
  col : Nat
  val : K

/-- The two rows of `matrix_tmp` written for a connection: sources/system_matrix.c:567-586. -/
def pairOf (g : TGrid K) (d : Dims K) (cs : List (Cell K)) (cn : Conn K) : List (Trip K) :=
  let v := conductance g d cn (cellAt cs cn.node2) (cellAt cs cn.node1)
  [⟨cn.node2, cn.node1, v.1⟩, ⟨cn.node1, cn.node2, v.2 * v.1⟩]

def offDiag (g : TGrid K) (d : Dims K) (cs : List (Cell K)) (L : List (Conn K)) : List (Trip K) := L.flatMap (pairOf g d cs)

/-- Term of the top sink: sources/system_matrix.c:623-656 and, the same expression, sources/power_grid.c:404-452. -/
def topSeries (g : TGrid K) (d : Dims K) (k : K) (c : Cell K) : K :=
  (2 * k * topHtc g * c.length * c.width) / (height d c.layer * topHtc g + 2 * k)

/-- The boundary term of the diagonal: sources/system_matrix.c:617-690. There is no case for the bottom sink. -/
def boundary (g : TGrid K) (d : Dims K) (c : Cell K) : K :=
  if c.layer < d.nLayers then
    match typeAt g c.layer with
    | .solidAmb => topSeries g d (condZ g d c.layer 0 0) c
    | .sourceAmb => topSeries g d c.mat.kz c
    | .ch4rm => if c.chan = true ∧ c.y0 + c.width = d.chipWidth then 2 * gy g d 0 c 1 else 0
    | .ch2rm | .pfInline | .pfStag =>
      if c.chan = true ∧ c.y0 + c.width = d.chipWidth then 2 * gy g d c.length c 1 else 0
    | _ => 0
  else 0

/-- The diagonal before the conductances are added: sources/system_matrix.c:595-690. -/
def diagBase (g : TGrid K) (a : SM.Ana K) (d : Dims K) (c : Cell K) : K := SM.storage a (capacityNU g d c) + boundary g d c

/-- The final diagonal: sources/system_matrix.c:698-704, from the last row to the first one. `rnd` rounds the result of each
addition (the identity in exact arithmetic). -/
def diagAcc (rnd : K → K) (off : List (Trip K)) (i : Nat) (b : K) : K :=
  off.reverse.foldl (fun acc e => if e.col = i then rnd (acc + - e.val) else acc) b

/-- `matrix_tmp` before sorting. -/
def triplets (rnd : K → K) (g : TGrid K) (a : SM.Ana K) (d : Dims K) (cs : List (Cell K)) (L : List (Conn K)) : List (Trip K) :=
  offDiag g d cs L ++
  (List.range cs.length).map fun i => ⟨i, i, diagAcc rnd (offDiag g d cs L) i (diagBase g a d (cellAt cs i))⟩

/-- Order given by the comparison function of `qsort`: sources/system_matrix.c:521-538. -/
def before (a b : Trip K) : Bool := decide (a.col < b.col ∨ (a.col = b.col ∧ a.row ≤ b.row))

/-- Column pointers, from the second one on: sources/system_matrix.c:717-734. `cur` is `layer_tmp`, `n` the value of the current
pointer. -/
def pointers : Nat → Nat → List (Trip K) → List Nat
  | _, n, [] => [n]
  | cur, n, e :: es => if cur ≠ e.col then n :: pointers e.col (n + 1) es else pointers cur (n + 1) es

/-- Arrays written from the sorted `matrix_tmp`: sources/system_matrix.c:715-735. -/
def toCsc (ts : List (Trip K)) : SM.Csc K :=
  { colPtr := 0 :: pointers ((ts.head?.map (·.col)).getD 0) 0 ts, rowIdx := ts.map (·.row), vals := ts.map (·.val) }

/-- `add_solid_column_non_uniform`: sources/system_matrix.c:542-740, called by `fill_system_matrix` (2155-2158). `qsort` sorts
with the comparison function; here a merge sort (theorem `C44_any_sort` shows that the choice does not matter). -/
def fillMatrixNU (rnd : K → K) (g : TGrid K) (a : SM.Ana K) (d : Dims K) (cs : List (Cell K)) (L : List (Conn K)) : SM.Csc K :=
  toCsc ((triplets rnd g a d cs L).mergeSort before)

/-! ### The source vector -/

/-- Layer of the last cell: sources/power_grid.c:401. -/
def topLayerOf (cs : List (Cell K)) : Nat := (cs.getLast?.map (·.layer)).getD 0

/-- `HeatSinkTopTcs`: sources/power_grid.c:102-116, 398-455 (`calloc`, then one `+=` per cell of the last layer). -/
def topTcsNU (g : TGrid K) (d : Dims K) (cs : List (Cell K)) : List K :=
  (cs.filter fun c => c.layer = topLayerOf cs).map fun c =>
    match g.top, typeAt g (g.nLayers - 1) with
    | some (.ambient _), .solidAmb => topSeries g d (condZ g d (topLayerOf cs) 0 0) c
    | some (.ambient _), .sourceAmb => topSeries g d c.mat.kz c
    | _, _ => 0

/-- `HeatSinkBottomTcs`: sources/power_grid.c:126-145, 512-560. -/
def botTcsNU (g : TGrid K) (d : Dims K) (cs : List (Cell K)) : List K :=
  (cs.takeWhile fun c => some c.layer = cs.head?.map (·.layer)).map fun c =>
    match g.bottom, typeAt g 0 with
    | some _, .solidPcb => (condZ g d c.layer 0 0 * c.length * c.width) / (height d c.layer / 2)
    | some _, .sourcePcb => (c.mat.kz * c.length * c.width) / (height d c.layer / 2)
    | _, _ => 0

/-- `*tmpS++ += …` for the values of a list, from position `pos`. -/
def addFrom (src : List K) (pos : Nat) : List K → List K
  | [] => src
  | v :: vs => addFrom (src.set pos (src.getD pos 0 + v)) (pos + 1) vs

/-- One power value for each element, spread over its cells: sources/power_grid.c:607-632, 671-694, 729-752. `none`: a queue is
empty. -/
def popPowers : List (FEl K) → Option (List K × List (FEl K))
  | [] => some ([], [])
  | e :: es =>
    match e.powers with
    | [] => none
    | p :: ps => (popPowers es).map fun r =>
        (List.replicate (e.dx * e.dy) (p / ((e.dx * e.dy : Nat) : K)) ++ r.1, { e with powers := ps } :: r.2)

/-- State of the loop of `update_source_vector`. -/
structure SrcSt (K : Type) where
  src : List K
  pos : Nat
  flps : List (Option (List (FEl K)))

/-- `pgrid->TopHeatSink->AmbientTemperature`, `pgrid->BottomHeatSink->AmbientTemperature`. -/
def topTemp (g : TGrid K) : K := match g.top with | some (.ambient s) => s.tAmb | _ => 0
def botTemp (g : TGrid K) : K := (g.bottom.map (·.tAmb)).getD 0

/-- The floorplan powers of a layer added to the sources. -/
def addPowers (st : SrcSt K) (l : Nat) : Option (SrcSt K) :=
  match st.flps.getD l none with
  | none => none
  | some es => (popPowers es).map fun r => { st with src := addFrom st.src st.pos r.1, flps := st.flps.set l (some r.2) }

/-- Cells of the current layer from the current one: sources/power_grid.c:800-805. -/
def layerCells (cs : List (Cell K)) (pos l : Nat) : List (Cell K) := (cs.drop pos).takeWhile fun c => c.layer = l

/-- Values written for the inlet of a channel layer, one for each column; `none`: nothing is written: sources/power_grid.c:755-779. -/
def inlets (g : TGrid K) (d : Dims K) (l : Nat) : List (Option K) :=
  match g.channel with
  | none => []
  | some ch => (List.range d.nCols).map fun c =>
      if (if ch.model = .mc4rm then isChannelCol c else true) = true then some (2 * convective g d l c * ch.coolant.tIn) else none

/-- `*tmp = …; tmp++` for the values of a list, from position `pos`. -/
def setFrom (src : List K) (pos : Nat) : List (Option K) → List K
  | [] => src
  | some v :: vs => setFrom (src.set pos v) (pos + 1) vs
  | none :: vs => setFrom src (pos + 1) vs

/-- One layer of `update_source_vector`: sources/power_grid.c:598-805. -/
def srcLayer (g : TGrid K) (d : Dims K) (cs : List (Cell K)) (st : SrcSt K) (l : Nat) : Option (SrcSt K) :=
  let amb (st : SrcSt K) : SrcSt K :=
    { st with src := addFrom st.src st.pos (((topTcsNU g d cs).take (cs.length - st.pos)).map fun t => topTemp g * t) }
  let pcb (st : SrcSt K) : SrcSt K :=
    { st with src := addFrom st.src st.pos (((botTcsNU g d cs).take (layerCells cs st.pos l).length).map fun t => botTemp g * t) }
  (match typeAt g l with
    | .source | .sourceSpr => addPowers st l
    | .solid | .solidSpr | .vwallCh | .vwallPf | .topWall | .bottomWall => some st
    | .solidAmb => some (amb st)
    | .sourceAmb => addPowers (amb st) l
    | .solidPcb => some (pcb st)
    | .sourcePcb => addPowers (pcb st) l
    | .ch4rm | .ch2rm | .pfInline | .pfStag => some { st with src := setFrom st.src st.pos (inlets g d l) }
    | .none => none).map fun (st : SrcSt K) => { st with pos := st.pos + (layerCells cs st.pos l).length }

/-- `update_source_vector` on a non-uniform grid: sources/power_grid.c:580-810. -/
def sourcesNU (g : TGrid K) (d : Dims K) (cs : List (Cell K)) (flps : List (Option (List (FEl K)))) :
    Option (List K × List (Option (List (FEl K)))) :=
  ((List.range g.nLayers).foldlM (srcLayer g d cs) ⟨List.replicate cs.length 0, 0, flps⟩).map fun st => (st.src, st.flps)

/-! ### Building a stack -/

/-- What `thermal_data_build` builds from a stack: sources/thermal_data.c:1032-1180. In the program the count `nCells` overwrites
the field `Grid.NCells` of the dimensions (line 150); here it is a field of its own. -/
structure Grid (K : Type) where
  d : Dims K
  nCells : Nat
  g : TGrid K
  ls : List (List (Cell K))
  flps : List (Option (List (FEl K)))
  ns : List (NElem K)

/-- `layer_type_record [l]`. -/
def Grid.ty (G : Grid K) (l : Nat) : Nat := (recordOf G.g.top G.ns).getD l 0

/-- `thermal_data_build` up to the matrix: sources/thermal_data.c:1052-1100 and `thermal_grid_fill`, `power_grid_fill`. The list
is bottom-up. `none`: the stack is refused, or the top sink is read through a null pointer. -/
def buildNU (d : Dims K) (top : Option (TopSink K)) (bottom : Option (Sink K)) (ns : List (NElem K)) : Option (Grid K) :=
  (numberOfCells d top ns).bind fun n =>
    let fs := ns.map fixDiscr
    (fillGrid d.nLayers (fs.map (·.elem)) top bottom).map fun g =>
      { d := d, nCells := n, g := g, ls := layersOf d top fs, flps := fillFloorplans d.nLayers (fs.map (·.elem)),
        ns := fs }

/-- Possible system matrices of a built stack, one for each way of scheduling the threads. -/
def Assembled (rnd : K → K) (G : Grid K) (a : SM.Ana K) (m : SM.Csc K) : Prop :=
  ∃ L, Runs (regions G.d.nLayers G.ty G.ls) L ∧ m = fillMatrixNU rnd G.g a G.d G.ls.flatten L

end Verif.NU
