import Verif.Model.NonUniform
import Verif.Model.Output

/-! Model of the inspection points of non-uniform grids: `sources/inspection_point.c`, `sources/stack_element.c`,
`sources/floorplan_element.c`, `sources/ic_element.c`, `sources/thermal_data.c` (the indices of the cells of an element). -/

namespace Verif.NU
open Verif.Dim Verif.TG Verif.Stk

variable {K : Type} [Field K] [LinearOrder K]

/-! ### The cells of the floorplan elements -/

/-- `Index_start` and `Index_end` of a rectangle. -/
abbrev Mark := Nat × Nat

/-- Indices recorded for the first rectangle of each element when the source layer of the die is generated, `pos` being
`cell_num_non_uniform` at the beginning of that layer: sources/thermal_data.c:268-276. An element has at least one cell. -/
def markEls (pos : Nat) : List (FEl K) → List Mark
  | [] => []
  | e :: es => (pos, pos + e.dx * e.dy - 1) :: markEls (pos + e.dx * e.dy) es

/-- Indices of a rectangle that never gets any: sources/ic_element.c:58-59. -/
def noMark : Mark := (0, 0)

/-- Marks of the first rectangles of the elements of a die whose first layer starts at the cell `pos`: sources/thermal_data.c:180-277. -/
def elemMarks (cur pos : Nat) (n : NElem K) : List Mark :=
  match n.elem.body with
  | .die b =>
    if b.srcOff < b.layers.length then markEls (pos + (((List.range b.srcOff).map (dieLayer n b cur)).map List.length).sum) b.flp
    else b.flp.map fun _ => noMark
  | _ => []

/-- The same for all the stack, from the bottom: the loop of `get_cell_position`, sources/thermal_data.c:155-658. -/
def stackMarks (d : Dims K) : Nat → Nat → List (NElem K) → List (List Mark)
  | _, _, [] => []
  | cur, pos, n :: ns =>
    elemMarks cur pos n :: stackMarks d (cur + (elemLayers d cur n).length) (pos + ((elemLayers d cur n).map List.length).sum) ns

/-- The rectangles of a floorplan element as the temperature functions see them. -/
def rectMarks (e : FEl K) (m : Mark) : List Mark := m :: e.others.map fun _ => noMark

/-- The marks of all the elements of the die at position `k` of the stack (from the bottom), as the inspection points of the
floorplan and of its elements read them through `StackElement->Pointer.Die->Floorplan`: sources/inspection_point.c:680-760. -/
def dieMarks (d : Dims K) (fs : List (NElem K)) (k : Nat) : List (List Mark) :=
  match fs[k]? with
  | some n =>
    match n.elem.body with
    | .die b => List.zipWith rectMarks b.flp ((stackMarks d 0 0 fs).getD k [])
    | _ => []
  | none => []

/-! ### Temperatures of a floorplan element -/

/-- `*(temperatures + i)`. -/
def tAt (temps : List K) (i : Nat) : K := temps.getD i 0

/-- The indices `for (i = Index_start; i <= Index_end; i++)`. -/
def Mark.cells (m : Mark) : List Nat := List.range' m.1 (m.2 + 1 - m.1)

/-- `get_max_temperature_ic_element`: sources/ic_element.c:278-322. -/
def maxMark (temps : List K) (m : Mark) : K := m.cells.foldl (fun t i => max t (tAt temps i)) (tAt temps m.1)
/-- `get_min_temperature_ic_element`: sources/ic_element.c:326-374. -/
def minMark (temps : List K) (m : Mark) : K := m.cells.foldl (fun t i => min t (tAt temps i)) (tAt temps m.1)
/-- `get_avg_temperature_ic_element`: sources/ic_element.c:378-415. -/
def avgMark (temps : List K) (m : Mark) : K := m.cells.foldl (fun s i => s + tAt temps i) 0 / (m.cells.length : K)

/-- `get_max_temperature_floorplan_element`: sources/floorplan_element.c:192-226. -/
def maxNU (temps : List K) : List Mark → K
  | [] => 0
  | m :: ms => ms.foldl (fun t i => if maxMark temps i > t then maxMark temps i else t) (maxMark temps m)
/-- `get_min_temperature_floorplan_element`: sources/floorplan_element.c:230-264. -/
def minNU (temps : List K) : List Mark → K
  | [] => 0
  | m :: ms => ms.foldl (fun t i => if minMark temps i < t then minMark temps i else t) (minMark temps m)
/-- `get_avg_temperature_floorplan_element`: sources/floorplan_element.c:268-290. -/
def avgNU (temps : List K) (ms : List Mark) : K := ms.foldl (fun s i => s + avgMark temps i) 0 / (ms.length : K)
/-- `get_gradient_temperature_floorplan_element`: sources/floorplan_element.c:294-331. -/
def gradientNU (temps : List K) : List Mark → K
  | [] => 0
  | m :: ms =>
    ms.foldl (fun t i => max t (maxMark temps i)) (maxMark temps m) - ms.foldl (fun t i => min t (minMark temps i)) (minMark temps m)

/-- The four functions; `none` = the quantity is not known. -/
def statNU (temps : List K) (q : Out.Quantity) (ms : List Mark) : Option K :=
  match q with
  | .maximum => some (maxNU temps ms)
  | .minimum => some (minNU temps ms)
  | .average => some (avgNU temps ms)
  | .gradient => some (gradientNU temps ms)
  | .none => none

/-! ### Inspection points -/

/-- The cell of a probe: sources/inspection_point.c:625-650 (files) and, the same loop, 894-922 (messages). The index is 0 when no
cell is found. -/
def probeIndex (cs : List (Cell K)) (layer : Nat) (x y : K) : Nat :=
  (cs.findIdx? fun c => decide (c.layer = layer ∧ x ≥ c.x0 ∧ x < c.x0 + c.length ∧ y ≥ c.y0 ∧ y < c.y0 + c.width)).getD 0

/-- The values of the cells of a layer: sources/stack_element.c:250-262, 427-439 (files), sources/inspection_point.c:1283-1310,
1343-1370 (messages). -/
def layerValues (cs : List (Cell K)) (layer : Nat) (x : List K) : List K :=
  (cs.zipIdx.filter fun p => decide (p.1.layer = layer)).map fun p => tAt x p.2

/-- `get_non_uniform_layer_cell_count`: sources/inspection_point.c:950-972. -/
def layerCount (cs : List (Cell K)) (layer : Nat) : Nat := cs.countP fun c => decide (c.layer = layer)

/-- What an inspection point of a non-uniform grid stores: include/inspection_point.h:60-140. `layer` is
`get_source_layer_offset (ipoint->StackElement)`; an element is given by the marks of its rectangles. Coolant and 3D points are not
modelled here. -/
inductive KindNU (K : Type) where
  | tcell (layer : Nat) (x y : K)
  | tflp (els : List (List Mark))
  | tflpel (el : List Mark)
  | tmap (layer : Nat)
  | pmap (layer : Nat)

/-- `generate_inspection_point_output` on a non-uniform grid, once the file is open: sources/inspection_point.c:620-800. -/
def renderNU (cs : List (Cell K)) (temps sources : List K) (time : K) (q : Out.Quantity) : KindNU K → Option (Out.Record K)
  | .tcell l x y => some (.line time [tAt temps (probeIndex cs l x y)])
  | .tflp els => some (.line time (els.filterMap (statNU temps q)))
  | .tflpel el => (statNU temps q el).map fun v => .line time [v]
  | .tmap l => some (.map [layerValues cs l temps])
  | .pmap l => some (.map [layerValues cs l sources])

end Verif.NU
