import Verif.Model.ThermalGrid

/-! Model of `sources/ic_element.c`, `sources/floorplan_element.c`, `sources/floorplan_matrix.c`, `sources/floorplan.c`
(uniform grid) and of the rules of `bison/floorplan_parser.y` that build floorplan elements.

Numbers are elements of an ordered field instead of `double`. The queue of power values of an element
(`PowersQueue_t`) is a list, the next value first: that the ring buffer behaves so is C01. -/

namespace Verif.Flp
open Verif.Dim Verif.TG

variable {K : Type} [Field K] [LinearOrder K]

/-- EPSILON: include/macros.h. -/
def epsilon : K := 1 / 1000000

/-- `ICElement_t`: include/ic_element.h:65-110 (rectangle and cell indices). -/
structure ICEl (K : Type) where
  rect : Rect K
  swRow : Nat
  neRow : Nat
  swCol : Nat
  neCol : Nat

/-- `check_location`: sources/ic_element.c:219-228. True: outside the chip. -/
def checkLocation (d : Dims K) (e : Rect K) : Bool :=
  decide (e.x < 0 ∨ e.x + e.length - d.chipLength > epsilon ∨ e.y < 0 ∨ e.y + e.width - d.chipWidth > epsilon)

/-- `check_intersection` for two different elements (the function returns false if the two pointers are equal):
sources/ic_element.c:178-216. -/
def checkIntersection (a b : Rect K) : Bool :=
  let x1 := a.x - b.x - b.length
  let y1 := a.y - b.y - b.width
  let x2 := a.x + a.length - b.x
  let y2 := a.y + a.width - b.y
  decide (epsilon < |x1 * x2| ∧ epsilon < |y1 * y2| ∧ x1 * x2 < 0 ∧ y1 * y2 < 0)

open Classical in
/-- `while (! stop (i)) i++` from `start`; `none` = the loop does not end. -/
noncomputable def scan (stop : Nat → Prop) (start : Nat) : Option Nat :=
  if h : ∃ n, start ≤ n ∧ stop n then some (Nat.find h) else none

/-- One direction of `align_to_grid`: sources/ic_element.c:232-274. `loc i` is the location of the i-th cell, `lo` and `hi` the
borders of the element. The first loop leaves in `sw` the first index with `loc (sw + 1) > lo`. Then the index is decremented
(on `uint32_t`, 0 becomes 2^32-1) and incremented while `loc (index + 1) < hi`: with m = index + 1 this is the first m ≥ sw with
`loc m ≥ hi`. The indices are not reduced modulo 2^32 during the two loops. -/
noncomputable def alignAxis (loc : Nat → K) (lo hi : K) : Option (Nat × Nat) :=
  (scan (fun i => lo < loc (i + 1)) 0).bind fun sw =>
    (scan (fun m => hi ≤ loc m) sw).map fun m => (sw, sub32 m 1)

/-- `align_to_grid`: sources/ic_element.c:232-274. -/
noncomputable def alignToGrid (d : Dims K) (e : Rect K) : Option (ICEl K) :=
  (alignAxis (locX d) e.x (e.x + e.length)).bind fun cs =>
    (alignAxis (locY d) e.y (e.y + e.width)).map fun rs =>
      { rect := e, swRow := rs.1, neRow := rs.2, swCol := cs.1, neCol := cs.2 }

/-- `FloorplanElement_t`: include/floorplan_element.h:64-90. -/
structure FlpEl (K : Type) where
  name : String
  area : K
  ics : List (ICEl K)
  powers : List K

/-- What the parser reads for one element: bison/floorplan_parser.y:172-180, 288-462. -/
structure RawEl (K : Type) where
  name : String
  rects : List (Rect K)
  powers : List K

/-- The rules `ic_elements`, `ic_element` and `floorplan_element`: bison/floorplan_parser.y:172-287, 289-462. Each rectangle is aligned,
then its location is checked; the area is the sum of the areas of the rectangles. The checks on names and intersections are
commented out in the source. `none`: the file is refused (or the alignment does not end). -/
noncomputable def parseElement (d : Dims K) (r : RawEl K) : Option (FlpEl K) :=
  if r.rects = [] then none
  else (r.rects.mapM (alignToGrid d)).bind fun ics =>
    if r.rects.any (checkLocation d) then none
    else some { name := r.name, area := (r.rects.map fun e => e.length * e.width).sum, ics := ics, powers := r.powers }

/-- The rule `floorplan_file`: bison/floorplan_parser.y:125-170 (at least one element). -/
noncomputable def parseFloorplan (d : Dims K) (rs : List (RawEl K)) : Option (List (FlpEl K)) :=
  if rs = [] then none else rs.mapM (parseElement d)

/-! ### The surface coefficients -/

/-- The column loop of `floorplan_matrix_fill`: sources/floorplan_matrix.c:190-212. `n` is the number of columns still to visit, `x` the
left border of the part of the element not yet covered. -/
def fillColumns (d : Dims K) (ic : ICEl K) (area width : K) (row : Nat) : Nat → Nat → K → List (Nat × K)
  | 0, _, _ => []
  | n + 1, col, x =>
    let length := if col < ic.neCol then locX d (col + 1) - x else ic.rect.x + ic.rect.length - x
    (offInLayer d row col, (length * width) / area) :: fillColumns d ic area width row n (col + 1) (x + length)

/-- The row loop of `floorplan_matrix_fill`: sources/floorplan_matrix.c:174-215. -/
def fillRows (d : Dims K) (ic : ICEl K) (area : K) : Nat → Nat → K → List (Nat × K)
  | 0, _, _ => []
  | n + 1, row, y =>
    let width := if row < ic.neRow then locY d (row + 1) - y else ic.rect.y + ic.rect.width - y
    fillColumns d ic area width row (ic.neCol + 1 - ic.swCol) ic.swCol ic.rect.x ++ fillRows d ic area n (row + 1) (y + width)

/-- One column of the floorplan matrix (row index, value): sources/floorplan_matrix.c:145-223. -/
def surface (d : Dims K) (el : FlpEl K) : List (Nat × K) :=
  el.ics.flatMap fun ic => fillRows d ic el.area (ic.neRow + 1 - ic.swRow) ic.swRow ic.rect.y

/-- Add `v` to the `i`-th component; writing outside the vector would be undefined behaviour, it is ignored here. -/
def addAt (x : List K) (i : Nat) (v : K) : List K := x.modify i (· + v)

/-- `floorplan_matrix_multiply` on one column: sources/floorplan_matrix.c:244-251. `off` is the position of the layer in the source
vector. -/
def multiplyColumn (off : Nat) (b : K) (col : List (Nat × K)) (x : List K) : List K :=
  if b = 0 then x else col.foldl (fun x e => addAt x (off + e.1) (b * e.2)) x

/-- `floorplan_matrix_multiply`: sources/floorplan_matrix.c:227-255. -/
def multiply (d : Dims K) (off : Nat) (els : List (FlpEl K)) (bs : List K) (x : List K) : List K :=
  (els.zip bs).foldl (fun x p => multiplyColumn off p.2 (surface d p.1) x) x

/-- The loop of `fill_sources_floorplan`: sources/floorplan.c:273-284. Takes one power value from each element; stops at the first
element that has none left, the values already taken being lost. -/
def takePowers : List (FlpEl K) → List (FlpEl K) × Option (List K)
  | [] => ([], some [])
  | e :: es =>
    match e.powers with
    | [] => (e :: es, none)
    | p :: ps => ({ e with powers := ps } :: (takePowers es).1, (takePowers es).2.map (p :: ·))

/-- `fill_sources_floorplan`: sources/floorplan.c:267-293. -/
def fillSourcesFlp (d : Dims K) (off : Nat) (els : List (FlpEl K)) (x : List K) : List (FlpEl K) × List K × Bool :=
  match takePowers els with
  | (els', none) => (els', x, false)
  | (els', some bs) => (els', multiply d off els bs x, true)

/-- `insert_power_values_floorplan_element` (sources/floorplan_element.c:175-188) over the elements of a floorplan
(sources/floorplan.c:297-321). `vs` are the values still in the queue of the request. -/
def insertPowersFlp : List (FlpEl K) → List K → List (FlpEl K) × List K × Bool
  | [], vs => ([], vs, true)
  | e :: es, [] => (e :: es, [], false)
  | e :: es, v :: vs =>
    let r := insertPowersFlp es vs
    ({ e with powers := e.powers ++ [v] } :: r.1, r.2.1, r.2.2)

/-! ### Temperatures of an element -/

/-- The cells visited by the loops over an IC element: sources/ic_element.c:308-319, 356-367, 400-412. -/
def icCells (ic : ICEl K) : List (Nat × Nat) :=
  (List.range' ic.swRow (ic.neRow + 1 - ic.swRow)).flatMap fun r =>
    (List.range' ic.swCol (ic.neCol + 1 - ic.swCol)).map fun c => (r, c)

/-- `*(temperatures + get_cell_offset_in_layer (r, c))`; `temps` starts at the layer of the element. -/
def tempAt (d : Dims K) (temps : List K) (r c : Nat) : K := temps.getD (offInLayer d r c) 0

/-- `get_max_temperature_ic_element`: sources/ic_element.c:278-322. -/
def maxIC (d : Dims K) (temps : List K) (ic : ICEl K) : K :=
  (icCells ic).foldl (fun m p => max m (tempAt d temps p.1 p.2)) (tempAt d temps ic.swRow ic.swCol)
/-- `get_min_temperature_ic_element`: sources/ic_element.c:326-374. -/
def minIC (d : Dims K) (temps : List K) (ic : ICEl K) : K :=
  (icCells ic).foldl (fun m p => min m (tempAt d temps p.1 p.2)) (tempAt d temps ic.swRow ic.swCol)
/-- `get_avg_temperature_ic_element`: sources/ic_element.c:378-415. -/
def avgIC (d : Dims K) (temps : List K) (ic : ICEl K) : K :=
  (icCells ic).foldl (fun s p => s + tempAt d temps p.1 p.2) 0 / ((icCells ic).length : K)

/-- `get_max_temperature_floorplan_element`: sources/floorplan_element.c:192-226. -/
def maxEl (d : Dims K) (temps : List K) (el : FlpEl K) : K :=
  match el.ics with
  | [] => 0
  | ic :: ics => ics.foldl (fun m i => if maxIC d temps i > m then maxIC d temps i else m) (maxIC d temps ic)
/-- `get_min_temperature_floorplan_element`: sources/floorplan_element.c:230-264. -/
def minEl (d : Dims K) (temps : List K) (el : FlpEl K) : K :=
  match el.ics with
  | [] => 0
  | ic :: ics => ics.foldl (fun m i => if minIC d temps i < m then minIC d temps i else m) (minIC d temps ic)
/-- `get_avg_temperature_floorplan_element`: sources/floorplan_element.c:268-290. -/
def avgEl (d : Dims K) (temps : List K) (el : FlpEl K) : K :=
  el.ics.foldl (fun s i => s + avgIC d temps i) 0 / (el.ics.length : K)
/-- `get_gradient_temperature_floorplan_element`: sources/floorplan_element.c:294-331. -/
def gradientEl (d : Dims K) (temps : List K) (el : FlpEl K) : K :=
  match el.ics with
  | [] => 0
  | ic :: ics =>
    ics.foldl (fun m i => max m (maxIC d temps i)) (maxIC d temps ic) - ics.foldl (fun m i => min m (minIC d temps i)) (minIC d temps ic)

end Verif.Flp
