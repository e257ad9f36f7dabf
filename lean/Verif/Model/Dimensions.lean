import Mathlib.Algebra.Order.Floor.Semiring
import Mathlib.Algebra.Order.Field.Basic

/-! Model of `sources/dimensions.c`, of the `dimensions:` rule of `bison/stack_description_parser.y`, of
`align_tcell` (`sources/inspection_point.c`), of `get_cell_temperature` (`sources/thermal_data.c`) and of the geometry
part of `sources/heat_sink.c`.

`K` stands for the C type `double`: an ordered field, so every arithmetic operation is exact (DESIGN.md, trusted base).
Grid indices are `uint32_t` in C; they are natural numbers here and every place where C subtracts or multiplies is
reduced modulo 2^32 explicitly. -/

namespace Verif.Dim

/-- The modulus of `uint32_t` (`CellIndex_t`, include/types.h:213). -/
@[irreducible] def W : Nat := 4294967296

/-- `a - b` on `uint32_t`. -/
def sub32 (a b : Nat) : Nat := (a + W - b) % W

/-- `Dimensions_t`: include/dimensions.h:79-117 (cell), 164-208 (grid), 254-270 (chip). `nHeights`/`Heights` are one list. -/
structure Dims (K : Type) where
  firstWall : K
  wall : K
  channel : K
  lastWall : K
  width : K
  heights : List K
  nLayers : Nat
  nRows : Nat
  nCols : Nat
  nCells : Nat
  chipLength : K
  chipWidth : K

variable {K : Type} [Field K] [LinearOrder K]

/-- `last_row`, `last_column`, `last_layer`: sources/dimensions.c:446-475; unsigned subtraction. -/
def lastRow (d : Dims K) : Nat := sub32 d.nRows 1
def lastColumn (d : Dims K) : Nat := sub32 d.nCols 1
def lastLayer (d : Dims K) : Nat := sub32 d.nLayers 1

/-- `get_cell_length`: sources/dimensions.c:480-513. Out of range gives 0 (and a message). -/
def cellLength (d : Dims K) (c : Nat) : K :=
  if c > lastColumn d then 0
  else if c = 0 then d.firstWall
  else if c = lastColumn d then d.lastWall
  else if c % 2 = 1 then d.channel
  else d.wall

/-- `get_cell_width`: sources/dimensions.c:517-534. -/
def cellWidth (d : Dims K) (r : Nat) : K := if r > lastRow d then 0 else d.width

/-- `get_cell_height`: sources/dimensions.c:538-562. The test is `layer_index > NHeights`, so the index `NHeights` reads one
element past the vector: `none` is that undefined behaviour. A missing vector is the empty list. -/
def cellHeight (d : Dims K) (l : Nat) : Option K :=
  if d.heights = [] then some 0
  else if l > d.heights.length then some 0
  else d.heights[l]?

/-- `get_cell_center_x`: sources/dimensions.c:566-588. `column_index - 2` is computed on `uint32_t`. -/
def centerX (d : Dims K) (c : Nat) : K :=
  if c = 0 then d.firstWall / 2
  else if c = lastColumn d then
    d.firstWall + (d.channel / 2) * (c : K) + (d.wall / 2) * (sub32 c 2 : K) + d.lastWall / 2
  else d.firstWall + (d.channel / 2) * (c : K) + (d.wall / 2) * (sub32 c 1 : K)

/-- `get_cell_center_y`: sources/dimensions.c:592-600. -/
def centerY (d : Dims K) (r : Nat) : K := d.width / 2 + d.width * (r : K)

/-- `get_cell_location_x`: sources/dimensions.c:604-619. -/
def locX (d : Dims K) (c : Nat) : K :=
  if c = 0 then 0
  else d.firstWall + d.channel * ((c / 2 : Nat) : K) + d.wall * (((sub32 c 1) / 2 : Nat) : K)

/-- `get_cell_location_y`: sources/dimensions.c:623-630. -/
def locY (d : Dims K) (r : Nat) : K := d.width * (r : K)

/-- `get_layer_area`: sources/dimensions.c:669-672 (product of two `uint32_t`). -/
def layerArea (d : Dims K) : Nat := (d.nRows * d.nCols) % W

/-- `get_cell_offset_in_layer`: sources/dimensions.c:676-684. -/
def offInLayer (d : Dims K) (r c : Nat) : Nat := (r * d.nCols + c) % W

/-- `get_cell_offset_in_stack`: sources/dimensions.c:688-698. -/
def offInStack (d : Dims K) (l r c : Nat) : Nat := (l * layerArea d + offInLayer d r c) % W

/-! ### The `dimensions:` section of the stack file -/

/-- Walls and channel lengths of a 4RM microchannel, as stored by the parser in its global variables
(bison/stack_description_parser.y:505-535). -/
structure FourRM (K : Type) where
  channel : K
  wall : K
  first : K
  last : K

/-- Outcome of a parser action: accepted, rejected with a message, or undefined behaviour (conversion of a negative
floating point number to an unsigned integer). -/
inductive Outcome (α : Type) where
  | ok (a : α)
  | rejected
  | ub
deriving DecidableEq

/-- bison/stack_description_parser.y:1072-1146, grid part, for one chip (`chipL`, `chipW`), cell (`cellL`, `cellW`) and, if a
4RM channel was declared, its lengths. Conversions `double → uint32_t` truncate; the test `ratio - (int) ratio != 0`
accepts exactly the integers (in the range of `int`). The layers are added later by the `stack:` rule. -/
def parseDimensions [FloorSemiring K] [DecidableEq K] (chipL chipW cellL cellW : K) (ch : Option (FourRM K)) : Outcome (Dims K) :=
  let nr := ⌊chipW / cellW⌋₊
  match ch with
  | none =>
    .ok { firstWall := cellL, wall := cellL, channel := cellL, lastWall := cellL, width := cellW, heights := [],
          nLayers := 0, nRows := nr, nCols := ⌊chipL / cellL⌋₊, nCells := 0, chipLength := chipL, chipWidth := chipW }
  | some f =>
    let ratio := (chipL - f.first - f.last - f.channel) / (f.channel + f.wall)
    if 0 ≤ ratio then
      if ratio ≠ (⌊ratio⌋₊ : K) then .rejected
      else
        let nc := ⌊2 * ratio + 3⌋₊
        if nc % 2 = 0 then .rejected
        else if nc < 3 then .rejected
        else .ok { firstWall := f.first, wall := f.wall, channel := f.channel, lastWall := f.last, width := cellW,
                   heights := [], nLayers := 0, nRows := nr, nCols := nc, nCells := 0, chipLength := chipL,
                   chipWidth := chipW }
    else if -ratio ≠ (⌊-ratio⌋₊ : K) then .rejected
    else if ratio = -1 then .rejected     -- one column: "not enough columns"
    else .ub                              -- 2*ratio+3 is negative

/-! ### Temperature probes -/

/-- First index of `i, i+1, …` (at most `n` of them) accepted by `p`: the two search loops of `align_tcell`
(sources/inspection_point.c:284-311) keep the last index tried when none is accepted; the flag tells whether one was. -/
def search (p : Nat → Bool) : Nat → Nat → Nat × Bool
  | i, 0 => (i - 1, false)
  | i, n + 1 => if p i then (i, true) else search p (i + 1) n

/-- What `align_tcell` leaves in the inspection point: `RowIndex`, `ColumnIndex`, `ActualXval`, `ActualYval`. -/
structure Probe (K : Type) where
  row : Nat
  col : Nat
  actualX : K
  actualY : K

/-- The row loop of `align_tcell`: sources/inspection_point.c:284-296. -/
def alignRow (d : Dims K) (y : K) : Nat × Bool :=
  search (fun r => decide (locY d r ≤ y ∧ y < locY d (r + 1))) 0 (lastRow d + 1)

/-- The column loop of `align_tcell`: sources/inspection_point.c:300-311. -/
def alignCol (d : Dims K) (x : K) : Nat × Bool :=
  search (fun c => decide (locX d c ≤ x ∧ x < locX d (c + 1))) 0 (lastColumn d + 1)

/-- `align_tcell`: sources/inspection_point.c:274-314, on a freshly allocated inspection point, whose fields are zero
(sources/inspection_point.c:47-63); for a grid with at least one row and column. -/
def alignTcell (d : Dims K) (x y : K) : Probe K :=
  { row := (alignRow d y).1, col := (alignCol d x).1,
    actualX := if (alignCol d x).2 then locX d (alignCol d x).1 else 0,
    actualY := if (alignRow d y).2 then locY d (alignRow d y).1 else 0 }

/-- `get_cell_temperature`: sources/thermal_data.c:1588-1608. `none` = reading outside the temperature vector. -/
def getCellTemperature (d : Dims K) (temps : List K) (l r c : Nat) : Option K :=
  let id := offInStack d l r c
  if id ≥ d.nCells then some 0 else temps[id]?

/-! ### The heat spreader of a pluggable heat sink -/

/-- Geometry fields of `HeatSink_t`: include/heat_sink.h. -/
structure Spreader (K : Type) where
  length : K
  width : K
  height : K
  cellLength : K
  cellWidth : K
  nRows : Nat
  nCols : Nat
  rowsBorder : Nat
  colsBorder : Nat

/-- `initialize_heat_spreader`: sources/heat_sink.c:280-317, geometry part (loading the plug-in is not modelled). -/
def initSpreader [FloorSemiring K] (d : Dims K) (length width height : K) : Option (Spreader K) :=
  let borderLength := (length - d.chipLength) / 2
  let cl := d.chipLength / (d.nCols : K)
  let ncb := borderLength / cl
  if ncb < 0 then none
  else
    let borderWidth := (width - d.chipWidth) / 2
    let cw := d.chipWidth / (d.nRows : K)
    let nrb := borderWidth / cw
    if nrb < 0 then none
    else some { length := length, width := width, height := height, cellLength := cl, cellWidth := cw,
                colsBorder := ⌊ncb⌋₊, nCols := (2 * ⌊ncb⌋₊ + d.nCols) % W,
                rowsBorder := ⌊nrb⌋₊, nRows := (2 * ⌊nrb⌋₊ + d.nRows) % W }

/-- `get_spreader_cell_offset` (uniform grid): sources/dimensions.c:723-745. -/
def spreaderOffset (d : Dims K) (s : Spreader K) (r c : Nat) : Nat :=
  (d.nLayers * d.nRows * d.nCols + r * s.nCols + c) % W

/-- `get_spreader_cell_offset_from_layer_coordinates`: sources/dimensions.c:749-762. -/
def spreaderOffsetFromLayer (d : Dims K) (s : Spreader K) (r c : Nat) : Nat :=
  spreaderOffset d s ((r + s.rowsBorder) % W) ((c + s.colsBorder) % W)

/-- `has_layer_underneath`: sources/dimensions.c:766-783. -/
def hasLayerUnderneath (d : Dims K) (s : Spreader K) (r c : Nat) : Bool :=
  decide (r ≥ s.rowsBorder ∧ r < (s.rowsBorder + d.nRows) % W ∧ c ≥ s.colsBorder ∧ c < (s.colsBorder + d.nCols) % W)

/-- `get_layer_cell_offset_from_spreader_coordinates`: sources/dimensions.c:785-801. -/
def layerOffsetFromSpreader (d : Dims K) (s : Spreader K) (l r c : Nat) : Nat :=
  offInStack d l (sub32 r s.rowsBorder) (sub32 c s.colsBorder)

/-- Cells of the heat spreader, if any: bison/stack_description_parser.y:1333-1337. -/
def spreaderCells : Option (Spreader K) → Nat
  | none => 0
  | some s => s.nRows * s.nCols

/-- The cell count computed by the `stack:` rule, with its limit of `INT32_MAX`:
bison/stack_description_parser.y:1325-1350 (computed on 64 bits). -/
def countCells (d : Dims K) (s : Option (Spreader K)) : Option Nat :=
  let n := d.nLayers * d.nRows * d.nCols + spreaderCells s
  if n > 2147483647 then none else some n

end Verif.Dim
