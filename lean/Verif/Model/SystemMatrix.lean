import Verif.Model.ThermalGrid

/-! Model of `sources/system_matrix.c`, uniform grid: the functions `add_*_column` and `fill_system_matrix`.

Each `add_*_column` appends to the arrays `RowIndices` and `Values` the coefficients of one column and advances the
column pointer by their number. Here such a function returns the list of those coefficients, in the order in which C
writes them; a row is given by the coordinates of its cell and turned into a number by `offset` when the arrays are put
together in `fillMatrix`. -/

namespace Verif.SM
open Verif.Dim Verif.TG

/-- A thermal cell: of the stack, or of the heat spreader. -/
inductive Cell where
  | box (l r c : Nat)
  | spr (r c : Nat)
deriving DecidableEq, Repr

/-- Part of `Analysis_t` used here: include/analysis.h:64-93. -/
structure Ana (K : Type) where
  transient : Bool
  stepTime : K

variable {K : Type} [Field K] [LinearOrder K]

/-- Row of a cell: `get_cell_offset_in_stack` and `get_spreader_cell_offset`, sources/dimensions.c:688-745. -/
def offset (d : Dims K) (s : Option (Spreader K)) : Cell → Nat
  | .box l r c => offInStack d l r c
  | .spr r c => match s with
    | some s => spreaderOffset d s r c
    | Option.none => 0

/-- One off-diagonal coefficient: the row, the value stored and what is added to `diagonal_value`. -/
structure Ent (K : Type) where
  cell : Cell
  val : K
  contrib : K

/-- `*Values++ = -conductance ; diagonal_value += conductance`. -/
def link (p : Cell) (g : K) : Ent K := ⟨p, -g, g⟩
/-- `*Values++ = v`, not counted in the diagonal (convective terms). -/
def flow (p : Cell) (v : K) : Ent K := ⟨p, v, 0⟩

/-- A column: the coefficients before the diagonal, the diagonal, the coefficients after it;
`*diagonal_pointer = base + diagonal_value`. -/
def assemble (self : Cell) (base : K) (lo hi : List (Ent K)) : List (Cell × K) :=
  lo.map (fun e => (e.cell, e.val)) ++ [(self, base + ((lo ++ hi).map (·.contrib)).sum)] ++ hi.map (fun e => (e.cell, e.val))

/-- The storage term of the diagonal (for instance sources/system_matrix.c:873-884). -/
def storage (a : Ana K) (cap : K) : K := if a.transient then cap / a.stepTime else 0

/-- Optional coefficient. -/
def opt (b : Prop) [Decidable b] (e : Ent K) : List (Ent K) := if b then [e] else []

/-- Bottom coefficient of a solid cell: sources/system_matrix.c:772-806. -/
def solidBottom (g : TGrid K) (d : Dims K) (l r c : Nat) : K :=
  if gTop g d (l - 1) r c = 0 then gBottom g d l r c else par (gBottom g d l r c) (gTop g d (l - 1) r c)
/-- Top coefficient of a solid cell: sources/system_matrix.c:977-1008. -/
def solidTop (g : TGrid K) (d : Dims K) (l r c : Nat) : K :=
  if gBottom g d (l + 1) r c = 0 then gTop g d l r c else par (gTop g d l r c) (gBottom g d (l + 1) r c)

/-- The part of the diagonal of a solid cell that connects it to the ambient: sources/system_matrix.c:886-900. -/
def ambientTerm (g : TGrid K) (d : Dims K) (l r c : Nat) : K :=
  match typeAt g l with
  | .solidAmb | .sourceAmb => gTop g d l r c
  | .solidPcb | .sourcePcb => gBottom g d l r c
  | _ => 0

/-- Coefficient towards the heat spreader: sources/system_matrix.c:1012-1038 and 1950-1978. -/
def spreaderLink (g : TGrid K) (d : Dims K) (l r c : Nat) : K :=
  match g.top with
  | some (.pluggable s m) => par (sprTB s m) (gTop g d l r c)
  | _ => 0

/-- Is the layer connected to the heat spreader? -/
def isSpr : LType → Bool
  | .solidSpr | .sourceSpr => true
  | _ => false

/-- Spreader cell above a cell of the top layer: `get_spreader_cell_offset_from_layer_coordinates`,
sources/dimensions.c:749-762. -/
def aboveCell (g : TGrid K) (r c : Nat) : Cell :=
  match spreaderOf g with
  | some s => .spr ((r + s.rowsBorder) % W) ((c + s.colsBorder) % W)
  | Option.none => .spr r c

/-- `add_solid_column`, coefficients before the diagonal: sources/system_matrix.c:772-870. -/
def solidLo (g : TGrid K) (d : Dims K) (l r c : Nat) : List (Ent K) :=
  opt (l ≠ 0) (link (.box (l - 1) r c) (solidBottom g d l r c)) ++
  opt (r ≠ 0) (link (.box l (r - 1) c) (par (gSouth g d l r c) (gNorth g d l (r - 1) c))) ++
  opt (c ≠ 0) (link (.box l r (c - 1)) (par (gWest g d l r c) (gEast g d l r (c - 1))))

/-- `add_solid_column`, coefficients after the diagonal: sources/system_matrix.c:915-1040. -/
def solidHi (g : TGrid K) (d : Dims K) (l r c : Nat) : List (Ent K) :=
  opt (c ≠ lastColumn d) (link (.box l r (c + 1)) (par (gEast g d l r c) (gWest g d l r (c + 1)))) ++
  opt (r ≠ lastRow d) (link (.box l (r + 1) c) (par (gNorth g d l r c) (gSouth g d l (r + 1) c))) ++
  opt (l ≠ lastLayer d) (link (.box (l + 1) r c) (solidTop g d l r c)) ++
  opt (isSpr (typeAt g l) = true) (link (aboveCell g r c) (spreaderLink g d l r c))

/-- `add_solid_column`: sources/system_matrix.c:743-1057. -/
def solidColumn (g : TGrid K) (a : Ana K) (d : Dims K) (l r c : Nat) : List (Cell × K) :=
  assemble (.box l r c) (storage a (capacity g d l r c) + ambientTerm g d l r c) (solidLo g d l r c) (solidHi g d l r c)

/-- `add_liquid_column_4rm`: sources/system_matrix.c:1061-1289. The south coefficient is the north conductance (+C) of the
cell, the north coefficient its south conductance (-C); the inlet and outlet rows add C to the diagonal. -/
def liquid4Lo (g : TGrid K) (d : Dims K) (l r c : Nat) : List (Ent K) :=
  opt (l ≠ 0) (link (.box (l - 1) r c) (par (gBottom g d l r c) (gTop g d (l - 1) r c))) ++
  opt (r ≠ 0) (flow (.box l (r - 1) c) (gNorth g d l r c)) ++
  opt (c ≠ 0) (link (.box l r (c - 1)) (par (gWest g d l r c) (gEast g d l r (c - 1))))

def liquid4Hi (g : TGrid K) (d : Dims K) (l r c : Nat) : List (Ent K) :=
  opt (c ≠ lastColumn d) (link (.box l r (c + 1)) (par (gEast g d l r c) (gWest g d l r (c + 1)))) ++
  opt (r ≠ lastRow d) (flow (.box l (r + 1) c) (gSouth g d l r c)) ++
  opt (l ≠ lastLayer d) (link (.box (l + 1) r c) (par (gTop g d l r c) (gBottom g d (l + 1) r c)))

/-- The inlet/outlet term of the diagonal of a coolant cell: sources/system_matrix.c:1270-1276, 1440-1446. -/
def portTerm (g : TGrid K) (d : Dims K) (l r c : Nat) : K :=
  if r = 0 ∨ r = lastRow d then gNorth g d l r c else 0

def liquid4Column (g : TGrid K) (a : Ana K) (d : Dims K) (l r c : Nat) : List (Cell × K) :=
  assemble (.box l r c) (storage a (capacity g d l r c) + portTerm g d l r c) (liquid4Lo g d l r c) (liquid4Hi g d l r c)

/-- `add_liquid_column_2rm`: sources/system_matrix.c:1293-1457. -/
def liquid2Lo (g : TGrid K) (d : Dims K) (l r c : Nat) : List (Ent K) :=
  opt (l ≠ 0) (link (.box (l - 2) r c) (gBottom g d l r c)) ++
  opt (r ≠ 0) (flow (.box l (r - 1) c) (gNorth g d l r c))

def liquid2Hi (g : TGrid K) (d : Dims K) (l r c : Nat) : List (Ent K) :=
  opt (r ≠ lastRow d) (flow (.box l (r + 1) c) (gSouth g d l r c)) ++
  opt (l ≠ lastLayer d) (link (.box (l + 1) r c) (gTop g d l r c))

def liquid2Column (g : TGrid K) (a : Ana K) (d : Dims K) (l r c : Nat) : List (Cell × K) :=
  assemble (.box l r c) (storage a (capacity g d l r c) + portTerm g d l r c) (liquid2Lo g d l r c) (liquid2Hi g d l r c)

/-- `add_bottom_wall_column_2rm`: sources/system_matrix.c:1461-1600. -/
def bottomWallLo (g : TGrid K) (d : Dims K) (l r c : Nat) : List (Ent K) :=
  opt (l ≠ 0) (link (.box (l - 1) r c) (gTop g d (l - 1) r c))

def bottomWallHi (g : TGrid K) (d : Dims K) (l r c : Nat) : List (Ent K) :=
  opt (l ≠ lastLayer d) (link (.box (l + 1) r c) (gTop g d (l + 1) r c)) ++
  opt (l ≠ lastLayer d) (link (.box (l + 2) r c) (gBottom g d (l + 2) r c))

def bottomWallColumn (g : TGrid K) (a : Ana K) (d : Dims K) (l r c : Nat) : List (Cell × K) :=
  assemble (.box l r c) (storage a (capacity g d l r c)) (bottomWallLo g d l r c) (bottomWallHi g d l r c)

/-- `add_top_wall_column_2rm`: sources/system_matrix.c:1605-1745. -/
def topWallLo (g : TGrid K) (d : Dims K) (l r c : Nat) : List (Ent K) :=
  opt (l ≠ 0) (link (.box (l - 2) r c) (gTop g d (l - 2) r c)) ++
  opt (l ≠ 0) (link (.box (l - 1) r c) (gTop g d (l - 1) r c))

def topWallHi (g : TGrid K) (d : Dims K) (l r c : Nat) : List (Ent K) :=
  opt (l ≠ lastLayer d) (link (.box (l + 1) r c) (gBottom g d (l + 1) r c))

def topWallColumn (g : TGrid K) (a : Ana K) (d : Dims K) (l r c : Nat) : List (Cell × K) :=
  assemble (.box l r c) (storage a (capacity g d l r c)) (topWallLo g d l r c) (topWallHi g d l r c)

/-- `thermal_grid->Channel->ChannelModel`. -/
def chModel (g : TGrid K) : ChModel := (g.channel.map (·.model)).getD .none

/-- `add_virtual_wall_column_2rm`: sources/system_matrix.c:1750-1918. -/
def vwallLo (g : TGrid K) (d : Dims K) (l r c : Nat) : List (Ent K) :=
  opt (l ≠ 0) (link (.box (l - 1) r c) (gBottom g d l r c)) ++
  opt (chModel g = .mc2rm ∧ r ≠ 0) (link (.box l (r - 1) c) (par (gSouth g d l r c) (gNorth g d l r c)))

def vwallHi (g : TGrid K) (d : Dims K) (l r c : Nat) : List (Ent K) :=
  opt (chModel g = .mc2rm ∧ r ≠ lastRow d) (link (.box l (r + 1) c) (par (gNorth g d l r c) (gSouth g d l r c))) ++
  opt (l ≠ lastLayer d) (link (.box (l + 2) r c) (gTop g d l r c))

def vwallColumn (g : TGrid K) (a : Ana K) (d : Dims K) (l r c : Nat) : List (Cell × K) :=
  assemble (.box l r c) (storage a (capacity g d l r c)) (vwallLo g d l r c) (vwallHi g d l r c)

/-- `add_spreader_column`: sources/system_matrix.c:1922-2120. -/
def sprLo (g : TGrid K) (d : Dims K) (s : Spreader K) (m : Material K) (r c : Nat) : List (Ent K) :=
  opt (hasLayerUnderneath d s r c = true)
    (link (.box (lastLayer d) (sub32 r s.rowsBorder) (sub32 c s.colsBorder))
      (par (sprTB s m) (gTop g d (lastLayer d) (sub32 r s.rowsBorder) (sub32 c s.colsBorder)))) ++
  opt (r ≠ 0) (link (.spr (r - 1) c) (par (sprNS s m) (sprNS s m))) ++
  opt (c ≠ 0) (link (.spr r (c - 1)) (par (sprEW s m) (sprEW s m)))

def sprHi (s : Spreader K) (m : Material K) (r c : Nat) : List (Ent K) :=
  opt (c ≠ sub32 s.nCols 1) (link (.spr r (c + 1)) (par (sprEW s m) (sprEW s m))) ++
  opt (r ≠ sub32 s.nRows 1) (link (.spr (r + 1) c) (par (sprNS s m) (sprNS s m)))

def spreaderColumn (g : TGrid K) (a : Ana K) (d : Dims K) (s : Spreader K) (m : Material K) (r c : Nat) : List (Cell × K) :=
  assemble (.spr r c) (storage a (sprCapacity s m)) (sprLo g d s m r c) (sprHi s m r c)

/-- The column of one cell of a layer: the `switch` of `fill_system_matrix`, sources/system_matrix.c:2160-2300. -/
def boxColumn (g : TGrid K) (a : Ana K) (d : Dims K) (l r c : Nat) : List (Cell × K) :=
  match typeAt g l with
  | .solid | .source | .solidAmb | .sourceAmb | .solidSpr | .sourceSpr | .solidPcb | .sourcePcb => solidColumn g a d l r c
  | .ch4rm =>
    if (if chModel g = .mc4rm then isChannelCol c else true) then liquid4Column g a d l r c else solidColumn g a d l r c
  | .ch2rm | .pfInline | .pfStag => liquid2Column g a d l r c
  | .vwallCh | .vwallPf => vwallColumn g a d l r c
  | .topWall => topWallColumn g a d l r c
  | .bottomWall => bottomWallColumn g a d l r c
  | .none => []

/-- The columns of one layer; a layer of unset type is skipped with a message. -/
def layerColumns (g : TGrid K) (a : Ana K) (d : Dims K) (l : Nat) : List (List (Cell × K)) :=
  if typeAt g l = .none then []
  else (List.range (lastRow d + 1)).flatMap fun r => (List.range (lastColumn d + 1)).map fun c => boxColumn g a d l r c

/-- The columns of the heat spreader: sources/system_matrix.c:2303-2315. -/
def spreaderColumns (g : TGrid K) (a : Ana K) (d : Dims K) : List (List (Cell × K)) :=
  match g.top with
  | some (.pluggable s m) =>
    (List.range s.nRows).flatMap fun r => (List.range s.nCols).map fun c => spreaderColumn g a d s m r c
  | _ => []

/-- All the columns in the order in which `fill_system_matrix` adds them: sources/system_matrix.c:2125-2330. -/
def columns (g : TGrid K) (a : Ana K) (d : Dims K) : List (List (Cell × K)) :=
  ((List.range g.nLayers).flatMap fun l => layerColumns g a d l) ++ spreaderColumns g a d

/-- The three arrays of a compressed-column matrix (`SystemMatrix_t`: include/system_matrix.h:72-96). -/
structure Csc (K : Type) where
  colPtr : List Nat
  rowIdx : List Nat
  vals : List K

/-- The arrays left by `fill_system_matrix`: sources/system_matrix.c:2125-2330. Column pointers start at 0 and each column
advances them by the number of coefficients it writes. -/
def fillMatrix (g : TGrid K) (a : Ana K) (d : Dims K) : Csc K :=
  { colPtr := (columns g a d).scanl (fun p col => p + col.length) 0
    rowIdx := (columns g a d).flatMap fun col => col.map fun e => offset d (spreaderOf g) e.1
    vals := (columns g a d).flatMap fun col => col.map (·.2) }

/-- `compute_number_of_connections`: sources/dimensions.c:324-432, uniform grid, computed on `uint32_t`. `nch` is the number
of channel elements of the stack, `model` their model. -/
def numConnections (d : Dims K) (model : ChModel) (nch : Nat) (s : Option (Spreader K)) : Nat :=
  let L := d.nLayers
  let R := d.nRows
  let C := d.nCols
  let spr := match s with
    | some s => s.nRows * s.nCols + 2 * (s.nRows - 1) * s.nCols + 2 * s.nRows * (s.nCols - 1) + 2 * R * C
    | Option.none => 0
  match model with
  | .none | .mc4rm => (L * R * C + 2 * (L - 1) * R * C + 2 * L * (R - 1) * C + 2 * L * R * (C - 1) + spr) % W
  | _ =>
    let chL := 4 * nch
    let ex := L - chL
    let tmp := if model = .mc2rm then 4 else 2
    (ex * R * C + 2 * ex * R * C + 2 * ex * (R - 1) * C + 2 * ex * R * (C - 1)
      + chL * R * C + 2 * (chL + nch) * R * C + tmp * nch * (R - 1) * C + spr) % W

end Verif.SM
