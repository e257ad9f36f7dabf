import Verif.Model.Dimensions

/-! Model of `sources/thermal_grid.c` (capacities and conductances of the cells), `sources/layer.c` and
`sources/material_element.c` (material of a cell), `sources/channel.c` (convective term) and of the spreader part of
`sources/heat_sink.c`. Filling the grid from the stack elements is in `Verif.Model.Stack`. -/

namespace Verif.TG
open Verif.Dim

/-- `StackLayerType_t`: include/types.h:246-318. -/
inductive LType where
  | none | solid | source
  | solidAmb | sourceAmb | solidSpr | sourceSpr | solidPcb | sourcePcb
  | ch4rm | ch2rm | pfInline | pfStag | vwallCh | vwallPf | topWall | bottomWall
deriving DecidableEq, Repr

/-- `ChannelModel_t`: include/types.h (TDICE_CHANNEL_MODEL_*). -/
inductive ChModel where
  | none | mc4rm | mc2rm | pfInline | pfStag
deriving DecidableEq, Repr

/-- `Material_t`: include/material.h:67-88 (without the name). -/
structure Material (K : Type) where
  kx : K
  ky : K
  kz : K
  vhc : K

/-- Rectangle part of `ICElement_t`: include/ic_element.h:65-81. -/
structure Rect (K : Type) where
  x : K
  y : K
  length : K
  width : K

/-- `Layer_t`: include/layer.h:71-100; the layout is the list of `MaterialElement_t` (include/material_element.h:68-82). -/
structure Layer (K : Type) where
  height : K
  mat : Material K
  layout : List (Material K × List (Rect K))

/-- `Coolant_t`: include/coolant.h:60-99. -/
structure Coolant (K : Type) where
  htcSide : K
  htcTop : K
  htcBottom : K
  vhc : K
  flowRate : K
  darcy : K
  tIn : K

/-- `Channel_t`: include/channel.h:70-112. The two functions stand for the macros EFFECTIVE_HTC_PF_INLINE and
EFFECTIVE_HTC_PF_STAGGERED (include/macros.h), which use the C library function `pow`: they are parameters. -/
structure Channel (K : Type) where
  model : ChModel
  height : K
  length : K
  porosity : K
  nChannels : Nat
  wallMat : Material K
  coolant : Coolant K
  effInline : K → K
  effStag : K → K

/-- `HeatSink_t` (include/heat_sink.h:68-139): a conventional sink has a heat transfer coefficient and an ambient
temperature. -/
structure Sink (K : Type) where
  htc : K
  tAmb : K

/-- Top sink: conventional, or the heat spreader of a pluggable sink. -/
inductive TopSink (K : Type) where
  | ambient (s : Sink K)
  | pluggable (s : Spreader K) (m : Material K)

/-- `ThermalGrid_t`: include/thermal_grid.h. `types` is LayersTypeProfile, `layers` LayersProfile. -/
structure TGrid (K : Type) where
  nLayers : Nat
  types : List LType
  layers : List (Layer K)
  channel : Option (Channel K)
  top : Option (TopSink K)
  bottom : Option (Sink K)

variable {K : Type} [Field K] [LinearOrder K]

/-- `LayersTypeProfile [l]`. An index outside the vector would be undefined behaviour; it reads `none` here. -/
def typeAt (g : TGrid K) (l : Nat) : LType := g.types.getD l .none

/-- The spreader of a pluggable top sink. -/
def spreaderOf (g : TGrid K) : Option (Spreader K) :=
  match g.top with
  | some (.pluggable s _) => some s
  | _ => Option.none

/-- `ic_element_has_center`: sources/ic_element.c:163-174. -/
def hasCenter (e : Rect K) (x y : K) : Bool :=
  decide (x ≥ e.x ∧ y ≥ e.y ∧ x < e.x + e.length ∧ y < e.y + e.width)

/-- `get_material_at_location`: sources/material_element.c:160-186. -/
def materialAt (m : Material K × List (Rect K)) (d : Dims K) (r c : Nat) : Option (Material K) :=
  if m.2.any (fun e => hasCenter e (centerX d c) (centerY d r)) then some m.1 else Option.none

/-- The search common to `get_thermal_conductivity` and `get_volumetric_heat_capacity`: sources/layer.c:186-226, 248-270. -/
def cellMaterial (ly : Layer K) (d : Dims K) (r c : Nat) : Material K :=
  (ly.layout.findSome? fun m => materialAt m d r c).getD ly.mat

/-- The layer `LayersProfile + l`; outside the vector undefined behaviour, here a layer of zeroes. -/
def layerAt (g : TGrid K) (l : Nat) : Layer K := g.layers.getD l ⟨0, ⟨0, 0, 0, 0⟩, []⟩

/-- `get_thermal_conductivity (tgrid->LayersProfile + l, r, c, dimensions, k)` for k = 0, 1, 2: sources/layer.c:186-226. -/
def condX (g : TGrid K) (d : Dims K) (l r c : Nat) : K := (cellMaterial (layerAt g l) d r c).kx
def condY (g : TGrid K) (d : Dims K) (l r c : Nat) : K := (cellMaterial (layerAt g l) d r c).ky
def condZ (g : TGrid K) (d : Dims K) (l r c : Nat) : K := (cellMaterial (layerAt g l) d r c).kz
/-- `get_volumetric_heat_capacity`: sources/layer.c:248-270. -/
def heatCap (g : TGrid K) (d : Dims K) (l r c : Nat) : K := (cellMaterial (layerAt g l) d r c).vhc

/-- `get_cell_height` as a number (see `Dim.cellHeight` for the reads outside the vector). -/
def height (d : Dims K) (l : Nat) : K := (cellHeight d l).getD 0

/-- Fields of `tgrid->Channel`; dereferencing a null channel cannot happen in a filled grid, 0 here. -/
def chan (g : TGrid K) (f : Channel K → K) : K := (g.channel.map f).getD 0
/-- `tgrid->TopHeatSink->AmbientHTC`, `tgrid->BottomHeatSink->AmbientHTC`. -/
def topHtc (g : TGrid K) : K :=
  match g.top with
  | some (.ambient s) => s.htc
  | _ => 0
def bottomHtc (g : TGrid K) : K := (g.bottom.map (·.htc)).getD 0

/-- IS_CHANNEL_COLUMN for the 4RM model: include/macros.h. -/
def isChannelCol (c : Nat) : Bool := c % 2 = 1

/-- PARALLEL: include/macros.h. (In C a zero denominator gives NaN; in a field it gives 0.) -/
def par (x y : K) : K := (x * y) / (x + y)

/-- `get_convective_term`: sources/channel.c:223-280 with the macros CCONV_* of include/macros.h. -/
def convective (g : TGrid K) (d : Dims K) (l c : Nat) : K :=
  match g.channel with
  | Option.none => 0
  | some ch =>
    match ch.model with
    | .mc4rm => (ch.coolant.vhc * ch.coolant.flowRate) / ((ch.nChannels : K) * 2)
    | .mc2rm => (ch.coolant.vhc * ch.coolant.flowRate * ch.porosity * cellLength d c) / ((ch.nChannels : K) * 2 * ch.length)
    | .pfInline | .pfStag => (ch.coolant.vhc * ch.coolant.darcy * cellLength d c * height d l) / 2
    | .none => 0

/-- `get_capacity`: sources/thermal_grid.c:433-527. -/
def capacity (g : TGrid K) (d : Dims K) (l r c : Nat) : K :=
  match typeAt g l with
  | .solid | .source | .solidAmb | .sourceAmb | .solidSpr | .sourceSpr | .solidPcb | .sourcePcb =>
    heatCap g d l r c * cellLength d c * cellWidth d r * height d l
  | .ch4rm =>
    if isChannelCol c then chan g (·.coolant.vhc) * cellLength d c * cellWidth d r * height d l
    else heatCap g d l r c * cellLength d c * cellWidth d r * height d l
  | .ch2rm | .pfInline | .pfStag =>
    chan g (·.coolant.vhc) * chan g (·.porosity) * cellLength d c * cellWidth d r * height d l
  | .vwallCh | .vwallPf =>
    heatCap g d l r c * (1 - chan g (·.porosity)) * cellLength d c * cellWidth d r * height d l
  | .topWall | .bottomWall | .none => 0

/-- `get_conductance_top`: sources/thermal_grid.c:963-1136. -/
def gTop (g : TGrid K) (d : Dims K) (l r c : Nat) : K :=
  match typeAt g l with
  | .solid | .source =>
    if l = lastLayer d then 0
    else if l = 0 then (condZ g d l r c * cellLength d c * cellWidth d r) / height d l
    else (condZ g d l r c * cellLength d c * cellWidth d r) / (height d l / 2)
  | .solidAmb | .sourceAmb =>
    (2 * condZ g d l r c * topHtc g * cellLength d c * cellWidth d r) / (height d l * topHtc g + 2 * condZ g d l r c)
  | .solidSpr | .sourceSpr =>
    if l = 0 then (condZ g d l r c * cellLength d c * cellWidth d r) / height d l
    else (condZ g d l r c * cellLength d c * cellWidth d r) / (height d l / 2)
  | .solidPcb | .sourcePcb => (condZ g d l r c * cellLength d c * cellWidth d r) / (height d l / 2)
  | .ch4rm =>
    if isChannelCol c then chan g (·.coolant.htcTop) * cellWidth d r * cellLength d c
    else (condZ g d l r c * cellLength d c * cellWidth d r) / (height d l / 2)
  | .ch2rm => chan g (·.coolant.htcTop) * cellWidth d r * cellLength d c
  | .pfInline => chan g (fun ch => ch.effInline ch.coolant.darcy) * cellWidth d r * cellLength d c
  | .pfStag => chan g (fun ch => ch.effStag ch.coolant.darcy) * cellWidth d r * cellLength d c
  | .vwallCh | .vwallPf =>
    (condZ g d l r c * cellLength d c * cellWidth d r) / (height d l / 2) * (1 - chan g (·.porosity))
  | .topWall | .bottomWall | .none => 0

/-- `get_conductance_bottom`: sources/thermal_grid.c:1140-1288. -/
def gBottom (g : TGrid K) (d : Dims K) (l r c : Nat) : K :=
  match typeAt g l with
  | .solid | .source =>
    if l = 0 then 0
    else if l = lastLayer d then (condZ g d l r c * cellLength d c * cellWidth d r) / height d l
    else (condZ g d l r c * cellLength d c * cellWidth d r) / (height d l / 2)
  | .solidAmb | .sourceAmb | .solidSpr | .sourceSpr =>
    (condZ g d l r c * cellLength d c * cellWidth d r) / (height d l / 2)
  | .solidPcb | .sourcePcb =>
    (2 * condZ g d l r c * bottomHtc g * cellLength d c * cellWidth d r) /
      (height d l * bottomHtc g + 2 * condZ g d l r c)
  | .ch4rm =>
    if isChannelCol c then chan g (·.coolant.htcBottom) * cellWidth d r * cellLength d c
    else (condZ g d l r c * cellLength d c * cellWidth d r) / (height d l / 2)
  | .ch2rm => chan g (·.coolant.htcBottom) * cellWidth d r * cellLength d c
  | .pfInline => chan g (fun ch => ch.effInline ch.coolant.darcy) * cellWidth d r * cellLength d c
  | .pfStag => chan g (fun ch => ch.effStag ch.coolant.darcy) * cellWidth d r * cellLength d c
  | .vwallCh | .vwallPf =>
    (condZ g d l r c * cellLength d c * cellWidth d r) / (height d l / 2) * (1 - chan g (·.porosity))
  | .topWall | .bottomWall | .none => 0

/-- `get_conductance_north`: sources/thermal_grid.c:1292-1384. -/
def gNorth (g : TGrid K) (d : Dims K) (l r c : Nat) : K :=
  match typeAt g l with
  | .solid | .source | .solidAmb | .sourceAmb | .solidSpr | .sourceSpr | .solidPcb | .sourcePcb =>
    (condY g d l r c * cellLength d c * height d l) / (cellWidth d r / 2)
  | .ch4rm =>
    if isChannelCol c then convective g d l c
    else (condY g d l r c * cellLength d c * height d l) / (cellWidth d r / 2)
  | .ch2rm | .pfInline | .pfStag => convective g d l c
  | .vwallCh => (condY g d l r c * cellLength d c * height d l) / (cellWidth d r / 2) * (1 - chan g (·.porosity))
  | .vwallPf | .topWall | .bottomWall | .none => 0

/-- `get_conductance_south`: sources/thermal_grid.c:1388-1480. -/
def gSouth (g : TGrid K) (d : Dims K) (l r c : Nat) : K :=
  match typeAt g l with
  | .solid | .source | .solidAmb | .sourceAmb | .solidSpr | .sourceSpr | .solidPcb | .sourcePcb =>
    (condY g d l r c * cellLength d c * height d l) / (cellWidth d r / 2)
  | .ch4rm =>
    if isChannelCol c then - convective g d l c
    else (condY g d l r c * cellLength d c * height d l) / (cellWidth d r / 2)
  | .ch2rm | .pfInline | .pfStag => - convective g d l c
  | .vwallCh => (condY g d l r c * cellLength d c * height d l) / (cellWidth d r / 2) * (1 - chan g (·.porosity))
  | .vwallPf | .topWall | .bottomWall | .none => 0

/-- `get_conductance_east`: sources/thermal_grid.c:1484-1561. -/
def gEast (g : TGrid K) (d : Dims K) (l r c : Nat) : K :=
  match typeAt g l with
  | .solid | .source | .solidAmb | .sourceAmb | .solidSpr | .sourceSpr | .solidPcb | .sourcePcb =>
    (condX g d l r c * cellWidth d r * height d l) / (cellLength d c / 2)
  | .ch4rm =>
    if isChannelCol c then chan g (·.coolant.htcSide) * cellWidth d r * height d l
    else (condX g d l r c * cellWidth d r * height d l) / (cellLength d c / 2)
  | .ch2rm | .pfInline | .pfStag | .vwallCh | .vwallPf | .topWall | .bottomWall | .none => 0

/-- `get_conductance_west`: sources/thermal_grid.c:1565-1642. -/
def gWest (g : TGrid K) (d : Dims K) (l r c : Nat) : K :=
  match typeAt g l with
  | .solid | .source | .solidAmb | .sourceAmb | .solidSpr | .sourceSpr | .solidPcb | .sourcePcb =>
    (condX g d l r c * cellWidth d r * height d l) / (cellLength d c / 2)
  | .ch4rm =>
    if isChannelCol c then chan g (·.coolant.htcSide) * cellWidth d r * height d l
    else (condX g d l r c * cellWidth d r * height d l) / (cellLength d c / 2)
  | .ch2rm | .pfInline | .pfStag | .vwallCh | .vwallPf | .topWall | .bottomWall | .none => 0

/-! ### The heat spreader -/

/-- `get_spreader_capacity`: sources/heat_sink.c:377-385. -/
def sprCapacity (s : Spreader K) (m : Material K) : K := m.vhc * s.cellLength * s.cellWidth * s.height
/-- `get_spreader_conductance_east_west`: sources/heat_sink.c:387-394. -/
def sprEW (s : Spreader K) (m : Material K) : K := (m.kx * s.height * s.cellWidth) / (s.cellLength / 2)
/-- `get_spreader_conductance_north_south`: sources/heat_sink.c:396-403. -/
def sprNS (s : Spreader K) (m : Material K) : K := (m.ky * s.cellLength * s.height) / (s.cellWidth / 2)
/-- `get_spreader_conductance_top_bottom`: sources/heat_sink.c:405-412. -/
def sprTB (s : Spreader K) (m : Material K) : K := (m.kz * s.cellLength * s.cellWidth) / (s.height / 2)

end Verif.TG
