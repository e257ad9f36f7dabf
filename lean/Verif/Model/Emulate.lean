import Verif.Model.Floorplan
import Verif.Model.SystemMatrix

/-! Model of `sources/power_grid.c` (source vector), `sources/analysis.c` and of the simulation functions of
`sources/thermal_data.c`, uniform grid.

Not modelled, and passed as parameters: the sparse solver (SuperLU), and the callback of a pluggable heat sink. -/

namespace Verif.Emu
open Verif.Dim Verif.TG Verif.SM Verif.Flp

variable {K : Type} [Field K] [LinearOrder K]

/-- `AnalysisType_t`: include/types.h. -/
inductive AType where
  | none | transient | steady
deriving DecidableEq, Repr

/-- `SimResult_t`: include/types.h. -/
inductive SimResult where
  | endOfSimulation | wrongConfig | solverError | stepDone | slotDone
deriving DecidableEq, Repr

/-- `Analysis_t` without the current time: include/analysis.h:64-93. -/
structure Analysis (K : Type) where
  type : AType
  stepTime : K
  slotLength : Nat
  initTemp : K

/-- What `fill_system_matrix` uses of the analysis. -/
def Analysis.ana (a : Analysis K) : Ana K := ⟨decide (a.type = .transient), a.stepTime⟩

/-- Everything that does not change during a simulation. `solve` stands for `solve_sparse_linear_system`
(sources/system_matrix.c:2336-2374) after `do_factorization`, `factor` for `do_factorization`, `plugin` for the callback of a pluggable
heat sink: it gets its own state, the temperatures of the spreader and the previous flows, and returns the flows, or nothing on
failure. -/
structure Cfg (K π : Type) where
  d : Dims K
  an : Analysis K
  solve : Csc K → List K → Option (List K)
  factor : Csc K → Bool
  plugin : π → List K → List K → π × Option (List K)

/-- `ThermalData_t` (include/thermal_data.h:67-95), `PowerGrid_t` (include/power_grid.h:67-117), the power queues of the floorplans and
the current time of the analysis. The layer types of the power grid are those of the thermal grid (see `Verif.Model.Stack`). -/
structure Sim (K π : Type) where
  g : TGrid K
  mat : Csc K
  temps : List K
  sources : List K
  caps : List K
  topTcs : List K
  botTcs : List K
  flps : List (Option (List (FlpEl K)))
  time : Nat
  plug : π

/-! ### Building -/

/-- Number of cells of the heat spreader. -/
def sprSize (g : TGrid K) : Nat := spreaderCells (spreaderOf g)

/-- `CellsCapacities` after `power_grid_fill`: sources/power_grid.c:342-372, 460-466. -/
def capList (g : TGrid K) (d : Dims K) : List K :=
  ((List.range (lastLayer d + 1)).flatMap fun l => (List.range (lastRow d + 1)).flatMap fun r => (List.range (lastColumn d + 1)).map fun c =>
    capacity g d l r c) ++
  match g.top with
  | some (.pluggable s m) => (List.range s.nRows).flatMap fun _ => (List.range s.nCols).map fun _ => sprCapacity s m
  | _ => []

/-- `HeatSinkTopTcs`: sources/power_grid.c:436-450 (zero if there is no conventional top sink). -/
def topList (g : TGrid K) (d : Dims K) : List K :=
  (List.range (lastRow d + 1)).flatMap fun r => (List.range (lastColumn d + 1)).map fun c =>
    match g.top with
    | some (.ambient _) => gTop g d (lastLayer d) r c
    | _ => 0

/-- `HeatSinkBottomTcs`: sources/power_grid.c:552-565. -/
def botList (g : TGrid K) (d : Dims K) : List K :=
  (List.range (lastRow d + 1)).flatMap fun r => (List.range (lastColumn d + 1)).map fun c =>
    match g.bottom with
    | some _ => gBottom g d 0 r c
    | Option.none => 0

/-- `thermal_data_build` after the thermal grid has been filled: sources/thermal_data.c:1096-1232; `none` = the factorization failed. -/
def build {π : Type} (cfg : Cfg K π) (g : TGrid K) (flps : List (Option (List (FlpEl K)))) (p : π) : Option (Sim K π) :=
  let mat := fillMatrix g cfg.an.ana cfg.d
  if cfg.factor mat then
    some { g := g, mat := mat, temps := List.replicate cfg.d.nCells cfg.an.initTemp, sources := List.replicate cfg.d.nCells 0,
           caps := capList g cfg.d, topTcs := topList g cfg.d, botTcs := botList g cfg.d, flps := flps, time := 0, plug := p }
  else none

/-! ### The source vector -/

/-- Number of cells of a layer: `get_layer_area`, sources/dimensions.c:648-656. -/
def area (d : Dims K) : Nat := layerArea d

/-- `*tmpS++ += T * *tmpT++` over the cells of a layer: sources/power_grid.c:829-842 and the three similar loops. -/
def addAmbient (off n : Nat) (T : K) (tcs x : List K) : List K :=
  (List.range n).foldl (fun x i => addAt x (off + i) (T * tcs.getD i 0)) x

/-- IS_CHANNEL_COLUMN: include/macros.h:101-103. -/
def chanCol (g : TGrid K) (c : Nat) : Bool := if chModel g = .mc4rm then isChannelCol c else true

/-- The inlet of a channel layer: sources/power_grid.c:905-935 and 995-1018. -/
def setInlet (g : TGrid K) (d : Dims K) (l off : Nat) (x : List K) : List K :=
  (List.range (lastColumn d + 1)).foldl
    (fun x c => if chanCol g c then x.set (off + c) (2 * convective g d l c * chan g (·.coolant.tIn)) else x) x

/-- Ambient temperature of the two sinks. -/
def topAmb (g : TGrid K) : K := match g.top with | some (.ambient s) => s.tAmb | _ => 0
def botAmb (g : TGrid K) : K := (g.bottom.map (·.tAmb)).getD 0

/-- `FloorplansProfile [layer]`; a null pointer would be dereferenced in C, it is an empty floorplan here (C17 excludes it). -/
def flpAt (flps : List (Option (List (FlpEl K)))) (l : Nat) : List (FlpEl K) := (flps.getD l none).getD []

/-- `fill_sources_floorplan (FloorplansProfile [layer], sources)`. -/
def fillLayer (d : Dims K) (l off : Nat) (flps : List (Option (List (FlpEl K)))) (x : List K) :
    List (Option (List (FlpEl K))) × List K × Bool :=
  let r := fillSourcesFlp d off (flpAt flps l) x
  (flps.set l (some r.1), r.2.1, r.2.2)

/-- The `switch` of `update_source_vector` for one layer: sources/power_grid.c:809-951. `off` is the position of the layer. -/
def updateLayer (g : TGrid K) (d : Dims K) (topTcs botTcs : List K) (l off : Nat) (flps : List (Option (List (FlpEl K)))) (x : List K) :
    List (Option (List (FlpEl K))) × List K × Bool :=
  match typeAt g l with
  | .source | .sourceSpr => fillLayer d l off flps x
  | .solidAmb => (flps, addAmbient off (area d) (topAmb g) topTcs x, true)
  | .sourceAmb => fillLayer d l off flps (addAmbient off (area d) (topAmb g) topTcs x)
  | .solidPcb => (flps, addAmbient off (area d) (botAmb g) botTcs x, true)
  | .sourcePcb => fillLayer d l off flps (addAmbient off (area d) (botAmb g) botTcs x)
  | .ch4rm | .ch2rm | .pfInline | .pfStag => (flps, setInlet g d l off x, true)
  | .solid | .solidSpr | .vwallCh | .vwallPf | .topWall | .bottomWall => (flps, x, true)
  | .none => (flps, x, false)

/-- The loop over the layers of `update_source_vector`: sources/power_grid.c:805-960; `off` advances by the area of a layer. -/
def updateFrom (g : TGrid K) (d : Dims K) (topTcs botTcs : List K) :
    Nat → Nat → Nat → List (Option (List (FlpEl K))) → List K → List (Option (List (FlpEl K))) × List K × Bool
  | 0, _, _, flps, x => (flps, x, true)
  | n + 1, l, off, flps, x =>
    let r := updateLayer g d topTcs botTcs l off flps x
    if r.2.2 then updateFrom g d topTcs botTcs n (l + 1) (off + area d) r.1 r.2.1 else r

/-- `update_source_vector`: sources/power_grid.c:574-970. -/
def updateSourceVector {π : Type} (d : Dims K) (s : Sim K π) : Sim K π × Bool :=
  let r := updateFrom s.g d s.topTcs s.botTcs s.g.nLayers 0 0 s.flps (List.replicate d.nCells 0)
  ({ s with flps := r.1, sources := r.2.1 }, r.2.2)

/-- `update_channel_sources`: sources/power_grid.c:974-1044. -/
def channelFrom (g : TGrid K) (d : Dims K) : Nat → Nat → Nat → List K → List K
  | 0, _, _, x => x
  | n + 1, l, off, x =>
    match typeAt g l with
    | .ch4rm | .ch2rm | .pfInline | .pfStag => channelFrom g d n (l + 1) (off + area d) (setInlet g d l off x)
    | .none => x
    | _ => channelFrom g d n (l + 1) (off + area d) x

/-- `insert_power_values`: sources/power_grid.c:1048-1108. -/
def insertFrom (g : TGrid K) : Nat → Nat → List (Option (List (FlpEl K))) → List K → List (Option (List (FlpEl K))) × Bool
  | 0, _, flps, _ => (flps, true)
  | n + 1, l, flps, vs =>
    match typeAt g l with
    | .source | .sourceAmb | .sourcePcb | .sourceSpr =>
      let r := insertPowersFlp (flpAt flps l) vs
      if r.2.2 then insertFrom g n (l + 1) (flps.set l (some r.1)) r.2.1 else (flps.set l (some r.1), false)
    | .none => (flps, false)
    | _ => insertFrom g n (l + 1) flps vs

/-- `insert_power_values`: sources/power_grid.c:1048-1108. -/
def insertPowerValues {π : Type} (s : Sim K π) (vs : List K) : Sim K π × Bool :=
  let r := insertFrom s.g s.g.nLayers 0 s.flps vs
  ({ s with flps := r.1 }, r.2)

/-! ### Simulation -/

/-- `slot_completed`: sources/analysis.c:163-171. (`% 0` would be undefined behaviour: C37.) -/
def slotCompleted {π : Type} (a : Analysis K) (s : Sim K π) : Bool := s.time % a.slotLength == 0

/-- `get_simulated_time`: sources/analysis.c:149-153. -/
def simulatedTime {π : Type} (a : Analysis K) (s : Sim K π) : K := (s.time : K) * a.stepTime

/-- `increase_by_step_time`: sources/analysis.c:157-160, on `uint32_t`. -/
def increaseTime {π : Type} (s : Sim K π) : Sim K π := { s with time := (s.time + 1) % W }

/-- `reset_thermal_state`: sources/thermal_data.c:1268-1271. -/
def reset {π : Type} (cfg : Cfg K π) (s : Sim K π) : Sim K π := { s with temps := List.replicate cfg.d.nCells cfg.an.initTemp }

/-- `fill_system_vector`: sources/thermal_data.c:1275-1355: the cells of the layers, then those of the spreader. -/
def fillSystemVector {π : Type} (cfg : Cfg K π) (s : Sim K π) : List K :=
  (List.range ((lastLayer cfg.d + 1) * ((lastRow cfg.d + 1) * (lastColumn cfg.d + 1)) + sprSize s.g)).map fun i =>
    s.sources.getD i 0 + (s.caps.getD i 0 / cfg.an.stepTime) * s.temps.getD i 0

/-- `pluggable_heatsink`: sources/thermal_data.c:1399-1428. If the callback fails the flows are left as they were (in C the callback
may have changed them). -/
def pluggable {π : Type} (cfg : Cfg K π) (s : Sim K π) : Sim K π × Bool :=
  match s.g.top with
  | some (.pluggable sp _) =>
    let o := spreaderOffset cfg.d sp 0 0
    match cfg.plugin s.plug (s.temps.drop o) (s.sources.drop o) with
    | (p, Option.none) => ({ s with plug := p }, false)
    | (p, some q) =>
      ({ s with plug := p, sources := s.sources.take o ++ (List.range (sp.nRows * sp.nCols)).map fun i => - q.getD i 0 }, true)
  | _ => (s, true)

/-- The second half of `emulate_step`, once the sources are known: sources/thermal_data.c:1452-1480. The right-hand side is built in place
of the temperatures and stays there if the solver fails. -/
def finishStep {π : Type} (cfg : Cfg K π) (s : Sim K π) : SimResult × Sim K π :=
  let (s1, ok) := pluggable cfg s
  if ok then
    let b := fillSystemVector cfg s1
    match cfg.solve s1.mat b with
    | Option.none => (.solverError, { s1 with temps := b })
    | some x =>
      let s2 := increaseTime { s1 with temps := x }
      (if slotCompleted cfg.an s2 then .slotDone else .stepDone, s2)
  else (.solverError, s1)

/-- `emulate_step`: sources/thermal_data.c:1432-1480. -/
def emulateStep {π : Type} (cfg : Cfg K π) (s : Sim K π) : SimResult × Sim K π :=
  if cfg.an.type ≠ .transient then (.wrongConfig, s)
  else if slotCompleted cfg.an s then
    let (s1, ok) := updateSourceVector cfg.d s
    if ok then finishStep cfg s1 else (.endOfSimulation, s1)
  else finishStep cfg s

/-- `emulate_slot`, the loop `do … while (result == TDICE_STEP_DONE)`: sources/thermal_data.c:1484-1501. -/
inductive SlotRun {π : Type} (cfg : Cfg K π) : Sim K π → SimResult → Sim K π → Prop
  | stop {s r s'} : emulateStep cfg s = (r, s') → r ≠ .stepDone → SlotRun cfg s r s'
  | again {s s1 r s'} : emulateStep cfg s = (.stepDone, s1) → SlotRun cfg s1 r s' → SlotRun cfg s r s'

/-- `fill_system_vector_steady`: sources/thermal_data.c:1359-1397, the vector being the one of the temperatures: cells after the layers
are left as they were. -/
def fillSystemVectorSteady {π : Type} (cfg : Cfg K π) (s : Sim K π) : List K :=
  let n := (lastLayer cfg.d + 1) * ((lastRow cfg.d + 1) * (lastColumn cfg.d + 1))
  ((List.range n).map fun i => s.sources.getD i 0) ++ s.temps.drop n

/-- `emulate_steady`: sources/thermal_data.c:1505-1557. -/
def emulateSteady {π : Type} (cfg : Cfg K π) (s : Sim K π) : SimResult × Sim K π :=
  if cfg.an.type ≠ .steady then (.wrongConfig, s)
  else match s.g.top with
    | some (.pluggable _ _) => (.solverError, s)
    | _ =>
      let (s1, ok) := updateSourceVector cfg.d s
      if ok then
        let b := fillSystemVectorSteady cfg s1
        match cfg.solve s1.mat b with
        | Option.none => (.solverError, { s1 with temps := b })
        | some x => (.endOfSimulation, { s1 with temps := x })
      else (.endOfSimulation, s1)

/-- FLOW_RATE_FROM_MLMIN_TO_UM3SEC and its inverse: include/macros.h. -/
def flowToUm3 (f : K) : K := f * 1000000000000 / 60
def flowToMl (f : K) : K := f * 60 / 1000000000000

/-- The thermal grid with another flow rate of the coolant. -/
def withFlow (g : TGrid K) (f : K) : TGrid K :=
  { g with channel := g.channel.map fun ch => { ch with coolant := { ch.coolant with flowRate := f } } }

/-- `update_coolant_flow_rate`: sources/thermal_data.c:1561-1584. The matrix is overwritten even if its factorization fails. -/
def updateFlow {π : Type} (cfg : Cfg K π) (s : Sim K π) (f : K) : Sim K π × Bool :=
  let g := withFlow s.g (flowToUm3 f)
  let s1 := { s with g := g, mat := fillMatrix g cfg.an.ana cfg.d }
  if cfg.factor s1.mat then ({ s1 with sources := channelFrom g cfg.d g.nLayers 0 0 s1.sources }, true) else (s1, false)

end Verif.Emu
