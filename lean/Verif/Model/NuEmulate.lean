import Verif.Model.NonUniform
import Verif.Model.Emulate

/-! Model of the simulation functions of `sources/thermal_data.c` and `sources/power_grid.c` on a non-uniform grid.

As for uniform grids the sparse solver (SuperLU) and the callback of a pluggable heat sink are parameters. -/

namespace Verif.NU
open Verif.Dim Verif.TG Verif.SM

variable {K : Type} [Field K] [LinearOrder K] {π : Type}

/-- Everything that does not change during a simulation (see `Verif.Emu.Cfg`). -/
structure NCfg (K π : Type) where
  an : Emu.Analysis K
  solve : Csc K → List K → Option (List K)
  factor : Csc K → Bool
  plugin : π → List K → List K → π × Option (List K)

/-- `ThermalData_t` (include/thermal_data.h:67-95), `PowerGrid_t` (include/power_grid.h:67-117), the lists of cells and connections of
`Dimensions_t` and the current time of the analysis. The queues of the power values are in the floorplans `G.flps`. -/
structure NSim (K π : Type) where
  G : Grid K
  conns : List (Conn K)
  mat : Csc K
  temps : List K
  sources : List K
  caps : List K
  time : Nat
  plug : π

/-! ### Building -/

/-- `CellsCapacities`: sources/power_grid.c:346-358 (the loop stops at the first cell of the spreader) and 482-485 (one value for each
cell of the spreader as declared by the sink). The array has room for `NCells` values. -/
def capsNU (G : Grid K) : List K :=
  ((G.ls.flatten.takeWhile fun c => decide (c.layer < G.d.nLayers)).map fun c => capacityNU G.g G.d c) ++
  match G.g.top with
  | some (.pluggable s m) => List.replicate (s.nRows * s.nCols) (sprCapacity s m)
  | _ => []

/-- `thermal_data_build` from the grid on: sources/thermal_data.c:1096-1232. `conns` is the list of connections, in the order left by the
threads. `none` = the factorization failed. -/
def buildSim (cfg : NCfg K π) (G : Grid K) (conns : List (Conn K)) (p : π) : Option (NSim K π) :=
  let mat := fillMatrixNU id G.g cfg.an.ana G.d G.ls.flatten conns
  if cfg.factor mat then
    some { G := G, conns := conns, mat := mat, temps := List.replicate G.nCells cfg.an.initTemp, sources := List.replicate G.nCells 0,
           caps := capsNU G, time := 0, plug := p }
  else none

/-! ### The source vector, with what is left behind by a failure -/

/-- The powers of a floorplan: sources/power_grid.c:607-632, 671-694, 729-752. The loop stops at the first element without values; the
elements before it have lost one value. -/
def popF : List (FEl K) → List K × List (FEl K) × Bool
  | [] => ([], [], true)
  | e :: es =>
    match e.powers with
    | [] => ([], e :: es, false)
    | p :: ps =>
      let r := popF es
      (List.replicate (e.dx * e.dy) (p / ((e.dx * e.dy : Nat) : K)) ++ r.1, { e with powers := ps } :: r.2.1, r.2.2)

/-- `addPowers` with the state left by a failure. A layer without floorplan would be a null pointer; it counts as a failure. -/
def addPowersF (st : SrcSt K) (l : Nat) : SrcSt K × Bool :=
  match st.flps.getD l none with
  | none => (st, false)
  | some es => ({ st with src := addFrom st.src st.pos (popF es).1, flps := st.flps.set l (some (popF es).2.1) }, (popF es).2.2)

/-- The cells of the current layer are skipped: sources/power_grid.c:800-805 (not reached after a failure). -/
def nextLayer (cs : List (Cell K)) (l : Nat) (r : SrcSt K × Bool) : SrcSt K × Bool :=
  if r.2 then ({ r.1 with pos := r.1.pos + (layerCells cs r.1.pos l).length }, true) else r

/-- `srcLayer` with the state left by a failure: sources/power_grid.c:598-805. -/
def srcLayerF (g : TGrid K) (d : Dims K) (cs : List (Cell K)) (st : SrcSt K) (l : Nat) : SrcSt K × Bool :=
  let amb (st : SrcSt K) : SrcSt K :=
    { st with src := addFrom st.src st.pos (((topTcsNU g d cs).take (cs.length - st.pos)).map fun t => topTemp g * t) }
  let pcb (st : SrcSt K) : SrcSt K :=
    { st with src := addFrom st.src st.pos (((botTcsNU g d cs).take (layerCells cs st.pos l).length).map fun t => botTemp g * t) }
  nextLayer cs l (match typeAt g l with
    | .source | .sourceSpr => addPowersF st l
    | .solid | .solidSpr | .vwallCh | .vwallPf | .topWall | .bottomWall => (st, true)
    | .solidAmb => (amb st, true)
    | .sourceAmb => addPowersF (amb st) l
    | .solidPcb => (pcb st, true)
    | .sourcePcb => addPowersF (pcb st) l
    | .ch4rm | .ch2rm | .pfInline | .pfStag => ({ st with src := setFrom st.src st.pos (inlets g d l) }, true)
    | .none => (st, false))

/-- The loop over the layers: sources/power_grid.c:594-807. -/
def srcLayersF (g : TGrid K) (d : Dims K) (cs : List (Cell K)) : List Nat → SrcSt K → SrcSt K × Bool
  | [], st => (st, true)
  | l :: ls, st => if (srcLayerF g d cs st l).2 then srcLayersF g d cs ls (srcLayerF g d cs st l).1 else srcLayerF g d cs st l

/-- `update_source_vector`: sources/power_grid.c:574-810. -/
def updateSources (s : NSim K π) : NSim K π × Bool :=
  let r := srcLayersF s.G.g s.G.d s.G.ls.flatten (List.range s.G.g.nLayers) ⟨List.replicate s.G.nCells 0, 0, s.G.flps⟩
  ({ s with sources := r.1.src, G := { s.G with flps := r.1.flps } }, r.2)

/-! ### Inserting powers -/

/-- `insert_power_values_floorplan`: sources/floorplan.c:297-321, sources/floorplan_element.c:175-188. -/
def insertFlp : List (FEl K) → List K → List (FEl K) × List K × Bool
  | [], vs => ([], vs, true)
  | e :: es, [] => (e :: es, [], false)
  | e :: es, v :: vs =>
    let r := insertFlp es vs
    ({ e with powers := e.powers ++ [v] } :: r.1, r.2.1, r.2.2)

/-- `insert_power_values`: sources/power_grid.c:1048-1108. -/
def insertLayers (g : TGrid K) : Nat → Nat → List (Option (List (FEl K))) → List K → List (Option (List (FEl K))) × Bool
  | 0, _, flps, _ => (flps, true)
  | n + 1, l, flps, vs =>
    match typeAt g l with
    | .source | .sourceAmb | .sourcePcb | .sourceSpr =>
      let r := insertFlp ((flps.getD l none).getD []) vs
      if r.2.2 then insertLayers g n (l + 1) (flps.set l (some r.1)) r.2.1 else (flps.set l (some r.1), false)
    | .none => (flps, false)
    | _ => insertLayers g n (l + 1) flps vs

/-- `insert_power_values`. -/
def insertSim (s : NSim K π) (vs : List K) : NSim K π × Bool :=
  let r := insertLayers s.G.g s.G.g.nLayers 0 s.G.flps vs
  ({ s with G := { s.G with flps := r.1 } }, r.2)

/-! ### Simulation -/

/-- `slot_completed`: sources/analysis.c:163-171. -/
def slotDoneNU (a : Emu.Analysis K) (s : NSim K π) : Bool := s.time % a.slotLength == 0

/-- `reset_thermal_state`: sources/thermal_data.c:1268-1271. -/
def resetNU (cfg : NCfg K π) (s : NSim K π) : NSim K π := { s with temps := List.replicate s.G.nCells cfg.an.initTemp }

/-- `fill_system_vector`: sources/thermal_data.c:1287-1293, over the list of cells. -/
def vectorNU (cfg : NCfg K π) (s : NSim K π) : List K :=
  (List.range s.G.ls.flatten.length).map fun i => s.sources.getD i 0 + (s.caps.getD i 0 / cfg.an.stepTime) * s.temps.getD i 0

/-- `get_spreader_cell_offset`: sources/dimensions.c:733-736, on `uint32_t`; row and column are ignored. -/
def sprOffset (G : Grid K) (s : Spreader K) : Nat := (G.nCells + W - s.nCols * s.nRows % W) % W

/-- What the callback returns is written, with the opposite sign, from the position `o` on: sources/thermal_data.c:1409-1425. -/
def plugged (s : NSim K π) (o n : Nat) : π × Option (List K) → NSim K π × Bool
  | (p, Option.none) => ({ s with plug := p }, false)
  | (p, some q) => ({ s with plug := p, sources := s.sources.take o ++ (List.range n).map fun i => - q.getD i 0 }, true)

/-- `pluggable_heatsink`: sources/thermal_data.c:1399-1428 (as in `Verif.Emu.pluggable`). -/
def pluggableNU (cfg : NCfg K π) (s : NSim K π) : NSim K π × Bool :=
  match s.G.g.top with
  | some (.pluggable sp _) =>
    plugged s (sprOffset s.G sp) (sp.nCols * sp.nRows)
      (cfg.plugin s.plug (s.temps.drop (sprOffset s.G sp)) (s.sources.drop (sprOffset s.G sp)))
  | _ => (s, true)

/-- The second half of `emulate_step`: sources/thermal_data.c:1452-1480. -/
def finishNU (cfg : NCfg K π) (s : NSim K π) : Emu.SimResult × NSim K π :=
  let (s1, ok) := pluggableNU cfg s
  if ok then
    let b := vectorNU cfg s1
    match cfg.solve s1.mat b with
    | Option.none => (.solverError, { s1 with temps := b })
    | some x =>
      let s2 := { s1 with temps := x, time := (s1.time + 1) % W }
      (if slotDoneNU cfg.an s2 then .slotDone else .stepDone, s2)
  else (.solverError, s1)

/-- `emulate_step`: sources/thermal_data.c:1432-1480. -/
def stepNU (cfg : NCfg K π) (s : NSim K π) : Emu.SimResult × NSim K π :=
  if cfg.an.type ≠ .transient then (.wrongConfig, s)
  else if slotDoneNU cfg.an s then
    let (s1, ok) := updateSources s
    if ok then finishNU cfg s1 else (.endOfSimulation, s1)
  else finishNU cfg s

/-- `emulate_slot`: sources/thermal_data.c:1484-1501. -/
inductive SlotNU (cfg : NCfg K π) : NSim K π → Emu.SimResult → NSim K π → Prop
  | stop {s r s'} : stepNU cfg s = (r, s') → r ≠ .stepDone → SlotNU cfg s r s'
  | again {s s1 r s'} : stepNU cfg s = (.stepDone, s1) → SlotNU cfg s1 r s' → SlotNU cfg s r s'

/-- `emulate_steady`: sources/thermal_data.c:1505-1557, with `fill_system_vector_steady` (1370-1374): one value for each cell of the
list. -/
def steadyNU (cfg : NCfg K π) (s : NSim K π) : Emu.SimResult × NSim K π :=
  if cfg.an.type ≠ .steady then (.wrongConfig, s)
  else match s.G.g.top with
    | some (.pluggable _ _) => (.solverError, s)
    | _ =>
      let (s1, ok) := updateSources s
      if ok then
        let b := (List.range s1.G.ls.flatten.length).map fun i => s1.sources.getD i 0
        match cfg.solve s1.mat b with
        | Option.none => (.solverError, { s1 with temps := b })
        | some x => (.endOfSimulation, { s1 with temps := x })
      else (.endOfSimulation, s1)

/-- The channel of a stack element with another flow rate of the coolant. -/
def flowEl (f : K) (n : NElem K) : NElem K :=
  match n.elem.body with
  | .channel ch => { n with elem := { n.elem with body := .channel { ch with coolant := { ch.coolant with flowRate := f } } } }
  | _ => n

/-- `update_coolant_flow_rate`: sources/thermal_data.c:1561-1584. There is one channel, to which the thermal grid, the power grid and the
stack elements point (sources/thermal_grid.c:165, sources/power_grid.c:275). The matrix is filled from the same list of
connections; `update_channel_sources` (sources/power_grid.c:974-1044) is the function of uniform grids. -/
def flowNU (cfg : NCfg K π) (s : NSim K π) (f : K) : NSim K π × Bool :=
  let g := Emu.withFlow s.G.g (Emu.flowToUm3 f)
  let G := { s.G with g := g, ns := s.G.ns.map (flowEl (Emu.flowToUm3 f)) }
  let mat := fillMatrixNU id g cfg.an.ana s.G.d s.G.ls.flatten s.conns
  if cfg.factor mat then ({ s with G := G, mat := mat, sources := Emu.channelFrom g s.G.d g.nLayers 0 0 s.sources }, true)
  else ({ s with G := G, mat := mat }, false)

end Verif.NU
