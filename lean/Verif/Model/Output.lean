import Verif.Model.Emulate
import Verif.Model.Outlet

/-! Model of the inspection points written to files (`sources/output.c`, `sources/inspection_point.c`, the printing functions of
`sources/stack_element.c`, uniform grid) and of the main loop of `bin/3D-ICE-Emulator.c`.

Not modelled: the headers of the files, the digits the numbers are printed with. -/

namespace Verif.Out
open Verif.Dim Verif.TG Verif.SM Verif.Flp Verif.Emu

variable {K : Type} [Field K] [LinearOrder K] {π : Type}

/-- `OutputInstant_t`: include/types.h:530-538. -/
inductive Instant where
  | none | final | slot | step
deriving DecidableEq, Repr

/-- `OutputQuantity_t`: include/types.h:481-492. -/
inductive Quantity where
  | none | average | maximum | minimum | gradient
deriving DecidableEq, Repr

/-- `OutputType_t` (include/types.h:504-516) with what `InspectionPoint_t` stores for it (include/inspection_point.h:60-140). `layer` is
`get_source_layer_offset (ipoint->StackElement)` (sources/stack_element.c:212-226), which does not change after the parsing. -/
inductive Kind (K : Type) where
  | tcell (layer row column : Nat)
  | tflp (layer : Nat) (els : List (FlpEl K))
  | tflpel (layer : Nat) (el : FlpEl K)
  | tmap (layer : Nat)
  | pmap (layer : Nat)
  | tcoolant (layer : Nat) (ch : Channel K)
  | t3d
  | none

/-- `InspectionPoint_t`: include/inspection_point.h:60-140. -/
structure Point (K : Type) where
  instant : Instant
  kind : Kind K
  quantity : Quantity
  file : String

/-- What one call prints in a file: a line beginning with the simulated time, or the rows of a map. -/
inductive Record (K : Type) where
  | line (time : K) (values : List K)
  | map (rows : List (List K))

/-- `Output_t`: include/output.h:60-75. -/
structure Output (K : Type) where
  final : List (Point K)
  slot : List (Point K)
  step : List (Point K)

/-- `output_init`: sources/output.c:46-51. -/
def Output.empty : Output K := ⟨[], [], []⟩

/-- `add_inspection_point`: sources/output.c:161-186. -/
def addPoint (o : Output K) (p : Point K) : Output K :=
  match p.instant with
  | .final => { o with final := o.final ++ [p] }
  | .step => { o with step := o.step ++ [p] }
  | .slot => { o with slot := o.slot ++ [p] }
  | .none => o

/-- The rule `inspection_points_list`: bison/stack_description_parser.y:1846-1862. -/
def addPoints (ps : List (Point K)) : Output K := ps.foldl addPoint Output.empty

/-- `temperatures += get_cell_offset_in_stack (dimensions, layer, first_row, first_column)`. -/
def fromLayer (d : Dims K) (layer : Nat) (x : List K) : List K := x.drop (offInStack d layer 0 0)

/-- The four `get_…_temperature_floorplan_element` functions; `none` = the quantity is not known. -/
def elStat (d : Dims K) (temps : List K) (q : Quantity) (el : FlpEl K) : Option K :=
  match q with
  | .maximum => some (maxEl d temps el)
  | .minimum => some (minEl d temps el)
  | .average => some (avgEl d temps el)
  | .gradient => some (gradientEl d temps el)
  | .none => Option.none

/-- `get_all_…_temperatures_floorplan`: sources/floorplan.c:325-484: one value per element, in order. -/
def flpStat (d : Dims K) (temps : List K) (q : Quantity) (els : List (FlpEl K)) : List K := els.filterMap (elStat d temps q)

/-- The four `get_…_temperature_channel_outlet` functions. -/
def outletStat (ch : Channel K) (d : Dims K) (temps : List K) (q : Quantity) : Option K :=
  match q with
  | .maximum => some (Outlet.maxOut ch d temps)
  | .minimum => some (Outlet.minOut ch d temps)
  | .average => some (Outlet.avgOut ch d temps)
  | .gradient => some (Outlet.gradientOut ch d temps)
  | .none => Option.none

/-- `stack_element_print_thermal_map` and `stack_element_print_power_map`, uniform grid: sources/stack_element.c:266-284, 450-470: the
pointer starts at the layer and advances by one for each value printed. -/
def mapRows (d : Dims K) (layer : Nat) (x : List K) : List (List K) :=
  (List.range (lastRow d + 1)).map fun r => (List.range (lastColumn d + 1)).map fun c =>
    (fromLayer d layer x).getD (r * (lastColumn d + 1) + c) 0

/-- What `generate_inspection_point_output` prints once the file is open, and whether it succeeds: sources/inspection_point.c:625-890,
uniform grid. -/
def render (d : Dims K) (temps sources : List K) (time : K) (p : Point K) : Option (Record K) × Bool :=
  match p.kind with
  | .tcell l r c => (some (.line time [temps.getD (offInStack d l r c) 0]), true)
  | .tflp l els => (some (.line time (flpStat d (fromLayer d l temps) p.quantity els)), true)
  | .tflpel l el => ((elStat d (fromLayer d l temps) p.quantity el).map fun v => .line time [v], true)
  | .tmap l => (some (.map (mapRows d l temps)), true)
  | .pmap l => (some (.map (mapRows d l sources)), true)
  | .tcoolant l ch => ((outletStat ch d (fromLayer d l temps) p.quantity).map fun v => .line time [v], true)
  | .t3d => (Option.none, true)
  | .none => (Option.none, false)

/-- What reaches the files: for each call, the file and what was appended to it, in order. -/
abbrev Log (K : Type) := List (String × Record K)

/-- `generate_inspection_point_output`: sources/inspection_point.c:594-890; a point of type T3D opens no file. -/
def writePoint (canOpen : String → Bool) (d : Dims K) (temps sources : List K) (time : K) (p : Point K) : Log K × Bool :=
  let r := render d temps sources time p
  match p.kind with
  | .t3d => ([], r.2)
  | _ => if canOpen p.file then (r.1.toList.map fun x => (p.file, x), r.2) else ([], false)

/-- The loop of `generate_output`: it stops at the first failure. -/
def writePoints (canOpen : String → Bool) (d : Dims K) (temps sources : List K) (time : K) : List (Point K) → Log K × Bool
  | [] => ([], true)
  | p :: ps =>
    let r := writePoint canOpen d temps sources time p
    if r.2 then
      let r' := writePoints canOpen d temps sources time ps
      (r.1 ++ r'.1, r'.2)
    else (r.1, false)

/-- `generate_output`: sources/output.c:237-293. -/
def generateOutput (canOpen : String → Bool) (o : Output K) (d : Dims K) (temps sources : List K) (time : K) (i : Instant) : Log K × Bool :=
  match i with
  | .final => writePoints canOpen d temps sources time o.final
  | .step => writePoints canOpen d temps sources time o.step
  | .slot => writePoints canOpen d temps sources time o.slot
  | .none => ([], false)

/-- The call of `generate_output` with the thermal data and the analysis: bin/3D-ICE-Emulator.c:189-194, 201-206, 211-216; the result is ignored. -/
def outputNow (canOpen : String → Bool) (o : Output K) (cfg : Cfg K π) (s : Sim K π) (i : Instant) : Log K :=
  (generateOutput canOpen o cfg.d s.temps s.sources (simulatedTime cfg.an s) i).1

/-- The function pointer `emulate`: bin/3D-ICE-Emulator.c:94-112. -/
def emulateFn (cfg : Cfg K π) : Option (Sim K π → SimResult × Sim K π) :=
  match cfg.an.type with
  | .transient => some (emulateStep cfg)
  | .steady => some (emulateSteady cfg)
  | .none => Option.none

/-- The outputs after a call of `emulate`: bin/3D-ICE-Emulator.c:174-207. -/
def afterCall (canOpen : String → Bool) (o : Output K) (cfg : Cfg K π) (r : SimResult) (s : Sim K π) : Log K :=
  (if r = .stepDone ∨ r = .slotDone then outputNow canOpen o cfg s .step else []) ++
  (if r = .slotDone then outputNow canOpen o cfg s .slot else [])

/-- The loop `do … while (sim_result != TDICE_END_OF_SIMULATION && sim_result != TDICE_SOLVER_ERROR)`: bin/3D-ICE-Emulator.c:158-209. -/
inductive Loop (canOpen : String → Bool) (o : Output K) (cfg : Cfg K π) (f : Sim K π → SimResult × Sim K π) : Sim K π → Log K → Sim K π → Prop
  | stop {s r s'} : f s = (r, s') → r = .endOfSimulation ∨ r = .solverError → Loop canOpen o cfg f s (afterCall canOpen o cfg r s') s'
  | again {s r s1 log s'} : f s = (r, s1) → r ≠ .endOfSimulation → r ≠ .solverError → Loop canOpen o cfg f s1 log s' →
      Loop canOpen o cfg f s (afterCall canOpen o cfg r s1 ++ log) s'

/-- The simulation part of `main`: bin/3D-ICE-Emulator.c:156-216: the loop, then the final outputs. -/
def Emulated (canOpen : String → Bool) (o : Output K) (cfg : Cfg K π) (s : Sim K π) (log : Log K) (s' : Sim K π) : Prop :=
  ∃ f log1, emulateFn cfg = some f ∧ Loop canOpen o cfg f s log1 s' ∧ log = log1 ++ outputNow canOpen o cfg s' .final

end Verif.Out
