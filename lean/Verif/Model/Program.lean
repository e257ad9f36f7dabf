import Verif.Model.FrontEnd
import Verif.Model.Server

/-! Model of `main` of `bin/3D-ICE-Emulator.c`, from the arguments of the command to the exit status: the description files are read,
the output files are created, the matrices are built and the simulation is run. Uniform grid.

Not modelled: what is printed on the terminal, the headers of the output files (only whether they can be written), failures of `malloc`,
stack files with `non-uniform 1` and times whose division is undefined behaviour (no outcome is given to them). -/

namespace Verif.Prog
open Verif.Gram Verif.Dim Verif.TG Verif.Stk Verif.FE Verif.Out Verif.Emu

/-- The arguments of `heatsink_init`: sources/heat_sink.c:363-375. -/
structure PlugArgs where
  nRows : Nat
  nCols : Nat
  cellWidth : ℚ
  cellLength : ℚ
  initTemp : ℚ
  conductance : ℚ
  stepTime : ℚ
  args : String

/-- What surrounds the program: the files it can read, those it can write, and what is not modelled: the two heat transfer formulas of
the pin fins, the multiplication by 10.0 of the rule `solver`, the sparse solver, and the plug-in of a pluggable heat sink: whether it
can be loaded (sources/heat_sink.c:319-357), its initialization, and its callback. `idle`: the state of a plug-in that has not been
initialized. -/
structure World (π : Type) where
  read : String → Option (List Char)
  canOpen : String → Bool
  eff : Bool → ℚ → ℚ
  mul10 : ℚ → ℚ
  solve : SM.Csc ℚ → List ℚ → Option (List ℚ)
  factor : SM.Csc ℚ → Bool
  plugin : π → List ℚ → List ℚ → π × Option (List ℚ)
  canLoad : String → Bool
  init : String → PlugArgs → Option π
  idle : π

variable {π : Type}

/-- Floorplans of the uniform grid. -/
abbrev Flps := List (Flp.FlpEl ℚ)

/-- `parse_stack_description_file`: sources/stack_file_parser.c:61-103, with loading the plug-in, which the rule `stack` does:
bison/stack_description_parser.y:1183-1189. -/
noncomputable def readInput (w : World π) (file : String) : Option (Desc Flps) :=
  (w.read file).bind fun text => (load w.eff w.read text).bind fun D =>
    match D.plugin with
    | some p => if w.canLoad p.1 then some D else none
    | none => some D

/-- `initialize_pluggable_heatsink`, called by the rule `solver` for a transient simulation: sources/heat_sink.c:363-375,
bison/stack_description_parser.y:1805-1810. -/
def initPlugin {φ : Type} (w : World π) (D : Desc φ) (an : Analysis ℚ) : Option π :=
  match an.type, D.plugin, D.top with
  | .transient, some p, some (.pluggable s m) =>
    w.init p.1 ⟨s.nRows, s.nCols, s.cellWidth, s.cellLength, an.initTemp, sprTB s m, an.stepTime, p.2⟩
  | _, _, _ => some w.idle

/-- The parameters of `thermal_data_build` and of the functions that run the simulation: bin/3D-ICE-Emulator.c:145-147, 162. -/
def config (w : World π) (D : Desc Flps) (an : Analysis ℚ) : Cfg ℚ π := ⟨D.parsed.dims, an, w.solve, w.factor, w.plugin⟩

/-- `thermal_data_build`: sources/thermal_data.c:1033-1232, uniform grid; `q`: the state of the plug-in. -/
def start (w : World π) (D : Desc Flps) (an : Analysis ℚ) (q : π) : Option (Sim ℚ π) :=
  (fillGrid D.parsed.dims.nLayers D.parsed.elems D.top D.bottom).bind fun g =>
    Emu.build (config w D an) g (fillFloorplans D.parsed.dims.nLayers D.parsed.elems) q

/-- EXIT_SUCCESS, EXIT_FAILURE. -/
inductive Status where
  | success | failure
deriving DecidableEq, Repr

/-- `main` with the arguments `args`: bin/3D-ICE-Emulator.c:60-262: its exit status, what it writes in the output files, and the last
state of the simulation, if there was one. -/
inductive Main (w : World π) : List String → Status → Log ℚ → Option (Sim ℚ π) → Prop
  /-- bin/3D-ICE-Emulator.c:70-74 -/
  | usage {args} : args.length ≠ 1 → Main w args .failure [] none
  /-- bin/3D-ICE-Emulator.c:90-92 -/
  | refused {file} : readInput w file = none → Main w [file] .failure [] none
  /-- The same, when the initialization of the plug-in fails. -/
  | noPlugin {file D an} : readInput w file = some D → Analysed w.mul10 D.init D.times an → initPlugin w D an = none →
      Main w [file] .failure [] none
  /-- bin/3D-ICE-Emulator.c:120-132 -/
  | unwritable {file D an q} : readInput w file = some D → Analysed w.mul10 D.init D.times an → initPlugin w D an = some q →
      Srv.headersOk w.canOpen (outputOf D.points) = false → Main w [file] .failure [] none
  /-- bin/3D-ICE-Emulator.c:141-156 -/
  | unbuilt {file D an q} : readInput w file = some D → Analysed w.mul10 D.init D.times an → initPlugin w D an = some q →
      Srv.headersOk w.canOpen (outputOf D.points) = true → D.nonUniform = false → start w D an q = none → Main w [file] .failure [] none
  /-- bin/3D-ICE-Emulator.c:158-262 -/
  | ran {file D an q s log s'} : readInput w file = some D → Analysed w.mul10 D.init D.times an → initPlugin w D an = some q →
      Srv.headersOk w.canOpen (outputOf D.points) = true → D.nonUniform = false → start w D an q = some s →
      Emulated w.canOpen (outputOf D.points) (config w D an) s log s' → Main w [file] .success log (some s')

end Verif.Prog
