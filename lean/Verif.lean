import Verif.Props.PowersQueue
import Verif.Props.Net
import Verif.Props.Reply
import Verif.Props.LinkedList
import Verif.Props.Dimensions
import Verif.Props.Probe
import Verif.Props.Stack
import Verif.Props.SystemMatrix
import Verif.Props.MatrixSize
import Verif.Props.Conductance
import Verif.Props.Coolant
import Verif.Props.Floorplan
import Verif.Props.Simulate
import Verif.Props.Slots
import Verif.Props.Sources
import Verif.Props.Flow
import Verif.Props.Reset
import Verif.Props.Energy
import Verif.Props.Equilibrium
import Verif.Props.Monotone
import Verif.Props.Steady
import Verif.Props.Stats
import Verif.Model.Outlet
import Verif.Props.Outlet
import Verif.Model.Solver
import Verif.Props.Solver
import Verif.Model.Output
import Verif.Props.Output
import Verif.Props.PowerMap
import Verif.Model.Server
import Verif.Props.Server
import Verif.Model.Client
import Verif.Props.Client
import Verif.Props.ClientServer
import Verif.Props.Session
import Verif.Model.NonUniform
import Verif.Lemmas.NonUniform
import Verif.Lemmas.NuConn
import Verif.Lemmas.NuStack
import Verif.Props.NonUniform
import Verif.Lemmas.NuExample
import Verif.Props.NonUniformEx
import Verif.Lemmas.NuSource
import Verif.Props.NonUniformSrc
import Verif.Props.NonUniformSink
import Verif.Props.NonUniformTile
import Verif.Lemmas.NuContact
import Verif.Props.NonUniformContact
import Verif.Model.NuOutput
import Verif.Lemmas.NuMarks
import Verif.Props.NonUniformOut
import Verif.Lemmas.NuUniform
import Verif.Props.NonUniformSame
import Verif.Props.NonUniformSameSrc
import Verif.Props.NonUniformRegular
import Verif.Lemmas.NuChannel
import Verif.Lemmas.NuFlow
import Verif.Props.NonUniformCoolant
import Verif.Lemmas.NuChannelEx
import Verif.Props.NonUniformChannelTile
import Verif.Lemmas.NuLink
import Verif.Props.NonUniformChannelLink
import Verif.Props.NonUniformFilm
import Verif.Props.NonUniformSide
import Verif.Props.NonUniformFlaws
import Verif.Props.NonUniformChannelEx
import Verif.Lemmas.NuInlet
import Verif.Props.NonUniformInlet
import Verif.Props.NonUniformInletEx
import Verif.Model.NuEmulate
import Verif.Lemmas.NuEmulate
import Verif.Lemmas.NuSim
import Verif.Props.NonUniformUnique
import Verif.Props.NuSlots
import Verif.Props.NuEnergy
import Verif.Props.NuSimEx
import Verif.Lemmas.NuRate
import Verif.Props.NuRate
import Verif.Props.NuRateEx
import Verif.Lemmas.NuPlug
import Verif.Props.NuPlug
import Verif.Props.NuPlugEx
import Verif.Props.NuRun
import Verif.Props.NuRunEx
import Verif.Model.Scanner
import Verif.Lemmas.Scanner
import Verif.Props.Scanner
import Verif.Model.Grammar
import Verif.Props.Grammar
import Verif.Props.GrammarFiles
import Verif.Props.Writable
import Verif.Model.FrontEnd
import Verif.Props.FrontEnd
import Verif.Props.FrontEndOrder
import Verif.Props.FrontEndEx
import Verif.Model.Program
import Verif.Model.ProgramNu
import Verif.Props.Sensible
import Verif.Props.Program
import Verif.Props.ProgramHeat
import Verif.Props.ProgramPoints
import Verif.Props.ProgramSteady
import Verif.Props.ReaderMap
import Verif.Props.ProgramAccept
import Verif.Props.ProgramEx
import Verif.Props.ProgramNu
import Verif.Props.ProgramNuRun
import Verif.Lemmas.NuAlong
import Verif.Props.ProgramNuOut
import Verif.Props.ProgramNuAccept
import Verif.Props.ProgramNuEx
import Verif.Lemmas.NuPhysical
import Verif.Lemmas.NuRaster
import Verif.Props.ProgramNuHeat
import Verif.Props.ProgramNuRaster
import Verif.Props.ProgramNuHeatEx
import Verif.Props.ProgramNuValues
import Verif.Props.ProgramNuValuesEx
import Verif.Props.NuSteady
import Verif.Props.NuSteadyEx
import Verif.Props.ProgramNuSteady
import Verif.Props.ProgramNuSteadyEx
import Verif.Model.Printer
import Verif.Props.Printer
import Verif.Props.OutputLost
import Verif.Props.NuMonotone
import Verif.Props.NuCompare
import Verif.Props.NuSame
import Verif.Props.ProgramNuBounds
import Verif.Props.ProgramNuBoundsEx
import Verif.Props.WallHeat
import Verif.Props.CoolantBound
import Verif.Lemmas.SteadySign
import Verif.Props.SteadyBounds
import Verif.Props.ProgramBounds
import Verif.Props.ProgramBoundsEx
import Verif.Props.Maps3D
import Verif.Props.Maps3DEx
import Verif.Model.Memory
import Verif.Lemmas.Memory
import Verif.Lemmas.MemoryList
import Verif.Lemmas.MemoryTypes
import Verif.Props.Memory
import Verif.Props.NonUniformBottom
import Verif.Model.ThermalMemory
import Verif.Lemmas.ThermalMemory
import Verif.Lemmas.ThermalBuild
import Verif.Props.ThermalMemory
import Verif.Model.Wrapper
import Verif.Props.Wrapper
