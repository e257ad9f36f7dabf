import Verif.Model.Output
import Verif.Model.Reply
import Verif.Model.Stack

/-! Model of the simulation server: the main loop of `bin/3D-ICE-Server.c`, with `fill_output_message` (`sources/output.c`) and
`fill_message_inspection_point` (`sources/inspection_point.c`, uniform grid).

A message is what `Verif.Model.Net` describes. The conversions between `float` words and the numbers of the simulation are parameters.
Not modelled: the text of the headers (a parameter), the text printed on the terminal, failures of `malloc` and of `write` (the server
ignores the latter). -/

namespace Verif.Srv
open Verif.Net (Msg ReadEv typeWord extract buildMessage receive outputFilesWords packBytes)
open Verif.Dim Verif.TG Verif.SM Verif.Flp Verif.Stk Verif.Emu Verif.Out

variable {K : Type} [Field K] [LinearOrder K] {π : Type}

/-- Everything that does not change while the server runs. `elems` is `stkd.StackElements`, `output` the inspection points, `canOpen` tells
which files can be opened for writing, `ofFloat` the value of a `float` word, `toFloat` the word of a number converted to `float`, `header`
the text of `build_tflp_header` (sources/inspection_point.c:1022-1113), `disk` the content of the files that can be read, which depends on
what has been printed so far. -/
structure Env (K π : Type) where
  cfg : Cfg K π
  elems : List (SElem K (List (FlpEl K)))
  output : Output K
  canOpen : String → Bool
  ofFloat : Nat → K
  toFloat : K → Nat
  header : Point K → List Nat
  disk : Bool → Log K → List Nat → Option (List Nat)

/-- The variables of `main`: thermal data and analysis, `headers`, and what has been printed in the files. -/
structure State (K π : Type) where
  sim : Sim K π
  headers : Bool
  log : Log K

/-- The bytes of a C string. -/
def bytesOf (s : String) : List Nat := s.toUTF8.toList.map (·.toNat)

/-- `SimResult_t`: include/types.h:422-443. -/
def simCode : SimResult → Nat
  | .endOfSimulation => 0
  | .wrongConfig => 1
  | .solverError => 2
  | .stepDone => 3
  | .slotDone => 4

/-- `OutputQuantity_t`: include/types.h:481-488. -/
def quantityCode : Quantity → Nat
  | .none => 0
  | .average => 1
  | .maximum => 2
  | .minimum => 3
  | .gradient => 4

/-- `OutputType_t`: include/types.h:504-516. -/
def kindCode : Kind K → Nat
  | .none => 0
  | .tcell .. => 1
  | .tflp .. => 2
  | .tflpel .. => 3
  | .tmap .. => 4
  | .pmap .. => 5
  | .tcoolant .. => 6
  | .t3d => 7

/-- `get_number_of_floorplan_elements_stack_element`: sources/stack_element.c:474-488; `NElements` is the length of the list (C26). -/
def elementsIn (e : SElem K (List (FlpEl K))) : Nat :=
  match e.body with
  | .die d => d.flp.length
  | _ => 0

/-- `get_total_number_of_floorplan_elements`: sources/stack_description.c:158-174, on `uint32_t`. -/
def totalElements (es : List (SElem K (List (FlpEl K)))) : Nat := es.foldl (fun n e => (n + elementsIn e) % W) 0

/-- `is_inspection_point`: sources/inspection_point.c:318-357. -/
def isPoint (p : Point K) (type quantity : Nat) : Bool :=
  if kindCode p.kind ≠ type then false
  else match p.kind with
    | .tcell .. | .tmap .. | .pmap .. => true
    | .tflp .. | .tcoolant .. | .tflpel .. => quantityCode p.quantity == quantity
    | _ => false

/-- The list chosen by the instant of the request: sources/output.c:95-115 and 307-330. -/
def listOf (o : Output K) (instant : Nat) : Option (List (Point K)) :=
  if instant = 1 then some o.final else if instant = 3 then some o.step else if instant = 2 then some o.slot else none

/-- `get_number_of_inspection_points`: sources/output.c:85-130, on `uint32_t`. -/
def countPoints (o : Output K) (instant type quantity : Nat) : Nat :=
  match listOf o instant with
  | some ps => ps.foldl (fun n p => if isPoint p type quantity then (n + 1) % W else n) 0
  | none => 0

/-- A requested quantity: the comparisons with the enumerators. -/
def quantityOf (code : Nat) : Quantity :=
  if code = 2 then .maximum else if code = 3 then .minimum else if code = 1 then .average else if code = 4 then .gradient else .none

/-- The words of a map, the index advancing by one for each value: sources/inspection_point.c:1308-1340, 1369-1401. -/
def mapWords (e : Env K π) (layer : Nat) (x : List K) : List Nat :=
  let start := offInStack e.cfg.d layer 0 0
  e.cfg.d.nRows :: e.cfg.d.nCols ::
    (List.range ((lastRow e.cfg.d + 1) * (lastColumn e.cfg.d + 1))).map fun i => e.toFloat (x.getD (start + i) 0)

/-- The words that `fill_message_inspection_point` inserts: sources/inspection_point.c:1117-1465, uniform grid. -/
def pointWords (e : Env K π) (s : Sim K π) (quantity : Nat) (p : Point K) : List Nat :=
  let q := quantityOf quantity
  match p.kind with
  | .tcell l r c => [e.toFloat (s.temps.getD (offInStack e.cfg.d l r c) 0)]
  | .tflp l els =>
    match q with
    | .none => []
    | _ =>
      [(bytesOf p.file).length, (e.header p).length, els.length] ++ packBytes (bytesOf p.file) ++ packBytes (e.header p) ++
        (flpStat e.cfg.d (fromLayer e.cfg.d l s.temps) q els).map e.toFloat
  | .tflpel l el => ((elStat e.cfg.d (fromLayer e.cfg.d l s.temps) q el).map e.toFloat).toList
  | .tmap l => mapWords e l s.temps
  | .pmap l => mapWords e l s.sources
  | .tcoolant l ch => ((outletStat ch e.cfg.d (fromLayer e.cfg.d l s.temps) q).map e.toFloat).toList
  | _ => []

/-- The content of the reply to `TDICE_SEND_OUTPUT`: bin/3D-ICE-Server.c:434-476 with `fill_output_message`, sources/output.c:297-346. -/
def outputWords (e : Env K π) (s : Sim K π) (instant type quantity : Nat) : List Nat :=
  let n := countPoints e.output instant type quantity
  e.toFloat (simulatedTime e.cfg.an s) :: n ::
    (if n > 0 then
      match listOf e.output instant with
      | some ps => (ps.filter fun p => isPoint p type quantity).flatMap (pointWords e s quantity)
      | none => []
    else [])

/-- `generate_inspection_point_header` succeeds: sources/inspection_point.c:361-573. -/
def headerOk (canOpen : String → Bool) (p : Point K) : Bool :=
  match p.kind with
  | .t3d => true
  | .none => false
  | .tflp .. | .tflpel .. | .tcoolant .. => canOpen p.file && decide (p.quantity ≠ .none)
  | _ => canOpen p.file

/-- `generate_output_headers` succeeds: sources/output.c:190-233. -/
def headersOk (canOpen : String → Bool) (o : Output K) : Bool :=
  o.final.all (headerOk canOpen) && o.slot.all (headerOk canOpen) && o.step.all (headerOk canOpen)

/-- The instant of a print request: sources/output.c:251-271. -/
def instantOf (code : Nat) : Instant := if code = 1 then .final else if code = 3 then .step else if code = 2 then .slot else .none

/-- The power values extracted from a request: bin/3D-ICE-Server.c:395-406. The result of `extract_message_word` is ignored: when it fails
the value is whatever the variable holds. -/
def Extracted (e : Env K π) (m : Msg) (n : Nat) (vs : List K) : Prop :=
  vs.length = n ∧ ∀ i : Nat, i < n → (∃ w, extract m (i + 1) = .ok w ∧ vs[i]? = some (e.ofFloat w)) ∨ extract m (i + 1) = .failure

/-- Where the server goes after a request: the next iteration, the label `quit`, the label `sim_error`. -/
inductive Next (K π : Type) where
  | run (s : State K π)
  | quit (s : State K π)
  | error (s : State K π)

/-- `main` after the result of a simulation function: bin/3D-ICE-Server.c:549-560 (a slot), 591-602 (a step). -/
def afterSlot (r : SimResult) (s : State K π) : Next K π :=
  if r = .endOfSimulation then .quit s else if r ≠ .slotDone then .error s else .run s
def afterStep (r : SimResult) (s : State K π) : Next K π :=
  if r = .endOfSimulation then .quit s else if r ≠ .stepDone ∧ r ≠ .slotDone then .error s else .run s

/-- `main` for a print request, once the headers are there: bin/3D-ICE-Server.c:480-510; the result of `generate_output` is ignored. -/
def printed (e : Env K π) (s : State K π) (instant : Nat) : State K π :=
  { s with headers := true, log := s.log ++ outputNow e.canOpen e.output e.cfg s.sim (instantOf instant) }

/-- One iteration of the loop of `main`, the `switch` on the type of the received message `m`: bin/3D-ICE-Server.c:345-620. The reply, if
any, is the message handed to `send_message_to_socket`. -/
inductive Handles (e : Env K π) (s : State K π) (m : Msg) : Option Msg → Next K π → Prop
  | exit : typeWord m = some 0 → Handles e s m none (.quit s)
  | reset : typeWord m = some 1 → Handles e s m none (.run { s with sim := Emu.reset e.cfg s.sim })
  | output {i t q r} : typeWord m = some 2 → extract m 0 = .ok i → extract m 1 = .ok t → extract m 2 = .ok q →
      buildMessage 2 (outputWords e s.sim i t q) = some r → Handles e s m (some r) (.run s)
  | print {i} : typeWord m = some 3 → extract m 0 = .ok i → s.headers = true ∨ headersOk e.canOpen e.output = true →
      Handles e s m none (.run (printed e s i))
  | printFails {i} : typeWord m = some 3 → extract m 0 = .ok i → s.headers = false → headersOk e.canOpen e.output = false →
      Handles e s m none (.error s)
  | total {r} : typeWord m = some 4 → buildMessage 4 [totalElements e.elems] = some r → Handles e s m (some r) (.run s)
  | insert {n vs sim r} : typeWord m = some 5 → extract m 0 = .ok n → Extracted e m n vs → insertPowerValues s.sim vs = (sim, true) →
      buildMessage 5 [0] = some r → Handles e s m (some r) (.run { s with sim := sim })
  | insertFails {n vs sim} : typeWord m = some 5 → extract m 0 = .ok n → Extracted e m n vs → insertPowerValues s.sim vs = (sim, false) →
      Handles e s m none (.error { s with sim := sim })
  | slot {r sim rep} : typeWord m = some 6 → SlotRun e.cfg s.sim r sim → buildMessage 6 [simCode r] = some rep →
      Handles e s m (some rep) (afterSlot r { s with sim := sim })
  | step {r sim rep} : typeWord m = some 7 → emulateStep e.cfg s.sim = (r, sim) → buildMessage 7 [simCode r] = some rep →
      Handles e s m (some rep) (afterStep r { s with sim := sim })
  | files {ws rep} : typeWord m = some 8 →
      outputFilesWords (e.disk s.headers s.log) (e.output.final.map fun p => bytesOf p.file) (e.output.slot.map fun p => bytesOf p.file)
        (e.output.step.map fun p => bytesOf p.file) = some ws →
      buildMessage 8 ws = some rep → Handles e s m (some rep) (.run s)
  | filesFail : typeWord m = some 8 →
      outputFilesWords (e.disk s.headers s.log) (e.output.final.map fun p => bytesOf p.file) (e.output.slot.map fun p => bytesOf p.file)
        (e.output.step.map fun p => bytesOf p.file) = none →
      Handles e s m none (.error s)
  | unknown {t} : typeWord m = some t → 9 ≤ t → Handles e s m none (.run s)

/-- How a server ends, or that it waits for the client. -/
inductive Final (K π : Type) where
  | waiting (s : State K π)
  | quit (s : State K π)
  | error (s : State K π)

/-- The loop of `main`: bin/3D-ICE-Server.c:339-624. Each request is received in a fresh message; the result of
`receive_message_from_socket` is ignored. `sched` and `stream` describe what the socket delivers (see `Verif.Model.Net`), the list contains
the replies in the order they are sent. -/
inductive Serve (e : Env K π) : List ReadEv → List Nat → State K π → List Msg → Final K π → Prop
  | wait {sched stream s r} : receive sched stream Net.init = some r → r.status = .blocked → Serve e sched stream s [] (.waiting s)
  | quit {sched stream s r rep s'} : receive sched stream Net.init = some r → r.status ≠ .blocked → Handles e s r.msg rep (.quit s') →
      Serve e sched stream s rep.toList (.quit s')
  | error {sched stream s r rep s'} : receive sched stream Net.init = some r → r.status ≠ .blocked → Handles e s r.msg rep (.error s') →
      Serve e sched stream s rep.toList (.error s')
  | next {sched stream s r rep s' reps f} : receive sched stream Net.init = some r → r.status ≠ .blocked →
      Handles e s r.msg rep (.run s') → Serve e r.sched r.rest s' reps f → Serve e sched stream s (rep.toList ++ reps) f

end Verif.Srv
