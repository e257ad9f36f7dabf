import Verif.Model.Reply

/-! Model of the client `bin/3D-ICE-Client.c`: its arguments, the reading of the power trace and the main loop.

The server is a parameter: a relation between its state, the message it gets and what the client finds in its message object after
`receive_message_from_socket`. `float`s are the words that hold them. Not modelled: what the client prints on the terminal and in
`thermal_map.txt`, failures of `malloc`, of `socket`/`connect` and of `fopen ("thermal_map.txt")`. -/

namespace Verif.Cli
open Verif.Net (Msg extract buildMessage Report clientDecode Decode)

/-- `TERMINATION_SENTINEL` (bin/3D-ICE-Client.c:73): the bits of `-1.0f`, the only `float` equal to it. -/
def sentinel : Nat := 3212836864

/-- What the arguments select: number of slots, the two flags, whether a power trace is read. -/
structure Opts where
  nslots : Nat
  untilMinusOne : Bool
  follow : Bool
  trace : Option String
deriving DecidableEq, Repr

/-- `is_non_negative_integer`: bin/3D-ICE-Client.c:293-307. -/
def isNumber (s : String) : Bool := decide (s.toList ≠ []) && s.toList.all fun c => decide ('0' ≤ c ∧ c ≤ '9')

/-- `(Quantity_t) atol (NSLOTS)` on digits: glibc's `atol` stops at `LONG_MAX`. bin/3D-ICE-Client.c:413-414. -/
def slotsOf (s : String) : Nat := min (s.toList.foldl (fun n c => 10 * n + (c.toNat - 48)) 0) (2 ^ 63 - 1) % Net.W

/-- The loop on the options: bin/3D-ICE-Client.c:472-491. -/
def options : List String → Bool × Bool → Option (Bool × Bool)
  | [], fl => some fl
  | a :: as, fl =>
    if a = "--follow" then options as (true, fl.2)
    else if a = "--until-minus-one" then options as (fl.1, true)
    else none

/-- The trace, the options and the checks on them: bin/3D-ICE-Client.c:460-513. `n` is `nslots`. -/
def finishArgs (canRead : String → Bool) (n : Nat) (file : Option String) (opts : List String) : Option Opts :=
  if file.any fun f => !canRead f then none
  else
    match options opts (false, false) with
    | none => none
    | some (follow, until') =>
      if until' = true ∧ file = none then none
      else if n = 0 ∧ until' = false then none
      else some ⟨n, until', follow, file⟩

/-- The arguments after the name of the program: bin/3D-ICE-Client.c:390-513; `none` = the client gives up before it connects. `canRead` tells which
files can be opened. -/
def parseArgs (canRead : String → Bool) (args : List String) : Option Opts :=
  if args.length < 3 ∨ args.length > 6 then none
  else
    let a1 := args.headD ""
    if isNumber a1 then
      if (args.getD 1 "").utf8ByteSize > 49 then none else finishArgs canRead (slotsOf a1) args[3]? (args.drop 4)
    else if args.length < 4 ∨ args.length > 5 then none
    else if a1.utf8ByteSize > 49 then none
    else finishArgs canRead 0 args[2]? (args.drop 3)

/-- Where power values come from: a random generator, or the file: the values `fscanf` will read, and whether something follows that is not a
number (otherwise the end of the file). In follow mode the list contains everything that is ever appended to the file. -/
inductive Source where
  | random (stream : Nat → Nat)
  | file (values : List Nat) (bad : Bool)

/-- Outcome of `read_power_trace_value`. -/
inductive Read where
  | got (w : Nat) (src : Source)
  | failed
  | waits

/-- `read_power_trace_value` (bin/3D-ICE-Client.c:309-354) or `random_value`. -/
def readValue (follow : Bool) : Source → Read
  | .random f => .got (f 0) (.random fun k => f (k + 1))
  | .file (w :: ws) bad => .got w (.file ws bad)
  | .file [] bad => if bad = false ∧ follow = true then .waits else .failed

/-- Outcome of the loop that reads the values of a slot. -/
inductive SlotRead where
  | slot (values : List Nat) (termination : Bool) (src : Source)
  | failed
  | waits

/-- The loop on the floorplan elements, with `termination_slot`: bin/3D-ICE-Client.c:568-594. -/
def readSlot (follow : Bool) : Nat → Source → Bool → List Nat → SlotRead
  | 0, src, term, acc => .slot acc term src
  | n + 1, src, term, acc =>
    match readValue follow src with
    | .got w src' => readSlot follow n src' (if term = true ∧ w ≠ sentinel then false else term) (acc ++ [w])
    | .failed => .failed
    | .waits => .waits

/-- How the client ends, or that it waits for more values in follow mode. -/
inductive Outcome where
  | success | failure | waiting
deriving DecidableEq, Repr

/-- The server as the client sees it: state, message sent, whether `receive_message_from_socket` succeeds, the message object after it, state. -/
abbrev Talk (σ : Type) := σ → Msg → Bool → Msg → σ → Prop

/-- `request_tflp_slot_output` (bin/3D-ICE-Client.c:104-257) after the request: whether it returns success. When an extraction whose result is
ignored fails, anything can happen. -/
def tflpOk (canWrite : List Nat → Bool) (received : Bool) (m : Msg) (ok : Bool) : Prop :=
  if received = false then ok = false
  else match clientDecode m with
    | .ok (_, reports) => ok = reports.all fun r => canWrite r.name
    | .failure => ok = false
    | .garbage => True

/-- The requests for reports, at most three: `request_tflp_slot_outputs` (bin/3D-ICE-Client.c:259-281). The quantities are those still to
be asked. -/
inductive Reports {σ : Type} (talk : Talk σ) (canWrite : List Nat → Bool) : List Nat → σ → List Msg → Bool → σ → Prop
  | done {s} : Reports talk canWrite [] s [] true s
  | fails {q qs s m b r s'} : buildMessage 2 [2, 2, q] = some m → talk s m b r s' → tflpOk canWrite b r false →
      Reports talk canWrite (q :: qs) s [m] false s'
  | next {q qs s m b r s' ms ok s''} : buildMessage 2 [2, 2, q] = some m → talk s m b r s' → tflpOk canWrite b r true →
      Reports talk canWrite qs s' ms ok s'' → Reports talk canWrite (q :: qs) s (m :: ms) ok s''

/-- The main loop, from bin/3D-ICE-Client.c:558 to the end of `main`: `n` is `nflpel`, `k` is `nslots`. The list contains the messages the client
sends, in order. The replies to the requests of cells, maps and elements are only printed. -/
inductive Loop {σ : Type} (o : Opts) (talk : Talk σ) (canWrite : List Nat → Bool) (n : Nat) : Nat → Source → σ → List Msg → Outcome → σ → Prop
  | finished {k src s m} : ¬ (o.nslots = 0 ∧ o.untilMinusOne = true) → k = 0 → buildMessage 0 [] = some m →
      Loop o talk canWrite n k src s [m] .success s
  | readFails {k src s} : (o.nslots = 0 ∧ o.untilMinusOne = true) ∨ k ≠ 0 → readSlot o.follow n src o.untilMinusOne [] = .failed →
      Loop o talk canWrite n k src s [] .failure s
  | readWaits {k src s} : (o.nslots = 0 ∧ o.untilMinusOne = true) ∨ k ≠ 0 → readSlot o.follow n src o.untilMinusOne [] = .waits →
      Loop o talk canWrite n k src s [] .waiting s
  | terminated {k src s vs src' m} : (o.nslots = 0 ∧ o.untilMinusOne = true) ∨ k ≠ 0 →
      readSlot o.follow n src o.untilMinusOne [] = .slot vs true src' → buildMessage 0 [] = some m → Loop o talk canWrite n k src s [m] .success s
  | insertFails {k src s vs src' m1 b1 r1 s1 w1} : (o.nslots = 0 ∧ o.untilMinusOne = true) ∨ k ≠ 0 →
      readSlot o.follow n src o.untilMinusOne [] = .slot vs false src' → buildMessage 5 (n :: vs) = some m1 → talk s m1 b1 r1 s1 →
      extract r1 0 = .ok w1 → w1 ≠ 0 → Loop o talk canWrite n k src s [m1] .failure s1
  | slotFails {k src s vs src' m1 b1 r1 s1 m2 b2 r2 s2 w2} : (o.nslots = 0 ∧ o.untilMinusOne = true) ∨ k ≠ 0 →
      readSlot o.follow n src o.untilMinusOne [] = .slot vs false src' → buildMessage 5 (n :: vs) = some m1 → talk s m1 b1 r1 s1 →
      extract r1 0 = .ok 0 → buildMessage 6 [] = some m2 → talk s1 m2 b2 r2 s2 → extract r2 0 = .ok w2 → w2 ≠ 4 →
      Loop o talk canWrite n k src s [m1, m2] .failure s2
  | reportFails {k src s vs src' m1 b1 r1 s1 m2 b2 r2 s2 ms s3} : (o.nslots = 0 ∧ o.untilMinusOne = true) ∨ k ≠ 0 →
      readSlot o.follow n src o.untilMinusOne [] = .slot vs false src' → buildMessage 5 (n :: vs) = some m1 → talk s m1 b1 r1 s1 →
      extract r1 0 = .ok 0 → buildMessage 6 [] = some m2 → talk s1 m2 b2 r2 s2 → extract r2 0 = .ok 4 →
      Reports talk canWrite [1, 2, 3] s2 ms false s3 → Loop o talk canWrite n k src s (m1 :: m2 :: ms) .failure s3
  | next {k src s vs src' m1 b1 r1 s1 m2 b2 r2 s2 ms s3 m4 b4 r4 s4 m5 b5 r5 s5 m6 b6 r6 s6 msgs f s'} :
      (o.nslots = 0 ∧ o.untilMinusOne = true) ∨ k ≠ 0 →
      readSlot o.follow n src o.untilMinusOne [] = .slot vs false src' → buildMessage 5 (n :: vs) = some m1 → talk s m1 b1 r1 s1 →
      extract r1 0 = .ok 0 → buildMessage 6 [] = some m2 → talk s1 m2 b2 r2 s2 → extract r2 0 = .ok 4 →
      Reports talk canWrite [1, 2, 3] s2 ms true s3 → buildMessage 2 [2, 1, 0] = some m4 → talk s3 m4 b4 r4 s4 →
      buildMessage 2 [2, 4, 0] = some m5 → talk s4 m5 b5 r5 s5 → buildMessage 2 [2, 3, 1] = some m6 → talk s5 m6 b6 r6 s6 →
      Loop o talk canWrite n (if o.nslots = 0 ∧ o.untilMinusOne = true then k else k - 1) src' s6 msgs f s' →
      Loop o talk canWrite n k src s (m1 :: m2 :: (ms ++ m4 :: m5 :: m6 :: msgs)) f s'

/-- `main` once connected: bin/3D-ICE-Client.c:548-820: the number of floorplan elements, then the loop. -/
def Client {σ : Type} (o : Opts) (talk : Talk σ) (canWrite : List Nat → Bool) (src : Source) (s : σ) (msgs : List Msg) (f : Outcome) (s' : σ) : Prop :=
  ∃ m b r s1 n ms, buildMessage 4 [] = some m ∧ talk s m b r s1 ∧ extract r 0 = .ok n ∧ Loop o talk canWrite n o.nslots src s1 ms f s' ∧
    msgs = m :: ms

end Verif.Cli
