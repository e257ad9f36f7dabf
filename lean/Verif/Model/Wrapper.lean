import Verif.Model.Server

/-! Model of the SystemC wrapper: `sources/IceWrapper.cpp`, class `IceWrapper`, a client of the simulation server.

A message is what `Verif.Model.Net` describes, a `float` is its word. The results of `receive_message_from_socket` and of
`extract_message_word` are never looked at by the wrapper. Not modelled: opening and closing the connection, the text on the terminal, the formatting
of the numbers in a file (a file is the list of its maps, a map the list of its rows, a row the list of its words). -/

namespace Verif.Wrap
open Verif.Net (Msg extract buildMessage)

/-- The request of `getNumberOfFloorplanElements`: sources/IceWrapper.cpp:97-98. -/
def countRequest : Option Msg := buildMessage 4 []

/-- What `getNumberOfFloorplanElements` returns after receiving `m`: sources/IceWrapper.cpp:101. The variable is not initialised: `none` if the
extraction fails. -/
def count (m : Msg) : Option Nat :=
  match extract m 0 with
  | .ok w => some w
  | _ => none

/-- The request of `sendPowerValues`, for a wrapper that knows `n` floorplan elements: sources/IceWrapper.cpp:109-124. `none`: the number of
values is wrong (`SC_REPORT_FATAL` aborts), or there is no memory. -/
def powersRequest (n : Nat) (powers : List Nat) : Option Msg :=
  if powers.length ≠ n then none else buildMessage 5 (n :: powers)

/-- `sendPowerValues` returns without a fatal error after receiving `m`: sources/IceWrapper.cpp:129-141 (`TDICE_SUCCESS` is 0). -/
def powersAccepted (m : Msg) : Bool :=
  match extract m 0 with
  | .ok w => w == 0
  | _ => false

/-- The request of `simulate`: sources/IceWrapper.cpp:146-148. -/
def simulateRequest : Option Msg := buildMessage 6 []

/-- `simulate` returns without a fatal error after receiving `m`: sources/IceWrapper.cpp:152-163 (`TDICE_SLOT_DONE` is 4). -/
def simulated (m : Msg) : Bool :=
  match extract m 0 with
  | .ok w => w == 4
  | _ => false

/-- The request of `getTemperature`: sources/IceWrapper.cpp:168-172. -/
def outputRequest (instant type quantity : Nat) : Option Msg := buildMessage 2 [instant, type, quantity]

/-- The variable `temperature` of `getTemperature` after one extraction: sources/IceWrapper.cpp:202-203. It is 0 if the extraction fails. -/
def temperatureAt (m : Msg) (i : Nat) : Nat :=
  match extract m i with
  | .ok w => w
  | _ => 0

/-- The loop of `getTemperature`, `fuel` iterations from the word `i`: sources/IceWrapper.cpp:200-205, on `unsigned int`. -/
def temperaturesFrom (m : Msg) : Nat → Nat → List Nat
  | 0, _ => []
  | fuel + 1, i => temperatureAt m i :: temperaturesFrom m fuel ((i + 1) % 4294967296)

/-- What `getTemperature` adds to the vector after receiving `m`: sources/IceWrapper.cpp:185-205. `none`: `nresults` is not initialised. -/
def getTemperature (m : Msg) : Option (List Nat) :=
  match extract m 1 with
  | .ok n => some (temperaturesFrom m n 2)
  | _ => none

/-- The `double` of `getTemperature` after the extraction of word 0: sources/IceWrapper.cpp:184, 187. The variable is 0 and only its four lower bytes
are overwritten (little endian): it is the denormal number `w * 2^-1074`. -/
def timeRead {K : Type} [Field K] (m : Msg) : K :=
  match extract m 0 with
  | .ok w => (w : K) / 2 ^ 1074
  | _ => 0

/-- The check of `getTemperature` that ends the program, for the time `t` of the server, the time `now` of SystemC and the tolerance `ns`:
sources/IceWrapper.cpp:191-192. Simplification: exact times, no resolution and no overflow. -/
def OutOfSync {K : Type} [Field K] [LinearOrder K] (t now ns : K) : Prop := t ≥ now + ns ∧ t ≤ now - ns

/-- The innermost statements of `getMap`: sources/IceWrapper.cpp:253-255; the state is `index` and `temperature`, which keeps its value
if the extraction fails. -/
def mapCell (m : Msg) (st : Nat × Nat) : Nat × Nat :=
  let i := (st.1 + 1) % 4294967296
  (i, match extract m i with
    | .ok w => w
    | _ => st.2)

/-- The loop on the columns: sources/IceWrapper.cpp:251-256; the words written, and the state. -/
def mapRow (m : Msg) : Nat → Nat × Nat → List Nat × (Nat × Nat)
  | 0, st => ([], st)
  | n + 1, st =>
    let st' := mapCell m st
    let r := mapRow m n st'
    (st'.2 :: r.1, r.2)

/-- The loop on the rows: sources/IceWrapper.cpp:249-258. -/
def mapLoop (m : Msg) (ncolumns : Nat) : Nat → Nat × Nat → List (List Nat) × (Nat × Nat)
  | 0, st => ([], st)
  | n + 1, st =>
    let r := mapRow m ncolumns st
    let r' := mapLoop m ncolumns n r.2
    (r.1 :: r'.1, r'.2)

/-- The loop on the results: sources/IceWrapper.cpp:247-260. -/
def mapsLoop (m : Msg) (nrows ncolumns : Nat) : Nat → Nat × Nat → List (List (List Nat))
  | 0, _ => []
  | n + 1, st =>
    let r := mapLoop m ncolumns nrows st
    r.1 :: mapsLoop m nrows ncolumns n r.2

/-- The request of `getMap`: sources/IceWrapper.cpp:212-219, with the instant SLOT (2) and the quantity NONE (0). -/
def mapRequest (type : Nat) : Option Msg := outputRequest 2 type 0

/-- What `getMap` appends to the file after receiving `m`: sources/IceWrapper.cpp:231-260. `none`: a size is not initialised. -/
def getMap (m : Msg) : Option (List (List (List Nat))) :=
  match extract m 1, extract m 2, extract m 3 with
  | .ok nresults, .ok nrows, .ok ncolumns => some (mapsLoop m nrows ncolumns nresults (4, 0))
  | _, _, _ => none

end Verif.Wrap
