import Verif.Model.Net
/-
Model of the replies that carry byte strings: Tflp reports (sources/inspection_point.c, sources/output.c,
bin/3D-ICE-Server.c on the server side, bin/3D-ICE-Client.c on the client side) and the transfer of output files
(bin/3D-ICE-Server.c).
-/
namespace Verif.Net

/-- include/types.h:500-540 `OutputType_t`, as its numeric code: NONE 0, TCELL 1, TFLP 2, TFLPEL 3, TMAP 4, PMAP 5,
TCOOLANT 6, T3D 7. -/
abbrev OutputType := Nat
def TCELL : OutputType := 1
def TFLP : OutputType := 2
def TFLPEL : OutputType := 3
def TMAP : OutputType := 4
def PMAP : OutputType := 5
def TCOOLANT : OutputType := 6

/-- An inspection point as the message code sees it (include/inspection_point.h:60-140): type, quantity, file name, the
header text that `build_tflp_header` (inspection_point.c:1022-1113) produces for it, and the 4-byte words of its values
(floats) at the instant of the request (inspection_point.c:1156-1199 for Tflp). Simplification: the text and the values are given,
their computation is modelled elsewhere. -/
structure Point where
  otype    : OutputType
  quantity : Nat
  name     : List Nat
  header   : List Nat
  values   : List Nat
deriving Repr, DecidableEq

/-- sources/inspection_point.c:318-357 `is_inspection_point` -/
def isInspectionPoint (p : Point) (type quantity : Nat) : Bool :=
  if p.otype ≠ type then false
  else if type = TCELL ∨ type = TMAP ∨ type = PMAP then true
  else if type = TFLP ∨ type = TCOOLANT ∨ type = TFLPEL then p.quantity == quantity
  else false

/-- sources/inspection_point.c:1154-1231 : the words inserted for a Tflp point (AVERAGE 1, MAXIMUM 2, MINIMUM 3,
GRADIENT 4; for any other quantity nothing is inserted). -/
def fillTflp (p : Point) (quantity : Nat) : List Nat :=
  if 1 ≤ quantity ∧ quantity ≤ 4 then
    [p.name.length, p.header.length, p.values.length] ++ packBytes p.name ++ packBytes p.header ++ p.values
  else []

/-- bin/3D-ICE-Server.c:426-466 `TDICE_SEND_OUTPUT` for Tflp points of one instant list, with
sources/output.c:85-130 and 297-346 : time, number of matching points, then each matching point in list order. -/
def tflpReplyWords (points : List Point) (time quantity : Nat) : List Nat :=
  let matching := points.filter (fun p => isInspectionPoint p TFLP quantity)
  time :: matching.length :: (if matching.length > 0 then matching.flatMap (fun p => fillTflp p quantity) else [])

/-- The reply message: `network_message_init`, `build_message_head (TDICE_SEND_OUTPUT = 2)`, insertions. -/
def buildMessage (type : Nat) (words : List Nat) : Option Msg :=
  match buildHead init type with
  | none   => none
  | some m => insertWords m words

/-- A report as the client writes it to a file. -/
structure Report where
  name   : List Nat
  header : List Nat
  values : List Nat
deriving Repr, DecidableEq

/-- Outcome of the client decoder. `garbage`: an extraction failed whose result the client ignores (it then uses an
uninitialised variable). -/
inductive Decode (α : Type) where
  | garbage
  | failure
  | ok (a : α)
deriving Repr, DecidableEq

/-- bin/3D-ICE-Client.c:232-241 : `n` temperature words from word `index`. -/
def decodeValues (m : Msg) : Nat → Nat → Decode (List Nat)
  | 0,     _     => .ok []
  | n + 1, index =>
    match extract m index with
    | .ok v => match decodeValues m n (index + 1) with
      | .ok vs   => .ok (v :: vs)
      | .garbage => .garbage
      | .failure => .failure
    | _ => .garbage

/-- bin/3D-ICE-Client.c:153-246 : `n` reports from word `index`. Files are created by the caller. -/
def decodeReports (m : Msg) : Nat → Nat → Decode (List Report)
  | 0,     _     => .ok []
  | n + 1, index =>
    match extract m index, extract m (index + 1), extract m (index + 2) with
    | .ok nl, .ok hl, .ok nv =>
      match extractBytes m (index + 3) nl with
      | .ok name i1 =>
        match extractBytes m i1 hl with
        | .ok header i2 =>
          match decodeValues m nv i2 with
          | .ok vs =>
            match decodeReports m n (i2 + nv) with
            | .ok rs   => .ok (⟨name, header, vs⟩ :: rs)
            | .garbage => .garbage
            | .failure => .failure
          | .garbage => .garbage
          | .failure => .failure
        | .failure => .failure
        | .ub      => .garbage
      | .failure => .failure
      | .ub      => .garbage
    | _, _, _ => .garbage

/-- bin/3D-ICE-Client.c:104-257 `request_tflp_slot_output` : time word, number of results, then the reports. -/
def clientDecode (m : Msg) : Decode (Nat × List Report) :=
  match extract m 0, extract m 1 with
  | .ok time, .ok n =>
    if n = 0 then .ok (time, [])
    else match decodeReports m n 2 with
      | .ok rs   => .ok (time, rs)
      | .garbage => .garbage
      | .failure => .failure
  | _, _ => .garbage

/-- bin/3D-ICE-Server.c:97-183 `append_file_to_message` : `files` gives the content of a readable file; state = (names
added so far, words inserted so far). A file larger than 2^32-1 bytes is outside the model. `none` = TDICE_FAILURE
(1024 names already sent, Server.c:54). -/
def appendFile (files : List Nat → Option (List Nat)) (st : List (List Nat) × List Nat) (name : List Nat) :
    Option (List (List Nat) × List Nat) :=
  if name = [] then some st
  else if name ∈ st.1 then some st
  else if st.1.length = 1024 then none
  else match files name with
    | none   => some st
    | some c => some (st.1 ++ [name], st.2 ++ [name.length, c.length] ++ packBytes name ++ packBytes c)

/-- bin/3D-ICE-Server.c:185-211 `append_output_files_from_list` -/
def appendFiles (files : List Nat → Option (List Nat)) :
    List (List Nat) × List Nat → List (List Nat) → Option (List (List Nat) × List Nat)
  | st, []      => some st
  | st, n :: ns => match appendFile files st n with
    | none     => none
    | some st' => appendFiles files st' ns

/-- bin/3D-ICE-Server.c:213-243 `build_output_files_message` : the content words (the first one is overwritten with the
number of files at the end); `final`, `slot`, `step` are the file names of the three inspection point lists. -/
def outputFilesWords (files : List Nat → Option (List Nat)) (final slot step : List (List Nat)) : Option (List Nat) :=
  match appendFiles files ([], []) final with
  | none    => none
  | some s1 => match appendFiles files s1 slot with
    | none    => none
    | some s2 => match appendFiles files s2 step with
      | none    => none
      | some s3 => some (s3.1.length :: s3.2)

end Verif.Net
