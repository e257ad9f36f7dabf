import Verif.Model.Scanner
import Verif.Model.ThermalGrid

/-! Model of the grammars `bison/stack_description_parser.y`, `bison/floorplan_parser.y` and `bison/layout_parser.y`: from the tokens of a
file to the document they form. What the actions do with the document is in `Verif.Model.FrontEnd`.

bison generates from each grammar a table-driven LALR(1) parser. It is modelled by a recursive-descent parser that decides on the next
token (after `top`: on the next two) what the generated one decides by its tables; a construct that is not completed makes the file be
refused. That the tables decode the grammar is trusted (the grammars have no conflicts), as is the order in which errors are reported. -/

namespace Verif.Gram
open Verif.Scan Verif.TG

/-! ### Documents -/

/-- Thermal conductivity: one value or one for each axis: bison/stack_description_parser.y:297-341. -/
inductive CondD where
  | iso (k : ℚ)
  | aniso (kx ky kz : ℚ)
deriving DecidableEq

/-- `material`: bison/stack_description_parser.y:295-342, bison/layout_parser.y:188-240. -/
structure MatD where
  id : String
  cond : CondD
  vhc : ℚ
deriving DecidableEq

/-- `topsink`, `bottomsink`: bison/stack_description_parser.y:362-404. -/
structure SinkD where
  htc : ℚ
  temp : ℚ
deriving DecidableEq

/-- `topsink_pluggable`: bison/stack_description_parser.y:405-496. -/
structure PlugD where
  length : ℚ
  width : ℚ
  height : ℚ
  mat : String
  plugin : String
  args : Option String
deriving DecidableEq

/-- The two kinds of top sink: bison/stack_description_parser.y:346-360. -/
inductive TopD where
  | conv (s : SinkD)
  | plug (p : PlugD)
deriving DecidableEq

/-- `coolant_heat_transfer_coefficients_4rm`: bison/stack_description_parser.y:683-699. -/
inductive Htc4 where
  | one (h : ℚ)
  | three (side top bottom : ℚ)
deriving DecidableEq

/-- `coolant_heat_transfer_coefficients_2rm`: bison/stack_description_parser.y:701-716. -/
inductive Htc2 where
  | one (h : ℚ)
  | two (top bottom : ℚ)
deriving DecidableEq

/-- `microchannel_opt`: bison/stack_description_parser.y:501-681. -/
inductive ChanD where
  | rm4 (height channel wall : ℚ) (first last : Option ℚ) (mat : String) (flow : ℚ) (htc : Htc4) (vhc tin : ℚ)
  | rm2 (height channel wall : ℚ) (mat : String) (flow : ℚ) (htc : Htc2) (vhc tin : ℚ)
  | pin (height diameter pitch : ℚ) (staggered : Bool) (mat : String) (darcy vhc tin : ℚ)
deriving DecidableEq

/-- `dimensions`: bison/stack_description_parser.y:1070-1174. -/
structure DimD where
  chipL : ℚ
  chipW : ℚ
  cellL : ℚ
  cellW : ℚ
  nonUniform : Option Bool
deriving DecidableEq

/-- `layer`: bison/stack_description_parser.y:776-869. -/
structure LayD where
  id : String
  height : ℚ
  mat : String
  layout : Option String
deriving DecidableEq

/-- `die_layer_content`: bison/stack_description_parser.y:919-997. -/
inductive DLayD where
  | own (height : ℚ) (mat : String)
  | ref (id : String)
deriving DecidableEq

/-- `die`: bison/stack_description_parser.y:1030-1064. -/
structure DieD where
  id : String
  above : List DLayD
  source : DLayD
  below : List DLayD
deriving DecidableEq

/-- `stack_element`: bison/stack_description_parser.y:1399-1728. -/
inductive ElD where
  | layer (id ref : String) (discr : Option (ℚ × ℚ))
  | channel (id : String)
  | die (id ref flp : String) (discr : Option (ℚ × ℚ))
deriving DecidableEq

/-- `solver`: bison/stack_description_parser.y:1732-1834. `kind` is empty for a steady-state analysis, else the step and slot times. -/
structure SolverD where
  kind : Option (ℚ × ℚ)
  init : ℚ
  cores : Option ℚ
deriving DecidableEq

/-- `when`: bison/stack_description_parser.y:2303-2310. -/
inductive WhenD where
  | unsaid | step | slot | final
deriving DecidableEq

/-- `maxminavg`: bison/stack_description_parser.y:2295-2301. -/
inductive QuantD where
  | maximum | minimum | average | gradient
deriving DecidableEq

/-- `inspection_point`: bison/stack_description_parser.y:1864-2293. -/
inductive PointD where
  | tcell (el : String) (x y : ℚ) (file : String) (w : WhenD)
  | tflp (el : String) (file : String) (q : QuantD) (w : WhenD)
  | tflpel (el sub : String) (file : String) (q : QuantD) (w : WhenD)
  | tmap (el : String) (file : String) (w : WhenD)
  | t3d (file : String) (w : WhenD)
  | pmap (el : String) (file : String) (w : WhenD)
  | tcoolant (el : String) (file : String) (q : QuantD) (w : WhenD)
deriving DecidableEq

/-- `stack_description_file`: bison/stack_description_parser.y:250-262. No layers, no output section: empty lists. -/
structure StackD where
  mats : List MatD
  top : Option TopD
  bottom : Option SinkD
  chan : Option ChanD
  dims : DimD
  layers : List LayD
  dies : List DieD
  elems : List ElD
  solver : SolverD
  points : List PointD
deriving DecidableEq

/-- `ic_elements` of a floorplan: one rectangle, with a material and a discretization of its own, or a list of rectangles:
bison/floorplan_parser.y:289-462. -/
inductive AreaD where
  | one (x y length width : ℚ) (mat : Option String) (discr : Option (ℚ × ℚ))
  | many (rects : List (Rect ℚ))

/-- `floorplan_element`: bison/floorplan_parser.y:174-285. No power values: empty list. -/
structure FlpD where
  id : String
  area : AreaD
  powers : List ℚ

/-- `layout_elements`: bison/layout_parser.y:404-490. -/
inductive LAreaD where
  | one (x y length width : ℚ)
  | many (rects : List (Rect ℚ))

/-- `layout_file`: bison/layout_parser.y:137-402: local materials, then for each material its rectangles. -/
structure LayoutD where
  mats : List MatD
  areas : List (String × LAreaD)

/-! ### Parsers -/

/-- A parser takes tokens from the front; `none`: syntax error. -/
abbrev P (α : Type) := List Tok → Option (α × List Tok)

/-- The given tokens. -/
def lit : List Tok → List Tok → Option (List Tok)
  | [], ts => some ts
  | _ :: _, [] => none
  | t :: l, u :: ts => if t = u then lit l ts else none

/-- A value token. -/
def num : P ℚ
  | .num q :: ts => some (q, ts)
  | _ => none
def ident : P String
  | .ident s :: ts => some (s, ts)
  | _ => none
def path : P String
  | .path s :: ts => some (s, ts)
  | _ => none

/-- The next token satisfies `k`. -/
def next (k : Tok → Bool) (ts : List Tok) : Bool :=
  match ts with
  | [] => false
  | t :: _ => k t

/-- An optional construct, recognised by its first token. -/
def opt {α : Type} (k : Tok → Bool) (p : P α) : P (Option α) := fun ts =>
  if next k ts then (p ts).map fun x => (some x.1, x.2) else some (none, ts)

/-- A list of constructs, recognised by their first token. `n` bounds their number; callers pass the number of tokens. -/
def many {α : Type} (k : Tok → Bool) (p : P α) : Nat → P (List α)
  | 0, ts => if next k ts then none else some ([], ts)
  | n + 1, ts =>
    if next k ts then (p ts).bind fun x => (many k p n x.2).map fun y => (x.1 :: y.1, y.2)
    else some ([], ts)

/-- A non-empty list. -/
def many1 {α : Type} (k : Tok → Bool) (p : P α) : P (List α) := fun ts =>
  (many k p ts.length ts).bind fun x => if x.1.isEmpty then none else some x

def isKw (k : String) (t : Tok) : Bool := decide (t = .kw k)
def isSym (c : Char) (t : Tok) : Bool := decide (t = .sym c)
def isIdent (t : Tok) : Bool := match t with | .ident _ => true | _ => false

/-- A keyword, a number and a semicolon, after the given tokens. -/
def field (l : List Tok) : P ℚ := fun ts =>
  (lit l ts).bind fun ts => (num ts).bind fun q => (lit [.sym ';'] q.2).map fun ts => (q.1, ts)

/-- The same with a name. -/
def fieldId (l : List Tok) : P String := fun ts =>
  (lit l ts).bind fun ts => (ident ts).bind fun q => (lit [.sym ';'] q.2).map fun ts => (q.1, ts)

/-- bison/stack_description_parser.y:297-341: the next token after the first conductivity decides. -/
def pCond : P CondD := fun ts =>
  (num ts).bind fun a =>
    if next (isSym ',') a.2 then
      (lit [.sym ','] a.2).bind fun ts => (num ts).bind fun b => (lit [.sym ','] b.2).bind fun ts => (num ts).map fun c =>
        (.aniso a.1 b.1 c.1, c.2)
    else some (.iso a.1, a.2)

/-- `material`: bison/stack_description_parser.y:295-342. -/
def pMat : P MatD := fun ts =>
  (lit [.kw "material"] ts).bind fun ts => (ident ts).bind fun n => (lit [.sym ':', .kw "thermal", .kw "conductivity"] n.2).bind fun ts =>
    (pCond ts).bind fun c => (lit [.sym ';'] c.2).bind fun ts => (field [.kw "volumetric", .kw "heat", .kw "capacity"] ts).map fun v =>
      (⟨n.1, c.1, v.1⟩, v.2)

/-- `topsink`, `bottomsink`: bison/stack_description_parser.y:362-404. -/
def pSink (side : String) : P SinkD := fun ts =>
  (field [.kw side, .kw "heat", .kw "sink", .sym ':', .kw "heat", .kw "transfer", .kw "coefficient"] ts).bind fun h =>
    (field [.kw "temperature"] h.2).map fun t => (⟨h.1, t.1⟩, t.2)

/-- `topsink_pluggable`: bison/stack_description_parser.y:405-496. -/
def pPlug : P PlugD := fun ts =>
  (lit [.kw "top", .kw "pluggable", .kw "heat", .kw "sink", .sym ':', .kw "spreader", .kw "length"] ts).bind fun ts => (num ts).bind fun l =>
    (lit [.sym ',', .kw "width"] l.2).bind fun ts => (num ts).bind fun w => (field [.sym ',', .kw "height"] w.2).bind fun h =>
      (fieldId [.kw "material"] h.2).bind fun m => (lit [.kw "plugin"] m.2).bind fun ts => (path ts).bind fun p =>
        (opt (isSym ',') (fun ts => (lit [.sym ','] ts).bind path) p.2).bind fun a => (lit [.sym ';'] a.2).map fun ts =>
          (⟨l.1, w.1, h.1, m.1, p.1, a.1⟩, ts)

/-- The top sink: the token after `top` decides: bison/stack_description_parser.y:346-360. -/
def pTop : P TopD := fun ts =>
  if next (isKw "pluggable") ts.tail then (pPlug ts).map fun x => (.plug x.1, x.2) else (pSink "top" ts).map fun x => (.conv x.1, x.2)

/-- bison/stack_description_parser.y:683-699. -/
def pHtc4 : P Htc4 := fun ts =>
  (lit [.kw "coolant", .kw "heat", .kw "transfer", .kw "coefficient"] ts).bind fun ts =>
    if next (isKw "side") ts then
      (lit [.kw "side"] ts).bind fun ts => (num ts).bind fun a => (lit [.sym ',', .kw "top"] a.2).bind fun ts => (num ts).bind fun b =>
        (field [.sym ',', .kw "bottom"] b.2).map fun c => (.three a.1 b.1 c.1, c.2)
    else (field [] ts).map fun a => (.one a.1, a.2)

/-- bison/stack_description_parser.y:701-716. -/
def pHtc2 : P Htc2 := fun ts =>
  (lit [.kw "coolant", .kw "heat", .kw "transfer", .kw "coefficient"] ts).bind fun ts =>
    if next (isKw "top") ts then
      (lit [.kw "top"] ts).bind fun ts => (num ts).bind fun b => (field [.sym ',', .kw "bottom"] b.2).map fun c => (.two b.1 c.1, c.2)
    else (field [] ts).map fun a => (.one a.1, a.2)

/-- The first alternative of `microchannel_opt`: bison/stack_description_parser.y:505-565. -/
def p4rm : P ChanD := fun ts =>
  (field [.kw "microchannel", .kw "4rm", .sym ':', .kw "height"] ts).bind fun h => (field [.kw "channel", .kw "length"] h.2).bind fun c =>
    (field [.kw "wall", .kw "length"] c.2).bind fun w => (opt (isKw "first") (field [.kw "first", .kw "wall", .kw "length"]) w.2).bind fun f =>
      (opt (isKw "last") (field [.kw "last", .kw "wall", .kw "length"]) f.2).bind fun l => (fieldId [.kw "wall", .kw "material"] l.2).bind fun m =>
        (field [.kw "coolant", .kw "flow", .kw "rate"] m.2).bind fun fl => (pHtc4 fl.2).bind fun t =>
          (field [.kw "coolant", .kw "volumetric", .kw "heat", .kw "capacity"] t.2).bind fun v =>
            (field [.kw "coolant", .kw "incoming", .kw "temperature"] v.2).map fun i =>
              (.rm4 h.1 c.1 w.1 f.1 l.1 m.1 fl.1 t.1 v.1 i.1, i.2)

/-- The second alternative: bison/stack_description_parser.y:567-623. -/
def p2rm : P ChanD := fun ts =>
  (field [.kw "microchannel", .kw "2rm", .sym ':', .kw "height"] ts).bind fun h => (field [.kw "channel", .kw "length"] h.2).bind fun c =>
    (field [.kw "wall", .kw "length"] c.2).bind fun w => (fieldId [.kw "wall", .kw "material"] w.2).bind fun m =>
      (field [.kw "coolant", .kw "flow", .kw "rate"] m.2).bind fun fl => (pHtc2 fl.2).bind fun t =>
        (field [.kw "coolant", .kw "volumetric", .kw "heat", .kw "capacity"] t.2).bind fun v =>
          (field [.kw "coolant", .kw "incoming", .kw "temperature"] v.2).map fun i => (.rm2 h.1 c.1 w.1 m.1 fl.1 t.1 v.1 i.1, i.2)

/-- `distribution`: bison/stack_description_parser.y:728-731. -/
def pDistr : P Bool
  | t :: ts => if t = .kw "inline" then some (false, ts) else if t = .kw "staggered" then some (true, ts) else none
  | [] => none

/-- The third alternative: bison/stack_description_parser.y:625-680. -/
def pPin : P ChanD := fun ts =>
  (field [.kw "pinfin", .sym ':', .kw "height"] ts).bind fun h => (field [.kw "pin", .kw "diameter"] h.2).bind fun d =>
    (field [.kw "pin", .kw "pitch"] d.2).bind fun p => (lit [.kw "pin", .kw "distribution"] p.2).bind fun ts => (pDistr ts).bind fun s =>
      (lit [.sym ';'] s.2).bind fun ts => (fieldId [.kw "pin", .kw "material"] ts).bind fun m => (field [.kw "darcy", .kw "velocity"] m.2).bind fun u =>
        (field [.kw "coolant", .kw "volumetric", .kw "heat", .kw "capacity"] u.2).bind fun v =>
          (field [.kw "coolant", .kw "incoming", .kw "temperature"] v.2).map fun i => (.pin h.1 d.1 p.1 s.1 m.1 u.1 v.1 i.1, i.2)

/-- `microchannel_opt`: bison/stack_description_parser.y:501-681. -/
def pChan : P (Option ChanD) := fun ts =>
  if next (isKw "microchannel") ts then
    (if next (isKw "4rm") ts.tail then p4rm ts else p2rm ts).map fun x => (some x.1, x.2)
  else opt (isKw "pinfin") pPin ts

/-- `optional_nonuniform`: bison/stack_description_parser.y:1152-1174. -/
def pFlag : P Bool := fun ts =>
  (lit [.kw "non-uniform"] ts).bind fun ts =>
    if next (isKw "true") ts then (lit [.kw "true", .sym ';'] ts).map fun ts => (true, ts)
    else (lit [.kw "false", .sym ';'] ts).map fun ts => (false, ts)

/-- `dimensions`: bison/stack_description_parser.y:1070-1150. -/
def pDims : P DimD := fun ts =>
  (lit [.kw "dimensions", .sym ':', .kw "chip", .kw "length"] ts).bind fun ts => (num ts).bind fun a => (field [.sym ',', .kw "width"] a.2).bind fun b =>
    (lit [.kw "cell", .kw "length"] b.2).bind fun ts => (num ts).bind fun c => (field [.sym ',', .kw "width"] c.2).bind fun d =>
      (opt (isKw "non-uniform") pFlag d.2).map fun f => (⟨a.1, b.1, c.1, d.1, f.1⟩, f.2)

/-- A path between a keyword and a semicolon: bison/stack_description_parser.y:863-867. -/
def pLayout : P String := fun ts =>
  (lit [.kw "layout"] ts).bind fun ts => (path ts).bind fun p => (lit [.sym ';'] p.2).map fun ts => (p.1, ts)

/-- `layer`: bison/stack_description_parser.y:776-869. -/
def pLayer : P LayD := fun ts =>
  (lit [.kw "layer"] ts).bind fun ts => (ident ts).bind fun n => (field [.sym ':', .kw "height"] n.2).bind fun h =>
    (fieldId [.kw "material"] h.2).bind fun m => (opt (isKw "layout") pLayout m.2).map fun l => (⟨n.1, h.1, m.1, l.1⟩, l.2)

/-- `die_layer_content`: bison/stack_description_parser.y:919-997, after the keyword `layer` or `source`. -/
def pDLay (k : String) : P DLayD := fun ts =>
  (lit [.kw k] ts).bind fun ts =>
    if next isIdent ts then (fieldId [] ts).map fun n => (.ref n.1, n.2)
    else (num ts).bind fun h => (fieldId [] h.2).map fun m => (.own h.1 m.1, m.2)

/-- `die`: bison/stack_description_parser.y:1030-1064. -/
def pDie : P DieD := fun ts =>
  (lit [.kw "die"] ts).bind fun ts => (ident ts).bind fun n => (lit [.sym ':'] n.2).bind fun ts =>
    (many (isKw "layer") (pDLay "layer") ts.length ts).bind fun a => (pDLay "source" a.2).bind fun s =>
      (many (isKw "layer") (pDLay "layer") s.2.length s.2).map fun b => (⟨n.1, a.1, s.1, b.1⟩, b.2)

/-- The optional discretization of a stack element: bison/stack_description_parser.y:1464, 1644. -/
def pDiscr : P (ℚ × ℚ) := fun ts =>
  (lit [.kw "discretization"] ts).bind fun ts => (num ts).bind fun a => (num a.2).map fun b => ((a.1, b.1), b.2)

/-- `stack_element`: bison/stack_description_parser.y:1399-1728. -/
def pElem : P ElD := fun ts =>
  if next (isKw "layer") ts then
    (lit [.kw "layer"] ts).bind fun ts => (ident ts).bind fun n => (ident n.2).bind fun r => (opt (isKw "discretization") pDiscr r.2).bind fun d =>
      (lit [.sym ';'] d.2).map fun ts => (.layer n.1 r.1 d.1, ts)
  else if next (isKw "channel") ts then (fieldId [.kw "channel"] ts).map fun n => (.channel n.1, n.2)
  else
    (lit [.kw "die"] ts).bind fun ts => (ident ts).bind fun n => (ident n.2).bind fun r => (lit [.kw "floorplan"] r.2).bind fun ts =>
      (path ts).bind fun p => (opt (isKw "discretization") pDiscr p.2).bind fun d => (lit [.sym ';'] d.2).map fun ts => (.die n.1 r.1 p.1 d.1, ts)

/-- The kind of analysis: bison/stack_description_parser.y:1734-1757. -/
def pKind : P (Option (ℚ × ℚ)) := fun ts =>
  if next (isKw "steady") ts then (lit [.kw "steady", .sym ';'] ts).map fun ts => (none, ts)
  else
    (lit [.kw "transient", .kw "step"] ts).bind fun ts => (num ts).bind fun a => (field [.sym ',', .kw "slot"] a.2).map fun b => (some (a.1, b.1), b.2)

/-- `solver`: bison/stack_description_parser.y:1732-1834. -/
def pSolver : P SolverD := fun ts =>
  (lit [.kw "solver", .sym ':'] ts).bind fun ts => (pKind ts).bind fun k => (field [.kw "initial", .kw "temperature"] k.2).bind fun t =>
    (opt (isKw "numofcores") (field [.kw "numofcores"]) t.2).map fun c => (⟨k.1, t.1, c.1⟩, c.2)

/-- `when`: bison/stack_description_parser.y:2303-2310. -/
def pWhen : P WhenD := fun ts =>
  if next (isSym ',') ts then
    if next (isKw "step") ts.tail then some (.step, ts.tail.tail)
    else if next (isKw "slot") ts.tail then some (.slot, ts.tail.tail)
    else if next (isKw "final") ts.tail then some (.final, ts.tail.tail)
    else none
  else some (.unsaid, ts)

/-- `maxminavg`: bison/stack_description_parser.y:2295-2301. -/
def pQuant : P QuantD := fun ts =>
  if next (isKw "maximum") ts then some (.maximum, ts.tail)
  else if next (isKw "minimum") ts then some (.minimum, ts.tail)
  else if next (isKw "average") ts then some (.average, ts.tail)
  else if next (isKw "gradient") ts then some (.gradient, ts.tail)
  else none

/-- The end of an inspection point: bison/stack_description_parser.y:1866, 1924, 1995. -/
def pEnd : P WhenD := fun ts => (pWhen ts).bind fun w => (lit [.sym ')', .sym ';'] w.2).map fun ts => (w.1, ts)

/-- The name of a stack element, after the keyword: bison/stack_description_parser.y:1866. -/
def pOf (k : String) : P String := fun ts => (lit [.kw k, .sym '('] ts).bind ident

/-- A comma and a path: bison/stack_description_parser.y:1866. -/
def pFile : P String := fun ts => (lit [.sym ','] ts).bind path

/-- A comma, a quantity and the end. -/
def pQEnd : P (QuantD × WhenD) := fun ts =>
  (lit [.sym ','] ts).bind fun ts => (pQuant ts).bind fun q => (pEnd q.2).map fun w => ((q.1, w.1), w.2)

/-- `inspection_point`: bison/stack_description_parser.y:1864-2293. -/
def pPoint : P PointD := fun ts =>
  if next (isKw "T") ts then
    (pOf "T" ts).bind fun e => (lit [.sym ','] e.2).bind fun ts => (num ts).bind fun x => (lit [.sym ','] x.2).bind fun ts => (num ts).bind fun y =>
      (pFile y.2).bind fun f => (pEnd f.2).map fun w => (.tcell e.1 x.1 y.1 f.1 w.1, w.2)
  else if next (isKw "Tflp") ts then
    (pOf "Tflp" ts).bind fun e => (pFile e.2).bind fun f => (pQEnd f.2).map fun q => (.tflp e.1 f.1 q.1.1 q.1.2, q.2)
  else if next (isKw "Tflpel") ts then
    (pOf "Tflpel" ts).bind fun e => (lit [.sym '.'] e.2).bind fun ts => (ident ts).bind fun s => (pFile s.2).bind fun f => (pQEnd f.2).map fun q =>
      (.tflpel e.1 s.1 f.1 q.1.1 q.1.2, q.2)
  else if next (isKw "Tmap") ts then (pOf "Tmap" ts).bind fun e => (pFile e.2).bind fun f => (pEnd f.2).map fun w => (.tmap e.1 f.1 w.1, w.2)
  else if next (isKw "T3d") ts then
    (lit [.kw "T3d", .sym '('] ts).bind fun ts => (path ts).bind fun f => (pEnd f.2).map fun w => (.t3d f.1 w.1, w.2)
  else if next (isKw "Pmap") ts then (pOf "Pmap" ts).bind fun e => (pFile e.2).bind fun f => (pEnd f.2).map fun w => (.pmap e.1 f.1 w.1, w.2)
  else (pOf "Tcoolant" ts).bind fun e => (pFile e.2).bind fun f => (pQEnd f.2).map fun q => (.tcoolant e.1 f.1 q.1.1 q.1.2, q.2)

/-- `inspection_points`: bison/stack_description_parser.y:1839-1862. The list goes to the end of the file. -/
def pPoints : P (List PointD) := fun ts =>
  if next (isKw "output") ts then (lit [.kw "output", .sym ':'] ts).bind (many1 (fun _ => true) pPoint) else some ([], ts)

/-- `stack_description_file`: bison/stack_description_parser.y:250-262. -/
def parseStackFile (ts : List Tok) : Option StackD :=
  (many1 (isKw "material") pMat ts).bind fun m => (opt (isKw "top") pTop m.2).bind fun t => (opt (isKw "bottom") (pSink "bottom") t.2).bind fun b =>
    (pChan b.2).bind fun c => (pDims c.2).bind fun d => (many (isKw "layer") pLayer d.2.length d.2).bind fun l => (many1 (isKw "die") pDie l.2).bind fun i =>
      (lit [.kw "stack", .sym ':'] i.2).bind fun ts =>
        (many1 (fun t => isKw "layer" t || isKw "channel" t || isKw "die" t) pElem ts).bind fun e => (pSolver e.2).bind fun s =>
          (pPoints s.2).bind fun p => if p.2.isEmpty then some ⟨m.1, t.1, b.1, c.1, d.1, l.1, i.1, e.1, s.1, p.1⟩ else none

/-! ### Floorplans and layouts -/

/-- Two numbers with a comma between them, in a field: bison/floorplan_parser.y:291-292. -/
def pair (k : String) : P (ℚ × ℚ) := fun ts =>
  (lit [.kw k] ts).bind fun ts => (num ts).bind fun a => (field [.sym ','] a.2).map fun b => ((a.1, b.1), b.2)

/-- `ic_element`: bison/floorplan_parser.y:432-462, bison/layout_parser.y:452-490. -/
def pRect : P (Rect ℚ) := fun ts =>
  (lit [.kw "rectangle", .sym '('] ts).bind fun ts => (num ts).bind fun x => (lit [.sym ','] x.2).bind fun ts => (num ts).bind fun y =>
    (lit [.sym ','] y.2).bind fun ts => (num ts).bind fun l => (lit [.sym ','] l.2).bind fun ts => (num ts).bind fun w =>
      (lit [.sym ')', .sym ';'] w.2).map fun ts => (⟨x.1, y.1, l.1, w.1⟩, ts)

/-- `ic_elements`: bison/floorplan_parser.y:289-430. -/
def pArea : P AreaD := fun ts =>
  if next (isKw "position") ts then
    (pair "position" ts).bind fun p => (pair "dimension" p.2).bind fun d => (opt (isKw "material") (fieldId [.kw "material"]) d.2).bind fun m =>
      (opt (isKw "discretization") (pair "discretization") m.2).map fun n => (.one p.1.1 p.1.2 d.1.1 d.1.2 m.1 n.1, n.2)
  else (many1 (isKw "rectangle") pRect ts).map fun r => (.many r.1, r.2)

/-- `optional_power_values_list`: bison/floorplan_parser.y:466-530. -/
def pPowers : P (List ℚ) := fun ts =>
  if next (isKw "power") ts then
    (lit [.kw "power", .kw "values"] ts).bind fun ts => (num ts).bind fun a =>
      (many (isSym ',') (fun ts => (lit [.sym ','] ts).bind num) a.2.length a.2).bind fun l => (lit [.sym ';'] l.2).map fun ts => (a.1 :: l.1, ts)
  else some ([], ts)

/-- `floorplan_element`: bison/floorplan_parser.y:174-285. -/
def pFlp : P FlpD := fun ts =>
  (ident ts).bind fun n => (lit [.sym ':'] n.2).bind fun ts => (pArea ts).bind fun a => (pPowers a.2).map fun p => (⟨n.1, a.1, p.1⟩, p.2)

/-- `floorplan_file`: bison/floorplan_parser.y:125-168. -/
def parseFlpFile (ts : List Tok) : Option (List FlpD) :=
  (many1 (fun _ => true) pFlp ts).bind fun x => if x.2.isEmpty then some x.1 else none

/-- `layout_elements`: bison/layout_parser.y:404-450. -/
def pLArea : P LAreaD := fun ts =>
  if next (isKw "position") ts then
    (pair "position" ts).bind fun p => (pair "dimension" p.2).map fun d => (.one p.1.1 p.1.2 d.1.1 d.1.2, d.2)
  else (many1 (isKw "rectangle") pRect ts).map fun r => (.many r.1, r.2)

/-- `layout`: bison/layout_parser.y:267-402. -/
def pLay : P (String × LAreaD) := fun ts =>
  (ident ts).bind fun n => (lit [.sym ':'] n.2).bind fun ts => (pLArea ts).map fun a => ((n.1, a.1), a.2)

/-- `layout_file`: bison/layout_parser.y:137-265. -/
def parseLayoutFile (ts : List Tok) : Option LayoutD :=
  (many (isKw "material") pMat ts.length ts).bind fun m => (many1 (fun _ => true) pLay m.2).bind fun x => if x.2.isEmpty then some ⟨m.1, x.1⟩ else none

end Verif.Gram
