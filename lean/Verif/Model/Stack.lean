import Verif.Model.SystemMatrix

/-! Model of the `stack:` section of the stack file (`bison/stack_description_parser.y`), of `thermal_grid_fill`
(`sources/thermal_grid.c`), of the first part of `power_grid_fill` (`sources/power_grid.c`) and of
`get_source_layer_offset` (`sources/stack_element.c`).

`φ` is the type of floorplans. References by name (layers, dies, materials) are already resolved; the rejection of unknown
names is not modelled. Layer counts are natural numbers (C: `uint32_t`; overflowing them needs 2^32 list nodes). -/

namespace Verif.Stk
open Verif.Dim Verif.TG

/-- `Die_t`: include/die.h:69-104. `layers` is the list as stored, from the top of the die to its bottom. -/
structure Die (K φ : Type) where
  layers : List (Layer K)
  srcOff : Nat
  flp : φ

/-- A die as written in the stack file: layers above the source, the source layer, layers below, top to bottom. -/
structure RawDie (K φ : Type) where
  above : List (Layer K)
  source : Layer K
  below : List (Layer K)
  flp : φ

/-- An element of the stack section as written: its name and what it is. -/
inductive RawBody (K φ : Type) where
  | die (d : RawDie K φ)
  | layer (ly : Layer K)
  | channel

structure Raw (K φ : Type) where
  id : String
  body : RawBody K φ

/-- `StackElement_t`: include/stack_element.h:92-124. -/
inductive Body (K φ : Type) where
  | die (d : Die K φ)
  | layer (ly : Layer K)
  | channel (ch : Channel K)

structure SElem (K φ : Type) where
  id : String
  body : Body K φ
  offset : Nat

variable {K φ : Type}

/-- The rule `die`: bison/stack_description_parser.y:872-1062. Every layer is appended at the end of `dielayers`; each layer
below the source increases `source_layer_offset`, which starts from 0. -/
def parseDie (d : RawDie K φ) : Die K φ :=
  { layers := (d.above ++ [d.source]) ++ d.below, srcOff := d.below.foldl (fun n _ => n + 1) 0, flp := d.flp }

/-- The rule `stack_element`: bison/stack_description_parser.y:1400-1738. A channel must have been declared. -/
def resolve (decl : Option (Channel K)) (r : Raw K φ) : Option (SElem K φ) :=
  match r.body with
  | .die d => some ⟨r.id, .die (parseDie d), 0⟩
  | .layer ly => some ⟨r.id, .layer ly, 0⟩
  | .channel => decl.map fun ch => ⟨r.id, .channel ch, 0⟩

def isChannel (e : SElem K φ) : Bool := match e.body with | .channel _ => true | _ => false
def isDie (e : SElem K φ) : Bool := match e.body with | .die _ => true | _ => false

/-- The rule `stack_elements`, second alternative: bison/stack_description_parser.y:1366-1397. The list holds the elements
read so far, the first one read first; the check on consecutive channels looks at the *first* element of the list. -/
def addElement (decl : Option (Channel K)) (acc : List (SElem K φ)) (r : Raw K φ) : Option (List (SElem K φ)) :=
  (resolve decl r).bind fun e =>
    if acc.any (fun x => x.id = e.id) then none
    else if (acc.head?.map isChannel).getD false && isChannel e then none
    else some (acc ++ [e])

/-- The rule `stack_elements`: bison/stack_description_parser.y:1357-1398. -/
def parseElements (decl : Option (Channel K)) : List (Raw K φ) → Option (List (SElem K φ))
  | [] => none
  | r :: rs => (resolve decl r).bind fun e => rs.foldlM (addElement decl) [e]

/-- `channel->NLayers`: bison/stack_description_parser.y:534, 589, 650. -/
def chLayers (ch : Channel K) : Nat := if ch.model = .mc4rm then 1 else 4
/-- `channel->SourceLayerOffset`: bison/stack_description_parser.y:535, 590, 651. -/
def chSrcOff (ch : Channel K) : Nat := if ch.model = .mc4rm then 0 else 2

/-- `stack_element->NLayers`: bison/stack_description_parser.y:1456, 1518, 1553, 1635, 1718. -/
def nLayersOf (e : SElem K φ) : Nat :=
  match e.body with
  | .die d => d.layers.length
  | .layer _ => 1
  | .channel ch => chLayers ch

/-- Offsets, from the bottom-most element: bison/stack_description_parser.y:1233-1248. The list is bottom-up. -/
def assignOffsets : Nat → List (SElem K φ) → List (SElem K φ)
  | _, [] => []
  | n, e :: es => { e with offset := n } :: assignOffsets (n + nLayersOf e) es

/-- Number of layers: the value of `layer_index` after that loop. -/
def countLayers : Nat → List (SElem K φ) → Nat
  | n, [] => n
  | n, e :: es => countLayers (n + nLayersOf e) es

/-- Heights of the layers of an element, bottom-up: bison/stack_description_parser.y:1263-1316. -/
def heightsOf (e : SElem K φ) : List K :=
  match e.body with
  | .die d => d.layers.reverse.map (·.height)
  | .layer ly => [ly.height]
  | .channel ch => List.replicate (chLayers ch) ch.height

/-- Result of the `stack:` rule: the elements bottom-up with their offsets, and the dimensions completed. -/
structure Parsed (K φ : Type) where
  elems : List (SElem K φ)
  dims : Dims K
  nConn : Nat

/-- The rule `stack`: bison/stack_description_parser.y:1179-1355. `s` is the spreader of a pluggable top sink. -/
def parseStack [Field K] [LinearOrder K] (d : Dims K) (decl : Option (Channel K)) (s : Option (Spreader K)) (rs : List (Raw K φ)) :
    Option (Parsed K φ) :=
  (parseElements decl rs).bind fun es =>
    if (es.filter isDie).length = 0 then none
    else if (es.getLast?.map isChannel).getD false then none
    else if (es.head?.map isChannel).getD false then none
    else
      let up := es.reverse
      let d1 := { d with nLayers := countLayers 0 up, heights := up.flatMap heightsOf }
      (countCells d1 s).map fun n =>
        { elems := assignOffsets 0 up, dims := { d1 with nCells := n },
          nConn := SM.numConnections d1 ((decl.map (·.model)).getD .none) (es.filter isChannel).length s }

/-! ### `thermal_grid_fill` -/

/-- Consecutive array writes starting at index `i`. -/
def writes {α : Type} (xs : List α) (i : Nat) : List α → List α
  | [] => xs
  | y :: ys => writes (xs.set i y) (i + 1) ys

/-- Layer types of a channel, from its first layer up: sources/thermal_grid.c:185-226. -/
def chTypes (m : ChModel) : List LType :=
  match m with
  | .mc4rm => [.ch4rm]
  | .mc2rm => [.bottomWall, .vwallCh, .ch2rm, .topWall]
  | .pfInline => [.bottomWall, .vwallPf, .pfInline, .topWall]
  | .pfStag => [.bottomWall, .vwallPf, .pfStag, .topWall]
  | .none => []

/-- Writes of one stack element into `LayersTypeProfile`: sources/thermal_grid.c:123-238. -/
def writeTypes (ts : List LType) (e : SElem K φ) : List LType :=
  match e.body with
  | .die d => (writes ts e.offset (d.layers.reverse.map fun _ => LType.solid)).set (e.offset + d.srcOff) .source
  | .layer _ => ts.set e.offset .solid
  | .channel ch => writes ts e.offset (chTypes ch.model)

/-- The wall layer stored for each layer of a channel: sources/thermal_grid.c:168-184. -/
def wallLayer (ch : Channel K) : Layer K := ⟨ch.height, ch.wallMat, []⟩

/-- Writes of one stack element into `LayersProfile`: sources/thermal_grid.c:123-184. -/
def writeLayers (ls : List (Layer K)) (e : SElem K φ) : List (Layer K) :=
  match e.body with
  | .die d => writes ls e.offset d.layers.reverse
  | .layer ly => ls.set e.offset ly
  | .channel ch => writes ls e.offset (List.replicate (chLayers ch) (wallLayer ch))

/-- `tgrid->Channel`: sources/thermal_grid.c:166. -/
def writeChannel (c : Option (Channel K)) (e : SElem K φ) : Option (Channel K) :=
  match e.body with
  | .channel ch => some ch
  | _ => c

/-- Does the element have 4RM layers? sources/thermal_grid.c:190. -/
def is4rm (e : SElem K φ) : Bool := match e.body with | .channel ch => decide (ch.model = .mc4rm) | _ => false

/-- Effect of the top sink on the type of a layer: sources/thermal_grid.c:246-291. -/
def topSinkType (t : TopSink K) (x : LType) : LType :=
  match t, x with
  | .ambient _, .solid => .solidAmb
  | .ambient _, .source => .sourceAmb
  | .pluggable _ _, .solid => .solidSpr
  | .pluggable _ _, .source => .sourceSpr
  | _, x => x

/-- The top sink part: `none` is the refusal of a pluggable sink with 4RM layers. -/
def applyTop (top : Option (TopSink K)) (has4 : Bool) (n : Nat) (ts : List LType) : Option (List LType) :=
  match top with
  | none => some ts
  | some t =>
    match t, has4 with
    | .pluggable _ _, true => none
    | _, _ => some (ts.set (n - 1) (topSinkType t (ts.getD (n - 1) .none)))

/-- The bottom sink part: sources/thermal_grid.c:293-317. `none` is the refusal of two sinks on one layer. -/
def applyBottom (bottom : Option (Sink K)) (ts : List LType) : Option (List LType) :=
  match bottom with
  | none => some ts
  | some _ =>
    match ts.getD 0 .none with
    | .solid => some (ts.set 0 .solidPcb)
    | .source => some (ts.set 0 .sourcePcb)
    | .solidAmb | .sourceAmb | .solidSpr | .sourceSpr => none
    | _ => some ts

/-- `thermal_grid_build` and `thermal_grid_fill`: sources/thermal_grid.c:60-92, 118-320. `es` is bottom-up. The grid starts
with unset types and empty layers. -/
def fillGrid (n : Nat) (es : List (SElem K φ)) (top : Option (TopSink K)) (bottom : Option (Sink K)) [Zero K] :
    Option (TGrid K) :=
  let ts := es.foldl writeTypes (List.replicate n LType.none)
  let ls := es.foldl writeLayers (List.replicate n (⟨0, ⟨0, 0, 0, 0⟩, []⟩ : Layer K))
  let ch := es.foldl writeChannel none
  (applyTop top (es.any is4rm) n ts).bind fun ts1 =>
    (applyBottom bottom ts1).map fun ts2 =>
      { nLayers := n, types := ts2, layers := ls, channel := ch, top := top, bottom := bottom }

/-! ### The power grid -/

/-- Writes of one stack element into `FloorplansProfile`: sources/power_grid.c:228-270. -/
def writeFlp (fs : List (Option φ)) (e : SElem K φ) : List (Option φ) :=
  match e.body with
  | .die d => (writes fs e.offset (d.layers.reverse.map fun _ => none)).set (e.offset + d.srcOff) (some d.flp)
  | .layer _ => fs.set e.offset none
  | .channel _ => fs

/-- `FloorplansProfile` after `power_grid_fill` (sources/power_grid.c:221-325); its pointers are initially null
(sources/power_grid.c:186-194). The layer types of the power grid are written by the same statements as those of the
thermal grid (sources/power_grid.c:221-325, 350-560). -/
def fillFloorplans (n : Nat) (es : List (SElem K φ)) : List (Option φ) :=
  es.foldl writeFlp (List.replicate n none)

/-- `get_source_layer_offset`: sources/stack_element.c:212-226. -/
def sourceLayerOffset (e : SElem K φ) : Nat :=
  match e.body with
  | .die d => e.offset + d.srcOff
  | .channel ch => e.offset + chSrcOff ch
  | .layer _ => e.offset

end Verif.Stk
