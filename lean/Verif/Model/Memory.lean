import Verif.Model.PowersQueue
import Mathlib.Algebra.Field.Rat
import Mathlib.Data.Finset.Basic

/-! Model of the functions that create, copy and destroy the objects of the library (`…_init`, `…_copy`, `…_destroy`, `…_calloc`, `…_clone`,
`…_free`): strings, materials, layers, floorplans, dies, heat sinks, channels, stack elements, inspection points, outputs, dimensions, the typed
lists of all these, and the stack description.

The heap contains blocks; a block has one value of one type (an array is a list, a string a `String`). Freeing or using a block that is not allocated, or
using it as another type, is undefined behaviour (`none`). Simplifications: `malloc` never fails and never returns the address of a block that was freed
(so that every use of a freed block is seen); what `malloc` returns is initialised in the same step, because all the code here initialises it at
once; numbers are rationals or naturals; the structure that a function modifies through a pointer is an argument and a result. -/

namespace Verif.Own

abbrev Ptr := Option Nat

/-- The heap: the allocated blocks; the addresses from `next` on were never allocated. -/
structure Heap : Type 1 where
  cells : Nat → Option ((α : Type) × α)
  next : Nat
  ok : ∀ p, cells p ≠ none → p < next

/-- A computation on the heap; `none`: undefined behaviour. -/
def M (α : Type) : Type 1 := Heap → Option (α × Heap)

instance : Monad M where
  pure x := fun h => some (x, h)
  bind m f := fun h => (m h).bind fun r => f r.1 r.2

/-- `malloc` and the first assignment to the block. -/
def alloc {α : Type} (x : α) : M Nat := fun h =>
  some (h.next, ⟨fun p => if p = h.next then some ⟨α, x⟩ else h.cells p, h.next + 1, fun p hp => by
    by_cases e : p = h.next
    · omega
    · rw [if_neg e] at hp; exact Nat.lt_succ_of_lt (h.ok p hp)⟩)

open Classical in
/-- A read access. -/
noncomputable def load (α : Type) (p : Nat) : M α := fun h =>
  match h.cells p with
  | some ⟨β, x⟩ => if e : β = α then some (cast e x, h) else none
  | none => none

/-- The heap with another block at `p`. -/
def Heap.set (h : Heap) (p : Nat) (x : (α : Type) × α) (hp : h.cells p ≠ none) : Heap :=
  ⟨fun q => if q = p then some x else h.cells q, h.next, fun q hq => by
    by_cases e : q = p
    · subst e; exact h.ok q hp
    · rw [if_neg e] at hq; exact h.ok q hq⟩

open Classical in
/-- A write access. -/
noncomputable def store {α : Type} (p : Nat) (x : α) : M Unit := fun h => if hp : h.cells p ≠ none then some ((), h.set p ⟨α, x⟩ hp) else none

/-- The heap without some blocks. -/
def Heap.minus (h : Heap) (s : Finset Nat) : Heap :=
  ⟨fun p => if p ∈ s then none else h.cells p, h.next, fun p hp => by
    by_cases e : p ∈ s
    · rw [if_pos e] at hp; exact absurd rfl hp
    · rw [if_neg e] at hp; exact h.ok p hp⟩

open Classical in
/-- `free`. -/
noncomputable def free (p : Nat) : M Unit := fun h => if h.cells p ≠ none then some ((), h.minus {p}) else none

/-- Undefined behaviour. -/
def ub {α : Type} : M α := fun _ => none

/-! ### Strings: sources/string_t.c -/

/-- `string_destroy`: sources/string_t.c:78-85 (and `string_init`, 46-49). -/
noncomputable def stringDestroy (s : Ptr) : M Ptr :=
  match s with
  | none => pure none
  | some p => do free p; pure none

/-- `string_copy`: sources/string_t.c:53-58. -/
noncomputable def stringCopy (dst src : Ptr) : M Ptr := do
  let _ ← stringDestroy dst
  match src with
  | none => pure none
  | some p => do let t ← load String p; let q ← alloc t; pure (some q)

/-! ### The three functions of a type -/

/-- `…_init`, `…_copy` (destination, source) and `…_destroy` of a type, as the macros of the list template name them. -/
structure Cls (α : Type) where
  init : α
  copy : α → α → M α
  destroy : α → M α

noncomputable def string : Cls Ptr := ⟨none, stringCopy, stringDestroy⟩

/-- `…_clone`, with `…_calloc`: for example sources/material.c:79-105. -/
noncomputable def clone {α : Type} (C : Cls α) (p : Ptr) : M Ptr :=
  match p with
  | none => pure none
  | some p => do
    let q ← alloc C.init
    let a ← load α p
    let d ← C.copy C.init a
    store q d
    pure (some q)

/-- `…_free`: for example sources/material.c:109-118. -/
noncomputable def freeObj {α : Type} (C : Cls α) (p : Ptr) : M Unit :=
  match p with
  | none => pure ()
  | some p => do
    let a ← load α p
    let d ← C.destroy a
    store p d
    free p

/-! ### Lists: sources/list_template.c -/

/-- `struct TTTListNode_t`, `struct TTTList_t`: include/list_template.h. The size is not reduced modulo 2^32. -/
structure Node (α : Type) where
  data : α
  prev : Ptr
  next : Ptr
structure ListS where
  size : Nat
  first : Ptr
  last : Ptr

/-- `TTT_list_init`: sources/list_template.c:63-70. -/
def listInit : ListS := ⟨0, none, none⟩

/-- A loop over the nodes of a list: no list has more nodes than there are addresses. -/
def bounded {α : Type} (f : Nat → M α) : M α := fun h => f (h.next + 1) h

/-- The loop of `TTT_list_destroy`: sources/list_template.c:95-106; the number bounds its length. -/
noncomputable def destroyLoop {α : Type} (C : Cls α) : Nat → Ptr → M Unit
  | _, none => pure ()
  | 0, some _ => ub
  | n + 1, some p => do
    let nd ← load (Node α) p
    let d ← C.destroy nd.data
    store p (⟨d, nd.prev, nd.next⟩ : Node α)
    free p
    destroyLoop C n nd.next

/-- `TTT_list_destroy`: sources/list_template.c:91-109. -/
noncomputable def listDestroy {α : Type} (C : Cls α) (l : ListS) : M ListS := do
  bounded fun n => destroyLoop C n l.first
  pure listInit

/-- `TTT_list_insert_end`: sources/list_template.c:244-283. -/
noncomputable def insertEnd {α : Type} (C : Cls α) (l : ListS) (a : α) : M ListS := do
  let p ← alloc (⟨C.init, none, none⟩ : Node α)
  let d ← C.copy C.init a
  store p (⟨d, none, none⟩ : Node α)
  match l.first, l.last with
  | none, none => pure ⟨l.size + 1, some p, some p⟩
  | f, some q => do
    store p (⟨d, some q, none⟩ : Node α)
    let nd ← load (Node α) q
    store q (⟨nd.data, nd.prev, some p⟩ : Node α)
    pure ⟨l.size + 1, f, some p⟩
  | some _, none => ub

/-- The loop of `TTT_list_copy`: sources/list_template.c:80-86. -/
noncomputable def copyLoop {α : Type} (C : Cls α) : Nat → Ptr → ListS → M ListS
  | _, none, l => pure l
  | 0, some _, _ => ub
  | n + 1, some p, l => do
    let nd ← load (Node α) p
    let l ← insertEnd C l nd.data
    copyLoop C n nd.next l

/-- `TTT_list_copy`: sources/list_template.c:74-87. -/
noncomputable def listCopy {α : Type} (C : Cls α) (dst src : ListS) : M ListS := do
  let dst ← listDestroy C dst
  bounded fun n => copyLoop C n src.first dst

noncomputable def list {α : Type} (C : Cls α) : Cls ListS := ⟨listInit, listCopy C, listDestroy C⟩

/-! ### Arrays -/

/-- An array that may be missing: `if (p != NULL) free (p)`. -/
noncomputable def arrayFree (p : Ptr) : M Unit :=
  match p with
  | none => pure ()
  | some p => free p

/-- `malloc` of `n` values and `memcpy` from the array `p`. -/
noncomputable def arrayDup (β : Type) (n : Nat) (p : Ptr) : M Ptr :=
  match p with
  | none => pure none
  | some p => do
    let l ← load (List β) p
    if n ≤ l.length then do let q ← alloc (l.take n); pure (some q) else ub

/-! ### Materials: sources/material.c -/

structure Material where
  id : Ptr
  vhc : ℚ
  kx : ℚ
  ky : ℚ
  kz : ℚ

/-- sources/material.c:45-53 -/
def materialInit : Material := ⟨none, 0, 0, 0, 0⟩
/-- sources/material.c:70-75 -/
noncomputable def materialDestroy (m : Material) : M Material := do
  let _ ← stringDestroy m.id
  pure materialInit
/-- sources/material.c:57-66 -/
noncomputable def materialCopy (dst src : Material) : M Material := do
  let dst ← materialDestroy dst
  let id ← stringCopy dst.id src.id
  pure ⟨id, src.vhc, src.kx, src.ky, src.kz⟩
noncomputable def material : Cls Material := ⟨materialInit, materialCopy, materialDestroy⟩

/-! ### Rectangles: sources/ic_element.c -/

structure ICElement where
  swX : ℚ
  swY : ℚ
  length : ℚ
  width : ℚ
  discrX : ℚ
  discrY : ℚ
  swRow : Nat
  swColumn : Nat
  neRow : Nat
  neColumn : Nat
  indexStart : Nat
  indexEnd : Nat
  material : Material

/-- sources/ic_element.c:46-61 -/
def icInit : ICElement := ⟨0, 0, 0, 0, 0, 0, 0, 0, 0, 0, 0, 0, materialInit⟩
/-- sources/ic_element.c:86-91 -/
noncomputable def icDestroy (e : ICElement) : M ICElement := do
  let _ ← materialDestroy e.material
  pure icInit
/-- sources/ic_element.c:65-82 -/
noncomputable def icCopy (dst src : ICElement) : M ICElement := do
  let dst ← icDestroy dst
  let m ← materialCopy dst.material src.material
  pure ⟨src.swX, src.swY, src.length, src.width, src.discrX, src.discrY, src.swRow, src.swColumn, src.neRow, src.neColumn, src.indexStart, src.indexEnd, m⟩
noncomputable def icElement : Cls ICElement := ⟨icInit, icCopy, icDestroy⟩

/-! ### Cells and connections of non-uniform grids: sources/non_uniform_cell.c, sources/connection.c -/

structure NCell where
  layer : Nat
  x : ℚ
  y : ℚ
  z : ℚ
  length : ℚ
  width : ℚ
  height : ℚ
  isChannel : Nat
  material : Material

/-- sources/non_uniform_cell.c:44-55 -/
def ncellInit : NCell := ⟨0, 0, 0, 0, 0, 0, 0, 0, materialInit⟩
/-- sources/non_uniform_cell.c:57-61 -/
noncomputable def ncellDestroy (c : NCell) : M NCell := do
  let _ ← materialDestroy c.material
  pure ncellInit
/-- sources/non_uniform_cell.c:74-87 -/
noncomputable def ncellCopy (dst src : NCell) : M NCell := do
  let dst ← ncellDestroy dst
  let m ← materialCopy dst.material src.material
  pure ⟨src.layer, src.x, src.y, src.z, src.length, src.width, src.height, src.isChannel, m⟩
noncomputable def ncell : Cls NCell := ⟨ncellInit, ncellCopy, ncellDestroy⟩

structure Connection where
  node1 : Nat
  layer1 : Nat
  node2 : Nat
  layer2 : Nat
  direction : Nat
  value : ℚ

/-- sources/connection.c:43-51, 53-56, 69-79 -/
def connectionInit : Connection := ⟨0, 0, 0, 0, 0, 0⟩
def connectionDestroy (_ : Connection) : M Connection := pure connectionInit
def connectionCopy (_ src : Connection) : M Connection := pure ⟨src.node1, src.layer1, src.node2, src.layer2, src.direction, src.value⟩
def connection : Cls Connection := ⟨connectionInit, connectionCopy, connectionDestroy⟩

/-! ### Layers: sources/material_element.c, sources/layer.c -/

structure MaterialElement where
  material : Material
  n : Nat
  elements : ListS

/-- sources/material_element.c:46-53 -/
def melemInit : MaterialElement := ⟨materialInit, 0, listInit⟩
/-- sources/material_element.c:74-81 -/
noncomputable def melemDestroy (e : MaterialElement) : M MaterialElement := do
  let _ ← materialDestroy e.material
  let _ ← listDestroy icElement e.elements
  pure melemInit
/-- sources/material_element.c:57-70 -/
noncomputable def melemCopy (dst src : MaterialElement) : M MaterialElement := do
  let dst ← melemDestroy dst
  let m ← materialCopy dst.material src.material
  let l ← listCopy icElement dst.elements src.elements
  pure ⟨m, src.n, l⟩
noncomputable def materialElement : Cls MaterialElement := ⟨melemInit, melemCopy, melemDestroy⟩

structure Layer where
  height : ℚ
  material : Material
  id : Ptr
  file : Ptr
  layout : ListS
  discrX : Nat
  discrY : Nat

/-- sources/layer.c:46-58 -/
def layerInit : Layer := ⟨0, materialInit, none, none, listInit, 0, 0⟩
/-- sources/layer.c:80-90 -/
noncomputable def layerDestroy (l : Layer) : M Layer := do
  let _ ← stringDestroy l.id
  let _ ← stringDestroy l.file
  let _ ← materialDestroy l.material
  let _ ← listDestroy materialElement l.layout
  pure layerInit
/-- sources/layer.c:62-76 -/
noncomputable def layerCopy (dst src : Layer) : M Layer := do
  let dst ← layerDestroy dst
  let i ← stringCopy dst.id src.id
  let f ← stringCopy dst.file src.file
  let m ← materialCopy dst.material src.material
  let l ← listCopy materialElement dst.layout src.layout
  pure ⟨src.height, m, i, f, l, src.discrX, src.discrY⟩
noncomputable def layer : Cls Layer := ⟨layerInit, layerCopy, layerDestroy⟩

/-! ### Floorplans: sources/powers_queue.c, floorplan_element.c, floorplan_matrix.c, floorplan.c -/

/-- `struct PowersQueue_t` -/
structure QueueS where
  cap : Nat
  size : Nat
  start : Nat
  stop : Nat
  mem : Ptr

/-- sources/powers_queue.c:45-52 -/
def queueInit : QueueS := ⟨0, 0, 0, 0, none⟩
/-- sources/powers_queue.c:76-83 -/
noncomputable def queueDestroy (q : QueueS) : M QueueS := do
  arrayFree q.mem
  pure queueInit
/-- The queue of `Verif.Model.PowersQueue` at a place in the heap. -/
noncomputable def queueLoad (q : QueueS) : M (PowersQueue.PQ ℚ) :=
  match q.mem with
  | none => pure ⟨q.cap, q.size, q.start, q.stop, none⟩
  | some p => do let m ← load (List ℚ) p; pure ⟨q.cap, q.size, q.start, q.stop, some m⟩
/-- `powers_queue_copy` to a queue that was only initialised (the only case that occurs in clones): sources/powers_queue.c:87-115. Its `powers_queue_build`
allocates the memory; the values are those that the model of the queue computes. -/
noncomputable def queueCopyNew (src : QueueS) : M QueueS := do
  let s ← queueLoad src
  match PowersQueue.copy PowersQueue.init s with
  | none => ub
  | some q =>
    match q.mem with
    | none => pure ⟨q.cap, q.size, q.start, q.stop, none⟩
    | some m => do let p ← alloc m; pure ⟨q.cap, q.size, q.start, q.stop, some p⟩
/-- The functions of queues, used by clones and frees only. -/
noncomputable def queue : Cls QueueS := ⟨queueInit, fun dst src => do let _ ← queueDestroy dst; queueCopyNew src, queueDestroy⟩

structure FlpElement where
  id : Ptr
  n : Nat
  elements : ListS
  area : ℚ
  powers : Ptr

/-- sources/floorplan_element.c:46-56 -/
def flpelInit : FlpElement := ⟨none, 0, listInit, 0, none⟩
/-- sources/floorplan_element.c:80-89 -/
noncomputable def flpelDestroy (e : FlpElement) : M FlpElement := do
  let _ ← stringDestroy e.id
  let _ ← listDestroy icElement e.elements
  freeObj queue e.powers
  pure flpelInit
/-- sources/floorplan_element.c:60-76 -/
noncomputable def flpelCopy (dst src : FlpElement) : M FlpElement := do
  let dst ← flpelDestroy dst
  let i ← stringCopy dst.id src.id
  let l ← listCopy icElement dst.elements src.elements
  let q ← clone queue src.powers
  pure ⟨i, src.n, l, src.area, q⟩
noncomputable def flpElement : Cls FlpElement := ⟨flpelInit, flpelCopy, flpelDestroy⟩

structure FlpMatrix where
  columns : Ptr
  rows : Ptr
  values : Ptr
  nRows : Nat
  nColumns : Nat
  nnz : Nat

/-- sources/floorplan_matrix.c:46-54 -/
def matrixInit : FlpMatrix := ⟨none, none, none, 0, 0, 0⟩
/-- sources/floorplan_matrix.c:126-142 -/
noncomputable def matrixDestroy (m : FlpMatrix) : M FlpMatrix := do
  arrayFree m.columns
  arrayFree m.rows
  arrayFree m.values
  pure matrixInit
/-- The arrays that `floorplan_matrix_build` allocates are filled by the three `memcpy`: sources/floorplan_matrix.c:58-82, 86-122. A source without one of
the arrays, whose copy would keep its memory unset, is not considered. -/
noncomputable def matrixCopy (dst src : FlpMatrix) : M FlpMatrix := do
  let dst ← matrixDestroy dst
  if src.nRows = 0 ∨ src.nColumns = 0 ∨ src.nnz = 0 then pure dst
  else
    let r ← arrayDup Nat src.nnz src.rows
    let c ← arrayDup Nat (src.nColumns + 1) src.columns
    let v ← arrayDup ℚ src.nnz src.values
    pure ⟨c, r, v, src.nRows, src.nColumns, src.nnz⟩
noncomputable def flpMatrix : Cls FlpMatrix := ⟨matrixInit, matrixCopy, matrixDestroy⟩

structure Floorplan where
  file : Ptr
  n : Nat
  elements : ListS
  matrix : FlpMatrix
  bpowers : Ptr

/-- sources/floorplan.c:47-56 -/
def floorplanInit : Floorplan := ⟨none, 0, listInit, matrixInit, none⟩
/-- sources/floorplan.c:93-105 -/
noncomputable def floorplanDestroy (f : Floorplan) : M Floorplan := do
  let _ ← stringDestroy f.file
  arrayFree f.bpowers
  let _ ← listDestroy flpElement f.elements
  let _ ← matrixDestroy f.matrix
  pure floorplanInit
/-- sources/floorplan.c:60-89 -/
noncomputable def floorplanCopy (dst src : Floorplan) : M Floorplan := do
  let dst ← floorplanDestroy dst
  let f ← stringCopy dst.file src.file
  let l ← listCopy flpElement dst.elements src.elements
  let m ← matrixCopy dst.matrix src.matrix
  let b ← arrayDup ℚ src.n src.bpowers
  pure ⟨f, src.n, l, m, b⟩
noncomputable def floorplan : Cls Floorplan := ⟨floorplanInit, floorplanCopy, floorplanDestroy⟩

/-! ### Dies, heat sinks, channels: sources/die.c, heat_sink.c, channel.c, coolant.c -/

structure Die where
  id : Ptr
  nLayers : Nat
  sourceOffset : Nat
  layers : ListS
  floorplan : Floorplan
  discrX : Nat
  discrY : Nat

/-- sources/die.c:45-58 -/
def dieInit : Die := ⟨none, 0, 0, listInit, floorplanInit, 0, 0⟩
/-- sources/die.c:81-88 -/
noncomputable def dieDestroy (d : Die) : M Die := do
  let _ ← stringDestroy d.id
  let _ ← listDestroy layer d.layers
  let _ ← floorplanDestroy d.floorplan
  pure dieInit
/-- sources/die.c:62-77 -/
noncomputable def dieCopy (dst src : Die) : M Die := do
  let dst ← dieDestroy dst
  let i ← stringCopy dst.id src.id
  let l ← listCopy layer dst.layers src.layers
  let f ← floorplanCopy dst.floorplan src.floorplan
  pure ⟨i, src.nLayers, src.sourceOffset, l, f, src.discrX, src.discrY⟩
noncomputable def die : Cls Die := ⟨dieInit, dieCopy, dieDestroy⟩

/-- A pointer to a function that nothing may have set. -/
inductive Slot where
  | unset
  | ptr (p : Ptr)

structure HeatSink where
  model : Nat
  htc : ℚ
  ambient : ℚ
  sprLength : ℚ
  sprWidth : ℚ
  sprHeight : ℚ
  material : Material
  plugin : Ptr
  args : Ptr
  cellLength : ℚ
  cellWidth : ℚ
  nRows : Nat
  nColumns : Nat
  rowsBorder : Nat
  columnsBorder : Nat
  initFn : Slot
  fn : Ptr

/-- sources/heat_sink.c:51-73. `PluggableHeatsinkInit` is not set: in a new structure it has no value; in one that is destroyed it keeps the one it has. -/
def sinkInit (initFn : Slot) : HeatSink := ⟨0, 0, 0, 0, 0, 0, materialInit, none, none, 0, 0, 0, 0, 0, 0, initFn, none⟩
/-- sources/heat_sink.c:117-124 -/
noncomputable def sinkDestroy (s : HeatSink) : M HeatSink := do
  let _ ← materialDestroy s.material
  let _ ← stringDestroy s.plugin
  let _ ← stringDestroy s.args
  pure (sinkInit s.initFn)
/-- sources/heat_sink.c:89-113. `PluggableHeatsinkInit` is not copied. -/
noncomputable def sinkCopy (dst src : HeatSink) : M HeatSink := do
  let dst ← sinkDestroy dst
  let m ← materialCopy dst.material src.material
  let p ← stringCopy dst.plugin src.plugin
  let a ← stringCopy dst.args src.args
  pure ⟨src.model, src.htc, src.ambient, src.sprLength, src.sprWidth, src.sprHeight, m, p, a, src.cellLength, src.cellWidth, src.nRows, src.nColumns,
    src.rowsBorder, src.columnsBorder, dst.initFn, src.fn⟩
noncomputable def heatSink : Cls HeatSink := ⟨sinkInit .unset, sinkCopy, sinkDestroy⟩

structure Coolant where
  htcSide : ℚ
  htcTop : ℚ
  htcBottom : ℚ
  vhc : ℚ
  flowRate : ℚ
  darcy : ℚ
  inlet : ℚ

structure Channel where
  model : Nat
  height : ℚ
  length : ℚ
  pitch : ℚ
  porosity : ℚ
  nChannels : Nat
  nLayers : Nat
  sourceOffset : Nat
  coolant : Coolant
  material : Material

/-- sources/channel.c:46-59, sources/coolant.c:43-52 -/
def channelInit : Channel := ⟨0, 0, 0, 0, 0, 0, 0, 0, ⟨0, 0, 0, 0, 0, 0, 0⟩, materialInit⟩
/-- sources/channel.c:82-88, sources/coolant.c:71-76 -/
noncomputable def channelDestroy (c : Channel) : M Channel := do
  let _ ← materialDestroy c.material
  pure channelInit
/-- sources/channel.c:63-78, sources/coolant.c:56-67 -/
noncomputable def channelCopy (dst src : Channel) : M Channel := do
  let dst ← channelDestroy dst
  let m ← materialCopy dst.material src.material
  pure ⟨src.model, src.height, src.length, src.pitch, src.porosity, src.nChannels, src.nLayers, src.sourceOffset,
    ⟨src.coolant.htcSide, src.coolant.htcTop, src.coolant.htcBottom, src.coolant.vhc, src.coolant.flowRate, src.coolant.darcy, src.coolant.inlet⟩, m⟩
noncomputable def channel : Cls Channel := ⟨channelInit, channelCopy, channelDestroy⟩

/-! ### Stack elements: sources/stack_element.c -/

inductive StackType where
  | none
  | layer
  | channel
  | die

structure StackElement where
  id : Ptr
  type : StackType
  pointer : Ptr
  top : Ptr
  bottom : Ptr
  nLayers : Nat
  offset : Nat

/-- sources/stack_element.c:45-59 -/
def stkelInit : StackElement := ⟨none, .none, none, none, none, 0, 0⟩
/-- The pointer is freed for dies and layers; a channel belongs to the stack description: sources/stack_element.c:97-103. -/
noncomputable def bodyFree (t : StackType) (p : Ptr) : M Unit :=
  match t with
  | .die => freeObj die p
  | .layer => freeObj layer p
  | _ => pure ()
/-- sources/stack_element.c:73-85 -/
noncomputable def bodyClone (t : StackType) (p : Ptr) : M Ptr :=
  match t with
  | .layer => clone layer p
  | .die => clone die p
  | _ => pure p
/-- sources/stack_element.c:93-109 -/
noncomputable def stkelDestroy (e : StackElement) : M StackElement := do
  let _ ← stringDestroy e.id
  bodyFree e.type e.pointer
  freeObj heatSink e.top
  freeObj heatSink e.bottom
  pure stkelInit
/-- sources/stack_element.c:63-89 -/
noncomputable def stkelCopy (dst src : StackElement) : M StackElement := do
  let dst ← stkelDestroy dst
  let i ← stringCopy dst.id src.id
  let p ← bodyClone src.type src.pointer
  let t ← clone heatSink src.top
  let b ← clone heatSink src.bottom
  pure ⟨i, src.type, p, t, b, src.nLayers, src.offset⟩
noncomputable def stackElement : Cls StackElement := ⟨stkelInit, stkelCopy, stkelDestroy⟩

/-! ### Outputs: sources/inspection_point.c, sources/output.c -/

structure IPoint where
  file : Ptr
  instant : Nat
  type : Nat
  quantity : Nat
  x : ℚ
  actualX : ℚ
  y : ℚ
  actualY : ℚ
  row : Nat
  column : Nat
  element : Ptr
  flpElement : Ptr

/-- sources/inspection_point.c:46-61 -/
def ipointInit : IPoint := ⟨none, 0, 0, 0, 0, 0, 0, 0, 0, 0, none, none⟩
/-- sources/inspection_point.c:86-91 -/
noncomputable def ipointDestroy (p : IPoint) : M IPoint := do
  let _ ← stringDestroy p.file
  pure ipointInit
/-- sources/inspection_point.c:65-82. The stack element and the floorplan element are not owned. -/
noncomputable def ipointCopy (dst src : IPoint) : M IPoint := do
  let dst ← ipointDestroy dst
  let f ← stringCopy dst.file src.file
  pure ⟨f, src.instant, src.type, src.quantity, src.x, src.actualX, src.y, src.actualY, src.row, src.column, src.element, src.flpElement⟩
noncomputable def ipoint : Cls IPoint := ⟨ipointInit, ipointCopy, ipointDestroy⟩

structure OutputS where
  final : ListS
  slot : ListS
  step : ListS

/-- sources/output.c:46-51 -/
def outputInit : OutputS := ⟨listInit, listInit, listInit⟩
/-- sources/output.c:74-81 -/
noncomputable def outputDestroy (o : OutputS) : M OutputS := do
  let _ ← listDestroy ipoint o.final
  let _ ← listDestroy ipoint o.slot
  let _ ← listDestroy ipoint o.step
  pure outputInit
/-- sources/output.c:55-70 -/
noncomputable def outputCopy (dst src : OutputS) : M OutputS := do
  let dst ← outputDestroy dst
  let f ← listCopy ipoint dst.final src.final
  let s ← listCopy ipoint dst.slot src.slot
  let t ← listCopy ipoint dst.step src.step
  pure ⟨f, s, t⟩
noncomputable def output : Cls OutputS := ⟨outputInit, outputCopy, outputDestroy⟩

/-! ### Dimensions: sources/dimensions.c -/

structure CellDims where
  firstWall : ℚ
  wall : ℚ
  channel : ℚ
  lastWall : ℚ
  width : ℚ
  nHeights : Nat
  heights : Ptr

/-- sources/dimensions.c:48-57, 96-103, 61-92 -/
def cellInit : CellDims := ⟨0, 0, 0, 0, 0, 0, none⟩
noncomputable def cellDestroy (c : CellDims) : M CellDims := do
  arrayFree c.heights
  pure cellInit
noncomputable def cellCopy (dst src : CellDims) : M CellDims := do
  let _ ← cellDestroy dst
  let p ← arrayDup ℚ src.nHeights src.heights
  pure ⟨src.firstWall, src.wall, src.channel, src.lastWall, src.width, src.nHeights, p⟩

/-- The dimensions of the grid and of the chip are numbers: sources/dimensions.c:109-168. -/
structure Plain where
  nLayers : Nat
  nRows : Nat
  nColumns : Nat
  nCells : Nat
  nConnections : Nat
  chipLength : ℚ
  chipWidth : ℚ

structure DimsS where
  cell : CellDims
  plain : Plain
  nonUniform : Nat
  discrX : Nat
  discrY : Nat
  pointers : Ptr
  cells : ListS
  connections : ListS

/-- sources/dimensions.c:173-186 -/
def dimsInit : DimsS := ⟨cellInit, ⟨0, 0, 0, 0, 0, 0, 0⟩, 0, 0, 0, none, listInit, listInit⟩
/-- sources/dimensions.c:207-218 -/
noncomputable def dimsDestroy (d : DimsS) : M DimsS := do
  let _ ← cellDestroy d.cell
  arrayFree d.pointers
  let _ ← listDestroy ncell d.cells
  let _ ← listDestroy connection d.connections
  pure dimsInit
/-- sources/dimensions.c:190-203: the array of pointers to the cells is not copied, its address is. -/
noncomputable def dimsCopy (dst src : DimsS) : M DimsS := do
  let dst ← dimsDestroy dst
  let c ← cellCopy dst.cell src.cell
  let l ← listCopy ncell dst.cells src.cells
  let k ← listCopy connection dst.connections src.connections
  pure ⟨c, src.plain, src.nonUniform, src.discrX, src.discrY, src.pointers, l, k⟩
noncomputable def dims : Cls DimsS := ⟨dimsInit, dimsCopy, dimsDestroy⟩

/-! ### The stack description: sources/stack_description.c -/

structure StackDesc where
  file : Ptr
  top : Ptr
  bottom : Ptr
  channel : Ptr
  dims : Ptr
  materials : ListS
  layers : ListS
  dies : ListS
  elements : ListS

/-- sources/stack_description.c:43-56 -/
def stackInit : StackDesc := ⟨none, none, none, none, none, listInit, listInit, listInit, listInit⟩
/-- sources/stack_description.c:60-75 -/
noncomputable def stackDestroy (s : StackDesc) : M StackDesc := do
  let _ ← stringDestroy s.file
  freeObj heatSink s.top
  freeObj heatSink s.bottom
  freeObj channel s.channel
  freeObj Own.dims s.dims
  let _ ← listDestroy material s.materials
  let _ ← listDestroy layer s.layers
  let _ ← listDestroy die s.dies
  let _ ← listDestroy stackElement s.elements
  pure stackInit

end Verif.Own
