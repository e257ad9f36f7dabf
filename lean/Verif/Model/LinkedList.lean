/-
Model of include/list_template.h and sources/list_template.c : the doubly linked list template from which all typed lists
of 3D-ICE are instantiated. The heap is explicit; dereferencing NULL or a freed node is undefined behaviour (`none`).
Simplifications: malloc never fails and never reuses an address (a fresh counter); the element type's init/copy/destroy
functions are value copies; the equality used by find is a parameter.
-/
namespace Verif.DList

/-- include/list_template.h:54-74 `struct nodetype` -/
structure Node (α : Type) where
  data : α
  prev : Option Nat
  next : Option Nat

/-- include/list_template.h:82-99 `struct listtype` -/
structure Hdr where
  size  : Nat
  first : Option Nat
  last  : Option Nat
deriving Repr, DecidableEq

/-- Memory: nodes by address, and the next fresh address. -/
structure Mem (α : Type) where
  heap : Nat → Option (Node α)
  brk  : Nat

variable {α : Type}

/-- 2^32 (`Quantity_t`) -/
def W : Nat := 4294967296

/-- Memory write. -/
def upd (h : Nat → Option (Node α)) (a : Nat) (v : Option (Node α)) : Nat → Option (Node α) :=
  fun b => if b = a then v else h b

/-- sources/list_template.c:63-70 `TTT_list_init` -/
def init : Hdr := { size := 0, first := none, last := none }

/-- sources/list_template.c:158-200 `TTT_list_insert_begin` -/
def insertBegin (m : Mem α) (l : Hdr) (x : α) : Option (Mem α × Hdr) :=
  let n := m.brk
  match l.first, l.last with
  | none, none => some (⟨upd m.heap n (some ⟨x, none, none⟩), n + 1⟩, ⟨(l.size + 1) % W, some n, some n⟩)
  | none, some _ => some (⟨upd m.heap n (some ⟨x, none, none⟩), n + 1⟩, l)
  | some _, none => some (⟨upd m.heap n (some ⟨x, none, none⟩), n + 1⟩, l)
  | some f, some _ =>
    let h1 := upd m.heap n (some ⟨x, none, some f⟩)
    match h1 f with
    | none    => none
    | some fn => some (⟨upd h1 f (some { fn with prev := some n }), n + 1⟩, ⟨(l.size + 1) % W, some n, l.last⟩)

/-- sources/list_template.c:244-285 `TTT_list_insert_end` (the second status test repeats the first one, so a header with
a NULL `Last` and a non-NULL `First` is dereferenced). -/
def insertEnd (m : Mem α) (l : Hdr) (x : α) : Option (Mem α × Hdr) :=
  let n := m.brk
  match l.first, l.last with
  | none, none => some (⟨upd m.heap n (some ⟨x, none, none⟩), n + 1⟩, ⟨(l.size + 1) % W, some n, some n⟩)
  | some _, none => none
  | _, some e =>
    let h1 := upd m.heap n (some ⟨x, some e, none⟩)
    match h1 e with
    | none    => none
    | some en => some (⟨upd h1 e (some { en with next := some n }), n + 1⟩, ⟨(l.size + 1) % W, l.first, some n⟩)

/-- sources/list_template.c:204-241 `TTT_list_merge` for two different lists; returns the new headers of list1 and list2. -/
def merge (m : Mem α) (l1 l2 : Hdr) : Option (Mem α × Hdr × Hdr) :=
  match l1.first with
  | none   => some (m, { size := l2.size, first := l2.first, last := l2.last }, init)
  | some _ =>
    match l2.first with
    | none    => some (m, l1, l2)
    | some f2 =>
      match l1.last with
      | none    => none
      | some e1 =>
        match m.heap e1 with
        | none    => none
        | some en =>
          let h1 := upd m.heap e1 (some { en with next := some f2 })
          match h1 f2 with
          | none    => none
          | some fn =>
            some (⟨upd h1 f2 (some { fn with prev := some e1 }), m.brk⟩,
                  { size := (l1.size + l2.size) % W, first := l1.first, last := l2.last }, init)

/-- sources/list_template.c:91-109 `TTT_list_destroy` : the loop from node `p` (fuel bounds the iterations; `none` if it
runs out or a freed node is visited). -/
def destroyLoop : Nat → (Nat → Option (Node α)) → Option Nat → Option (Nat → Option (Node α))
  | _,     h, none   => some h
  | 0,     _, some _ => none
  | k + 1, h, some a =>
    match h a with
    | none    => none
    | some nd => destroyLoop k (upd h a none) nd.next

/-- sources/list_template.c:91-109 `TTT_list_destroy` -/
def destroy (m : Mem α) (l : Hdr) : Option (Mem α × Hdr) :=
  match destroyLoop (m.brk + 1) m.heap l.first with
  | none   => none
  | some h => some (⟨h, m.brk⟩, init)

/-- sources/list_template.c:82-86 : the loop of `TTT_list_copy` from source node `p`. -/
def copyLoop : Nat → Mem α → Option Nat → Hdr → Option (Mem α × Hdr)
  | _,     m, none,   dst => some (m, dst)
  | 0,     _, some _, _   => none
  | k + 1, m, some a, dst =>
    match m.heap a with
    | none    => none
    | some nd =>
      match insertEnd m dst nd.data with
      | none           => none
      | some (m', dst') =>
        match m'.heap a with
        | none     => none
        | some nd' => copyLoop k m' nd'.next dst'

/-- sources/list_template.c:74-87 `TTT_list_copy` for two different lists. -/
def copy (m : Mem α) (dst src : Hdr) : Option (Mem α × Hdr) :=
  match destroy m dst with
  | none          => none
  | some (m', d') => copyLoop (m'.brk + 1) m' src.first d'

/-- Walking a list with `_begin`, `_next`, `_data` (list_template.c:113-154). -/
def walkFwd (h : Nat → Option (Node α)) : Nat → Option Nat → Option (List α)
  | _,     none   => some []
  | 0,     some _ => none
  | k + 1, some a => match h a with
    | none    => none
    | some nd => match walkFwd h k nd.next with
      | none    => none
      | some xs => some (nd.data :: xs)

/-- Walking a list backward with `_end`, `_prev`, `_data` (list_template.c:122-154). -/
def walkBwd (h : Nat → Option (Node α)) : Nat → Option Nat → Option (List α)
  | _,     none   => some []
  | 0,     some _ => none
  | k + 1, some a => match h a with
    | none    => none
    | some nd => match walkBwd h k nd.prev with
      | none    => none
      | some xs => some (nd.data :: xs)

/-- sources/list_template.c:289-308 `TTT_list_find` : outer `none` = undefined behaviour; inner `none` = NULL. -/
def find (h : Nat → Option (Node α)) (eq : α → Bool) : Nat → Option Nat → Option (Option α)
  | _,     none   => some none
  | 0,     some _ => none
  | k + 1, some a => match h a with
    | none    => none
    | some nd => if eq nd.data then some (some nd.data) else find h eq k nd.next

/-- A program's list variables, numbered, with their memory. -/
structure World (α : Type) where
  mem  : Mem α
  list : Nat → Hdr

/-- List operations a caller can perform; `merge i j` and `copy i j` are used with `i ≠ j`. -/
inductive Op (α : Type) where
  | insertBegin (i : Nat) (x : α)
  | insertEnd (i : Nat) (x : α)
  | merge (i j : Nat)
  | copy (dst src : Nat)
  | destroy (i : Nat)

/-- Assignment of a list header. -/
def setL (f : Nat → Hdr) (i : Nat) (v : Hdr) : Nat → Hdr := fun k => if k = i then v else f k

/-- One operation. -/
def step (w : World α) : Op α → Option (World α)
  | .insertBegin i x => match insertBegin w.mem (w.list i) x with
    | none        => none
    | some (m, l) => some ⟨m, setL w.list i l⟩
  | .insertEnd i x => match insertEnd w.mem (w.list i) x with
    | none        => none
    | some (m, l) => some ⟨m, setL w.list i l⟩
  | .merge i j => match merge w.mem (w.list i) (w.list j) with
    | none             => none
    | some (m, li, lj) => some ⟨m, setL (setL w.list i li) j lj⟩
  | .copy i j => match copy w.mem (w.list i) (w.list j) with
    | none        => none
    | some (m, l) => some ⟨m, setL w.list i l⟩
  | .destroy i => match destroy w.mem (w.list i) with
    | none        => none
    | some (m, l) => some ⟨m, setL w.list i l⟩

/-- A sequence of operations. -/
def run : World α → List (Op α) → Option (World α)
  | w, []        => some w
  | w, op :: ops => match step w op with
    | none    => none
    | some w' => run w' ops

/-- All lists initialised, no node allocated. -/
def start : World α := ⟨⟨fun _ => none, 0⟩, fun _ => init⟩

end Verif.DList
