/-
Model of sources/powers_queue.c : the ring buffer that stores the power trace of a floorplan element.

Conventions
* `none : Option _` as a result means the C code has undefined behaviour (out-of-bounds access, `% 0`).
* `Quantity_t` is `uint32_t` (include/types.h:54): the products and increments that can wrap are reduced mod 2^32.
* `malloc/calloc` never fail (simplification); `calloc(0)` returns a non-NULL pointer to an empty block, as glibc does.
-/
namespace Verif.PowersQueue

/-- include/powers_queue.h, `struct PowersQueue_t` : Capacity, Size, Start, End and Memory
(`none` = NULL, `some m` = block of `m.length` values). -/
structure PQ (α : Type) where
  cap   : Nat
  size  : Nat
  start : Nat
  stop  : Nat
  mem   : Option (List α)
deriving Repr, DecidableEq

variable {α : Type}

/-- 2^32, the modulus of `Quantity_t`. include/types.h:54 -/
def W : Nat := 4294967296

/-- sources/powers_queue.c:45-52 `powers_queue_init` -/
def init : PQ α := { cap := 0, size := 0, start := 0, stop := 0, mem := none }

/-- sources/powers_queue.c:56-72 `powers_queue_build` : destroy (lines 76-83, i.e. re-init) then calloc. -/
def build [Zero α] (_q : PQ α) (capacity : Nat) : PQ α :=
  { cap := capacity, size := 0, start := 0, stop := 0, mem := some (List.replicate capacity 0) }

/-- sources/powers_queue.c:190-193 -/
def isEmpty (q : PQ α) : Bool := q.size == 0

/-- sources/powers_queue.c:197-200 -/
def isFull (q : PQ α) : Bool := q.size == q.cap

/-- sources/powers_queue.c:235-239 : store at End, advance End modulo Capacity, increment Size. -/
def store (q : PQ α) (x : α) : Option (PQ α) :=
  match q.mem with
  | none   => none
  | some m =>
    if q.stop < m.length then
      if q.cap = 0 then none
      else some { q with mem := some (m.set q.stop x), stop := ((q.stop + 1) % W) % q.cap, size := (q.size + 1) % W }
    else none

/-- sources/powers_queue.c:106-114 : the copy loop; `k` values still to copy from index `i` of `src`,
using `put` for the destination. -/
def copyLoop (put : PQ α → α → Option (PQ α)) (src : PQ α) : Nat → Nat → PQ α → Option (PQ α)
  | 0,     _, dst => some dst
  | k + 1, i, dst =>
    match src.mem with
    | none   => none
    | some m =>
      match m[i]? with
      | none   => none
      | some x =>
        match put dst x with
        | none      => none
        | some dst' => if src.cap = 0 then none else copyLoop put src k (((i + 1) % W) % src.cap) dst'

/-- sources/powers_queue.c:87-115 `powers_queue_copy`, parametrised by the put function it calls. -/
def copyWith [Zero α] (put : PQ α → α → Option (PQ α)) (dst src : PQ α) : Option (PQ α) :=
  let dst := if dst.cap < src.cap ∨ dst.mem = none then build init src.cap
             else { dst with start := 0, stop := 0, size := 0 }
  if isEmpty src then some dst else copyLoop put src src.size src.start dst

/-- sources/powers_queue.c:204-240 `put_into_powers_queue`. The function calls itself through
`powers_queue_copy` when it grows; the first argument bounds that recursion depth (`putDepth 0` on a full
queue is reported as UB). `put` uses depth 1; `put_depth_irrelevant` (Lemmas) shows that deeper recursion is never needed. -/
def putDepth [Zero α] : Nat → PQ α → α → Option (PQ α)
  | d, q, x =>
    match q.mem with
    | none   => some q
    | some _ =>
      if isFull q then
        match d with
        | 0      => none
        | d' + 1 =>
          match copyWith (putDepth d') (build init (q.cap * 2 % W)) q with
          | none    => none
          | some pq => store pq x
      else store q x

/-- sources/powers_queue.c:204-240 `put_into_powers_queue` -/
def put [Zero α] (q : PQ α) (x : α) : Option (PQ α) := putDepth 1 q x

/-- sources/powers_queue.c:87-115 `powers_queue_copy` -/
def copy [Zero α] (dst src : PQ α) : Option (PQ α) := copyWith put dst src

/-- sources/powers_queue.c:132-145 `powers_queue_clone` -/
def clone [Zero α] (q : PQ α) : Option (PQ α) := copy init q

/-- sources/powers_queue.c:244-267 `get_from_powers_queue` -/
def get [Zero α] (q : PQ α) : Option (α × PQ α) :=
  match q.mem with
  | none   => some (0, q)
  | some m =>
    if isEmpty q then some (0, q)
    else
      match m[q.start]? with
      | none   => none
      | some x =>
        if q.cap = 0 then none
        else some (x, { q with start := ((q.start + 1) % W) % q.cap, size := q.size - 1 })

/-- Operations a user performs on one queue. -/
inductive Op (α : Type) where
  | put (x : α)
  | get
deriving Repr, DecidableEq

/-- Run a list of operations; the outputs are the values returned by the gets. -/
def run [Zero α] : PQ α → List (Op α) → Option (List α × PQ α)
  | q, []              => some ([], q)
  | q, Op.put x :: ops => match put q x with
    | none    => none
    | some q' => run q' ops
  | q, Op.get :: ops   => match get q with
    | none         => none
    | some (x, q') => match run q' ops with
      | none          => none
      | some (xs, qf) => some (x :: xs, qf)

end Verif.PowersQueue
