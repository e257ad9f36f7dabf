/-
Model of sources/network_message.c, of the two byte transfer loops of sources/network_socket.c and of the byte packing
helpers of sources/inspection_point.c / bin/3D-ICE-Client.c.

Conventions
* A memory word (`MessageWord_t` = uint32_t, include/types.h) is a `Nat`; `IsWord` (below 2^32) is stated where needed.
* A word is four bytes, least significant first (little-endian host, as x86; both peers use the same order).
* `none : Option _` is undefined behaviour (access outside the allocated words). `calloc` never fails.
-/
namespace Verif.Net

/-- 2^32, modulus of `MessageWord_t` and `Quantity_t`. include/types.h:54-70 -/
@[irreducible] def W : Nat := 4294967296

/-- A value that fits a `MessageWord_t`. -/
def IsWord (w : Nat) : Prop := w < 4294967296

/-- A value that fits an `unsigned char`. -/
def IsByte (b : Nat) : Prop := b < 256

/-- include/network_message.h:60-90 `struct NetworkMessage_t` : the words of `Memory` and `MaxLength`. The pointers
Length, MType and Content always are Memory, Memory+1 and Memory+2 (network_message.c:52-58, 84-88). -/
structure Msg where
  mem    : List Nat
  maxLen : Nat
deriving Repr, DecidableEq

/-- sources/network_message.c:46-59 `network_message_init` (MESSAGE_LENGTH = 256, network_message.h:57) -/
@[irreducible] def init : Msg := { mem := List.replicate 256 0, maxLen := 256 }

/-- `*message->Length` -/
def lengthWord (m : Msg) : Option Nat := m.mem[0]?

/-- `*message->MType` -/
def typeWord (m : Msg) : Option Nat := m.mem[1]?

/-- sources/network_message.c:76-89 `increase_message_memory` : a zeroed block of `newSize` words, the first MaxLength of
which are overwritten by the old block (undefined when the new block is smaller). -/
def increase (m : Msg) (newSize : Nat) : Option Msg :=
  if m.maxLen ≤ newSize ∧ m.maxLen ≤ m.mem.length then
    some { mem := m.mem.take m.maxLen ++ List.replicate (newSize - m.maxLen) 0, maxLen := newSize }
  else none

/-- sources/network_message.c:93-98 `build_message_head` -/
def buildHead (m : Msg) (type : Nat) : Option Msg :=
  if 2 ≤ m.mem.length then some { m with mem := (m.mem.set 0 2).set 1 type } else none

/-- sources/network_message.c:102-117 `insert_message_word` -/
def insertWord (m : Msg) (w : Nat) : Option Msg :=
  match lengthWord m with
  | none     => none
  | some len =>
    match (if len = m.maxLen then increase m (2 * m.maxLen % W) else some m) with
    | none    => none
    | some m' =>
      if len < m'.mem.length then some { m' with mem := (m'.mem.set len w).set 0 ((len + 1) % W) } else none

/-- Repeated `insert_message_word`. -/
def insertWords : Msg → List Nat → Option Msg
  | m, []      => some m
  | m, w :: ws => match insertWord m w with
    | none    => none
    | some m' => insertWords m' ws

/-- Outcome of `extract_message_word`. -/
inductive Extract where
  | ub
  | failure
  | ok (w : Nat)
deriving Repr, DecidableEq

/-- sources/network_message.c:121-136 `extract_message_word`. MaxLength is at least 256 between init and
destroy, so the unsigned subtraction does not wrap. -/
def extract (m : Msg) (index : Nat) : Extract :=
  if m.maxLen - 2 ≤ index then .failure
  else match m.mem[2 + index]? with
    | none   => .ub
    | some w => .ok w

/-- The four bytes of a word in memory. -/
def wordBytes (w : Nat) : List Nat := [w % 256, w / 256 % 256, w / 65536 % 256, w / 16777216 % 256]

/-- The word stored in four bytes. -/
@[irreducible] def bytesWord (a b c d : Nat) : Nat := a + 256 * b + 65536 * c + 16777216 * d

/-- A block of words seen as bytes. -/
def toBytes : List Nat → List Nat
  | []      => []
  | w :: ws => wordBytes w ++ toBytes ws

/-- A block of bytes seen as words. -/
def ofBytes : List Nat → List Nat
  | a :: b :: c :: d :: l => bytesWord a b c d :: ofBytes l
  | _                     => []

/-- One `write` call: interrupted, failed, or `k` bytes accepted (at most what was offered). -/
inductive WriteEv where
  | eintr
  | err
  | wrote (k : Nat)
deriving Repr, DecidableEq

/-- One `read` call: interrupted, failed, or up to `k+1` bytes delivered (0 bytes when the peer closed and nothing is left). -/
inductive ReadEv where
  | eintr
  | err
  | data (k : Nat)
deriving Repr, DecidableEq

/-- What a transfer loop did: finished, still waiting for the next call, or gave up. -/
inductive Status where
  | ok
  | blocked
  | failure
deriving Repr, DecidableEq

/-- sources/network_socket.c:212-242 : the write loop on the bytes still to send. Returns the bytes put on the wire. -/
def sendLoop : List WriteEv → List Nat → Status × List Nat
  | _,             []     => (.ok, [])
  | [],            _ :: _ => (.blocked, [])
  | .eintr :: s,   b :: l => sendLoop s (b :: l)
  | .err :: _,     _ :: _ => (.failure, [])
  | .wrote k :: s, b :: l =>
    let r := sendLoop s ((b :: l).drop k)
    (r.1, (b :: l).take k ++ r.2)

/-- sources/network_socket.c:197-245 `send_message_to_socket` : `*Length` words from the beginning of the memory.
(64-bit `size_t`: the product does not wrap.) -/
def send (sched : List WriteEv) (m : Msg) : Option (Status × List Nat) :=
  match lengthWord m with
  | none     => none
  | some len => if len ≤ m.mem.length then some (sendLoop sched (toBytes (m.mem.take len))) else none

/-- Result of a read loop: status, bytes obtained, bytes left in the stream, calls left in the schedule. -/
structure ReadRes where
  status : Status
  got    : List Nat
  rest   : List Nat
  sched  : List ReadEv
deriving Repr, DecidableEq

/-- sources/network_socket.c:262-286 and 309-342 : the read loops, for `n` bytes still to read. The stream is what the
peer sends until it closes. -/
def readLoop : List ReadEv → Nat → List Nat → ReadRes
  | s,           0,     st => ⟨.ok, [], st, s⟩
  | [],          _ + 1, st => ⟨.blocked, [], st, []⟩
  | .eintr :: s, n + 1, st => readLoop s (n + 1) st
  | .err :: s,   _ + 1, st => ⟨.failure, [], st, s⟩
  | .data k :: s, n + 1, st =>
    match st with
    | []      => ⟨.failure, [], [], s⟩
    | b :: bs =>
      let c := min (k + 1) (min (n + 1) (b :: bs).length)
      let r := readLoop s (n + 1 - c) ((b :: bs).drop c)
      { r with got := (b :: bs).take c ++ r.got }

/-- Result of a receive: status, message as left in memory, stream and schedule left. -/
structure RecvRes where
  status : Status
  msg    : Msg
  rest   : List Nat
  sched  : List ReadEv
deriving Repr, DecidableEq

/-- sources/network_socket.c:249-348 `receive_message_from_socket`. The bytes read by the second loop overwrite the memory
from MType on, also when the loop gives up early; the byte count is a uint32_t product that wraps. -/
def receive (sched : List ReadEv) (stream : List Nat) (m : Msg) : Option RecvRes :=
  let r1 := readLoop sched 4 stream
  match r1.status, r1.got with
  | .ok, [a, b, c, d] =>
    let len := bytesWord a b c d
    if len = 0 then some ⟨.failure, m, r1.rest, r1.sched⟩
    else
      match (if m.maxLen < len then increase m len else some m) with
      | none    => none
      | some m1 =>
        let r2 := readLoop r1.sched ((len - 1) * 4 % W) r1.rest
        let old := toBytes (m1.mem.drop 1)
        if m1.mem.length = 0 ∨ old.length < r2.got.length then none
        else some ⟨r2.status,
                   { m1 with mem := len :: ofBytes (r2.got ++ old.drop r2.got.length) },
                   r2.rest, r2.sched⟩
  | .ok, _ => none
  | st, _  => some ⟨st, m, r1.rest, r1.sched⟩

/-- sources/inspection_point.c:970-990 and bin/3D-ICE-Server.c (same helper) `insert_message_bytes` : the words inserted
for a byte string, the last one padded with zero bytes. (The uint32_t loop index does not wrap below 2^32-4 bytes.) -/
def packBytes : List Nat → List Nat
  | a :: b :: c :: d :: l => bytesWord a b c d :: packBytes l
  | [a, b, c]             => [bytesWord a b c 0]
  | [a, b]                => [bytesWord a b 0 0]
  | [a]                   => [bytesWord a 0 0 0]
  | []                    => []

/-- sources/inspection_point.c:970-990 `insert_message_bytes` -/
def insertBytes (m : Msg) (bytes : List Nat) : Option Msg := insertWords m (packBytes bytes)

/-- Outcome of `extract_message_bytes`: bytes and next word index. -/
inductive ExtractBytes where
  | ub
  | failure
  | ok (bytes : List Nat) (next : Nat)
deriving Repr, DecidableEq

/-- bin/3D-ICE-Client.c:75-102 `extract_message_bytes` : the loop with `iters` iterations to go, `nbytes` still to read,
from word `index`. -/
def extractChunks (m : Msg) : Nat → Nat → Nat → ExtractBytes
  | 0,         index, _      => .ok [] index
  | iters + 1, index, nbytes =>
    match extract m index with
    | .ub      => .ub
    | .failure => .failure
    | .ok w    =>
      match extractChunks m iters (index + 1) (nbytes - 4) with
      | .ub       => .ub
      | .failure  => .failure
      | .ok bs nx => .ok ((wordBytes w).take nbytes ++ bs) nx

/-- bin/3D-ICE-Client.c:75-102 `extract_message_bytes` : `index += 4` while `index < nbytes` makes ⌈nbytes/4⌉ iterations. -/
def extractBytes (m : Msg) (index nbytes : Nat) : ExtractBytes := extractChunks m ((nbytes + 3) / 4) index nbytes

end Verif.Net
