import Verif.Model.Sockets
/-!
# A connection over time

The kernel's part of a connection between two sockets of this library: the bytes taken by `send` on one of them form a stream, `recv` on the other takes bytes from
the front of it.  And the kernel's part of waiting: `poll` with a time limit.  The calls themselves are those of `Verif.Model.Sockets`.
-/

namespace Vita.Net

/-- One call on a connection, with the kernel's answer.  `send` is `vt_socket_send` of `data` (sockets.c:127-138); the kernel takes `taken` bytes or fails.
`recv` is `vt_socket_receive` (sockets.c:159-170) into a buffer; `there` bytes of those under way have arrived, or the call fails. -/
inductive Op
  | send (data : List UInt8) (taken : Option Nat)
  | recv (buf : Mem) (len : Nat) (there : Option Nat)

/-- A connection: the sockets of the sending side, the descriptor used there, and how many bytes the receiving side has taken. -/
structure Conn where
  socks : Socks
  fd : Nat
  taken : Nat

/-- All bytes that were handed over for sending, in order. -/
def Conn.stream (c : Conn) : List UInt8 :=
  match c.socks c.fd with
  | none => []
  | some k => (k.sent.map fun x => x.2.filterMap id).flatten

/-- The bytes under way. -/
def Conn.pending (c : Conn) : List UInt8 := c.stream.drop c.taken

/-- One call: what it returns, the buffer (of a call that receives) and the connection afterwards. -/
def Conn.step (c : Conn) : Op → Out (Int × Mem × Conn)
  | .send data taken => do
    let (r, s) ← send { send := taken } c.socks c.fd (data.map some) data.length
    .ok (r, [], { c with socks := s })
  | .recv buf len there => do
    let (r, buf) ← receive { recv := there.map fun n => (c.pending.take n, ⟨0, 0⟩) } buf len
    match there with
    | none => .ok (r, buf, c)
    | some n => .ok (r, buf, { c with taken := c.taken + min (c.pending.take n).length len })

/-- Calls one after the other. -/
def Conn.run (c : Conn) : List Op → Out (List (Int × Mem) × Conn)
  | [] => .ok ([], c)
  | o :: os => do
    let (r, m, c) ← c.step o
    let (rs, c) ← c.run os
    .ok ((r, m) :: rs, c)

/-! ### Waiting -/

/-- What ends the waiting for a socket: an event on it (is `POLLIN` among them?), or a signal. -/
inductive Wake
  | event (pollin : Bool)
  | signal
  deriving DecidableEq

/-- The answer of `poll` for one descriptor. -/
def Wake.answer : Wake → Option (Nat × Bool)
  | .event pollin => some (1, pollin)
  | .signal => none

/-- `poll` for one descriptor with the given time limit in milliseconds, of type `int`; a negative one is none at all.  `wake` is the first thing that happens,
and when, counted from the call.  The result is when it returns (`none`: never), and the answer. -/
def sysPoll (limit : Int) (wake : Option (Nat × Wake)) : Option (Nat × Option (Nat × Bool)) :=
  match wake with
  | none => if limit < 0 then none else some (limit.toNat, some (0, false))
  | some (t, w) => if limit < 0 ∨ (t : Int) ≤ limit then some (t, w.answer) else some (limit.toNat, some (0, false))

/-- `vt_socket_receive_timed` with its time limit, sockets.c:206-223; the `uint32_t` is converted to the `int` of `poll` (sockets.c:200).  After `POLLIN` was reported
`recv` is taken not to wait. -/
def receiveTimedAt (timeout : Nat) (wake : Option (Nat × Wake)) (a : Answers) (buf : Mem) (len : Nat) : Option (Nat × Out (Int × Mem)) :=
  match sysPoll (toI32 timeout) wake with
  | none => none
  | some (t, p) => some (t, receiveTimed { a with poll := p } buf len)

/-- `vt_socket_receive_timed_from` with its time limit, sockets.c:225-242. -/
def receiveTimedFromAt (timeout : Nat) (wake : Option (Nat × Wake)) (a : Answers) (address : Addr) (buf : Mem) (len : Nat) :
    Option (Nat × Out (Int × Addr × Mem)) :=
  match sysPoll (toI32 timeout) wake with
  | none => none
  | some (t, p) => some (t, receiveTimedFrom { a with poll := p } address buf len)

/-- `vt_socket_receive`, sockets.c:159-170, which waits for the first event; a signal makes `recv` fail. -/
def receiveAt (wake : Option (Nat × Wake)) (a : Answers) (buf : Mem) (len : Nat) : Option (Nat × Out (Int × Mem)) :=
  match wake with
  | none => none
  | some (t, .event _) => some (t, receive a buf len)
  | some (t, .signal) => some (t, receive { a with recv := none } buf len)

/-- `vt_socket_receive_from`, sockets.c:172-191, likewise. -/
def receiveFromAt (wake : Option (Nat × Wake)) (a : Answers) (address : Addr) (buf : Mem) (len : Nat) : Option (Nat × Out (Int × Addr × Mem)) :=
  match wake with
  | none => none
  | some (t, .event _) => some (t, receiveFrom a address buf len)
  | some (t, .signal) => some (t, receiveFrom { a with recv := none } address buf len)

end Vita.Net
