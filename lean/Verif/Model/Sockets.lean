import Verif.Base.Mem
import Verif.Model.Str
/-!
# Model of `src/vita/network/sockets.c` and `inc/vita/network/sockets.h`

The kernel is represented by the table of open sockets and by its answers to the system calls, which are inputs: each function below makes each system call at
most once, so one answer per system call covers every combination of outcomes.  Only the POSIX variant is modelled; the debug output is left out (see
`Verif.Model.Log` for it).
-/

namespace Vita.Net

/-- `enum VitaSocketType`: sockets.h:50-55. -/
inductive Proto where
  | tcp
  | udp
  deriving DecidableEq, Repr

/-- `struct VitaSocketAddress`: sockets.h:57-61; both members are in network byte order. -/
structure Addr where
  port : UInt16
  addr : UInt32
  deriving DecidableEq, Repr

/-- What the kernel keeps for an open socket.  The local port and the peer are the values passed in `struct sockaddr_in`, in network byte order.  `sent` is all
that was handed over for sending, with the destination if one was named. -/
structure Sock where
  proto : Proto
  reuse : Bool := false
  bound : Option UInt16 := none
  backlog : Option Int := none
  peer : Option Addr := none
  sent : List (Option Addr × List Byte) := []
  deriving DecidableEq

/-- The open sockets. -/
abbrev Socks := Nat → Option Sock

/-- The table with socket `n` set. -/
def Socks.set (s : Socks) (n : Nat) (k : Option Sock) : Socks := fun m => if m = n then k else s m

/-- The answers of the kernel to the system calls during one function: a descriptor or a failure, success or failure, bytes that can be taken or bytes
and sender that are there, or a failure.  `poll` is the number of ready descriptors and whether `POLLIN` is set for the first. -/
structure Answers where
  socket : Option Nat := none
  setsockopt : Bool := false
  bind : Bool := false
  listen : Bool := false
  connect : Bool := false
  accept : Option (Nat × Addr) := none
  close : Bool := false
  send : Option Nat := none
  recv : Option (List UInt8 × Addr) := none
  poll : Option (Nat × Bool) := none

/-- `VT_SOCKET_STATUS_*`: sockets.h:39-48; `(vt_socket_t)(~0)` is -1. -/
def INVALID : Int := -1
def ERROR_OPTIONS : Int := -1
def ERROR_BIND : Int := -2
def ERROR_LISTEN : Int := -3
def ERROR_CONNECT : Int := -4
def ERROR_SEND : Int := -5
def ERROR_RECEIVE : Int := -6
def ERROR_POLL : Int := -7

/-- `htons` on a little-endian machine. -/
def htons (p : UInt16) : UInt16 := UInt16.ofNat (p.toNat % 256 * 256 + p.toNat / 256)

/-- Conversion of an integer to `uint16_t`. -/
def toU16 (n : Int) : UInt16 := UInt16.ofNat (n % 65536).toNat

/-- `vt_socket_make_address`: sockets.c:26-33.  `inet` is `inet_addr` of the text, which is the library's; `port` has type `int16_t`. -/
def makeAddress (E : Env) (inet : List UInt8 → UInt32) (port : Int) (z : Option Mem) : Out Addr :=
  match z with
  | none => do
    dassert E false
    .ub
  | some z => do
    let t ← scanZ z
    .ok ⟨htons (toU16 port), inet t⟩

/-- A system call that changes an open socket. -/
def Socks.modify (s : Socks) (n : Nat) (f : Sock → Sock) : Socks := s.set n ((s n).map f)

/-- `vt_socket_startup_server`: sockets.c:35-69.  The second result is the table of open sockets. -/
def startupServer (a : Answers) (s : Socks) (ty : Proto) (port backlog : Int) : Int × Socks :=
  match a.socket with
  | none => (INVALID, s)
  | some fd =>
    let s := s.set fd (some { proto := ty })
    if !a.setsockopt then (ERROR_OPTIONS, s)
    else
      let s := s.modify fd fun k => { k with reuse := true }
      if !a.bind then (ERROR_BIND, s)
      else
        let s := s.modify fd fun k => { k with bound := some (htons (toU16 port)) }
        if ty = .tcp then
          if !a.listen then (ERROR_LISTEN, s)
          else (fd, s.modify fd fun k => { k with backlog := some backlog })
        else (fd, s)

/-- `vt_socket_startup_client`: sockets.c:71-92. -/
def startupClient (a : Answers) (s : Socks) (ty : Proto) (addr : Addr) : Int × Socks :=
  match a.socket with
  | none => (INVALID, s)
  | some fd =>
    let s := s.set fd (some { proto := ty })
    if !a.connect then (ERROR_CONNECT, s)
    else (fd, s.modify fd fun k => { k with peer := some addr })

/-- `vt_socket_accept_client`: sockets.c:94-109. -/
def acceptClient (a : Answers) (s : Socks) : Int × Socks :=
  match a.accept with
  | none => (INVALID, s)
  | some (fd, peer) => (fd, s.set fd (some { proto := .tcp, peer := some peer }))

/-- `vt_socket_close`: sockets.c:111-125.  A failing `close` is taken to leave the table alone. -/
def close (a : Answers) (s : Socks) (fd : Nat) : Bool × Socks := if a.close then (true, s.set fd none) else (false, s)

/-- Conversion of the `ssize_t` result of a transfer to `int32_t`. -/
def toI32 (n : Nat) : Int := if n % 4294967296 < 2147483648 then ((n % 4294967296 : Nat) : Int) else ((n % 4294967296 : Nat) : Int) - 4294967296

/-- `send` or `sendto`: the kernel takes some number of bytes, at most `len`, from the front of the buffer. -/
def sysSend (a : Answers) (s : Socks) (fd : Nat) (dst : Option Addr) (buf : Mem) (len : Nat) : Out (Option Nat × Socks) := do
  let bs ← readN buf 0 len
  match a.send with
  | none => .ok (none, s)
  | some n => .ok (some (min n len), s.modify fd fun k => { k with sent := k.sent ++ [(dst, bs.take n)] })

/-- `vt_socket_send`: sockets.c:127-138. -/
def send (a : Answers) (s : Socks) (fd : Nat) (buf : Mem) (len : Nat) : Out (Int × Socks) := do
  let (r, s) ← sysSend a s fd none buf len
  match r with
  | none => .ok (ERROR_SEND, s)
  | some n => if toI32 n < 0 then .ok (ERROR_SEND, s) else .ok (toI32 n, s)

/-- `vt_socket_send_to`: sockets.c:140-157. -/
def sendTo (a : Answers) (s : Socks) (fd : Nat) (dst : Addr) (buf : Mem) (len : Nat) : Out (Int × Socks) := do
  let (r, s) ← sysSend a s fd (some dst) buf len
  match r with
  | none => .ok (ERROR_SEND, s)
  | some n => if toI32 n < 0 then .ok (ERROR_SEND, s) else .ok (toI32 n, s)

/-- `recv` or `recvfrom`: the kernel writes what there is, at most `len` bytes, to the front of the buffer. -/
def sysRecv (a : Answers) (buf : Mem) (len : Nat) : Out (Option (Nat × Addr) × Mem) :=
  match a.recv with
  | none => .ok (none, buf)
  | some (ds, src) => do
    let buf ← writeN buf 0 ((ds.take len).map some)
    .ok (some (min ds.length len, src), buf)

/-- `vt_socket_receive`: sockets.c:159-170. -/
def receive (a : Answers) (buf : Mem) (len : Nat) : Out (Int × Mem) := do
  let (r, buf) ← sysRecv a buf len
  match r with
  | none => .ok (ERROR_RECEIVE, buf)
  | some (n, _) => if toI32 n < 0 then .ok (ERROR_RECEIVE, buf) else .ok (toI32 n, buf)

/-- `vt_socket_receive_from`: sockets.c:172-191.  `address` is the structure pointed to. -/
def receiveFrom (a : Answers) (address : Addr) (buf : Mem) (len : Nat) : Out (Int × Addr × Mem) := do
  let (r, buf) ← sysRecv a buf len
  match r with
  | none => .ok (ERROR_RECEIVE, address, buf)
  | some (n, src) => if toI32 n < 0 then .ok (ERROR_RECEIVE, address, buf) else .ok (toI32 n, ⟨src.port, src.addr⟩, buf)

/-- `vt_socket_poll` with one descriptor: sockets.c:193-204; also whether `POLLIN` is set. -/
def poll (a : Answers) : Int × Bool :=
  match a.poll with
  | none => (ERROR_POLL, false)
  | some (n, pollin) => (n, pollin)

/-- `vt_socket_receive_timed`: sockets.c:206-223. -/
def receiveTimed (a : Answers) (buf : Mem) (len : Nat) : Out (Int × Mem) :=
  let (r, pollin) := poll a
  if r < 0 then .ok (ERROR_POLL, buf)
  else if r > 0 ∧ pollin = true then receive a buf len
  else .ok (0, buf)

/-- `vt_socket_receive_timed_from`: sockets.c:225-242. -/
def receiveTimedFrom (a : Answers) (address : Addr) (buf : Mem) (len : Nat) : Out (Int × Addr × Mem) :=
  let (r, pollin) := poll a
  if r < 0 then .ok (ERROR_POLL, address, buf)
  else if r > 0 ∧ pollin = true then receiveFrom a address buf len
  else .ok (0, address, buf)

end Vita.Net
