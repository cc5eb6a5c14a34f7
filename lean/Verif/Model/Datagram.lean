import Verif.Model.Sockets
/-!
# Datagrams over time

The network's part of datagrams between sockets of this library: what `sendto` was given may arrive at a socket with the address named, any number of times (also not at
all) and in any order, but never damaged, joined or split.  The calls themselves are those of `Verif.Model.Sockets`.
-/

namespace Vita.Net

/-- One call on a datagram socket, with the answer of kernel and network.  `sendTo` is `vt_socket_send_to` (sockets.c:140-157); `taken` says whether the kernel takes the
datagram (all or nothing).  `recvFrom` is `vt_socket_receive_from` (sockets.c:172-191); `which` names the datagram that arrives: the socket it was sent from and its number
there; `none` is a failure. -/
inductive DOp
  | sendTo (fd : Nat) (dst : Addr) (data : List UInt8) (taken : Bool)
  | recvFrom (fd : Nat) (address : Addr) (buf : Mem) (len : Nat) (which : Option (Nat × Nat))

/-- The sockets and the address of each. -/
structure DNet where
  socks : Socks
  addr : Nat → Addr

/-- The datagram that arrives at `fd`, with the address of its sender.  Only one that was sent to this address can. -/
def DNet.arrives (w : DNet) (fd : Nat) (which : Option (Nat × Nat)) : Option (List UInt8 × Addr) :=
  match which with
  | none => none
  | some (j, m) =>
    match w.socks j with
    | none => none
    | some k =>
      match k.sent[m]? with
      | some (some dst, bs) => if dst = w.addr fd then some (bs.filterMap id, w.addr j) else none
      | _ => none

/-- What a program sees of a call: the result, and for a call that receives the buffer and the address afterwards. -/
inductive DEv
  | sent (fd : Nat) (dst : Addr) (data : List UInt8) (result : Int)
  | got (fd : Nat) (before : Addr) (buf : Mem) (len : Nat) (result : Int) (address : Addr) (mem : Mem)

/-- One call. -/
def DNet.step (w : DNet) : DOp → Out (DEv × DNet)
  | .sendTo fd dst data taken => do
    let (r, s) ← Net.sendTo { send := if taken then some data.length else none } w.socks fd dst (data.map some) data.length
    .ok (.sent fd dst data r, { w with socks := s })
  | .recvFrom fd address buf len which => do
    let (r, a, m) ← receiveFrom { recv := w.arrives fd which } address buf len
    .ok (.got fd address buf len r a m, w)

/-- Calls one after the other. -/
def DNet.run (w : DNet) : List DOp → Out (List DEv × DNet)
  | [] => .ok ([], w)
  | o :: os => do
    let (e, w) ← w.step o
    let (es, w) ← w.run os
    .ok (e :: es, w)

end Vita.Net
