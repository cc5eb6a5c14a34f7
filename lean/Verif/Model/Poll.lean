import Verif.Model.SocketFlow
/-!
# Model of `vt_socket_poll` for any number of descriptors

`src/vita/network/sockets.c:193-204`, POSIX variant.  The kernel's part, `poll`, is modelled over time: which conditions hold on each descriptor at the beginning
of the call, and what happens afterwards.
-/

namespace Vita.Net

/-- `struct pollfd` of the C library: the descriptor, the events asked for, and those reported. -/
structure PollFd where
  fd : Int
  events : UInt16
  revents : UInt16
  deriving DecidableEq, Repr

/-- `POLLIN` and the conditions that are reported without being asked for, `POLLERR | POLLHUP | POLLNVAL` (values of Linux). -/
def POLLIN : UInt16 := 1
def pollAlways : UInt16 := 8 ||| 16 ||| 32

/-- The conditions that hold on each descriptor. -/
abbrev Conds := Int → UInt16

/-- Something that happens during the call: the conditions change, or a signal arrives. -/
inductive Happening
  | conds (c : Conds)
  | signal

/-- What `poll` reports for an entry: the conditions asked for and errors; nothing for a negative descriptor. -/
def PollFd.report (c : Conds) (p : PollFd) : UInt16 := if p.fd < 0 then 0 else c p.fd &&& (p.events ||| pollAlways)

/-- The entries with the reports filled in. -/
def marked (c : Conds) (ps : List PollFd) : List PollFd := ps.map fun p => { p with revents := p.report c }

/-- The number of entries with something to report. -/
def readyCount (c : Conds) (ps : List PollFd) : Nat := (ps.filter fun p => p.report c != 0).length

/-- `poll` from the moment `t` on, with conditions `c` and what happens later, in milliseconds counted from the call: when it returns (`none`: never) and its
answer, a failure because of a signal or the number of ready entries and the entries.  `limit` is of type `int`; a negative one is none at all. -/
def sysPollFrom (limit : Int) (ps : List PollFd) : (t : Nat) → Conds → List (Nat × Happening) → Option (Nat × Option (Nat × List PollFd))
  | t, c, later =>
    if 0 < readyCount c ps then some (t, some (readyCount c ps, marked c ps))
    else
      match later with
      | [] => if limit < 0 then none else some (limit.toNat, some (0, marked c ps))
      | (u, h) :: later =>
        if limit < 0 ∨ (u : Int) ≤ limit then
          match h with
          | .signal => some (u, none)
          | .conds c => sysPollFrom limit ps u c later
        else some (limit.toNat, some (0, marked c ps))

/-- `vt_socket_poll`, sockets.c:193-204: when it returns, its result, and the entries afterwards.  The `uint32_t` is converted to the `int` of `poll`.  More entries
than `maxFds`, the limit of the process, make `poll` fail at once. -/
def pollMany (maxFds timeout : Nat) (c : Conds) (later : List (Nat × Happening)) (ps : List PollFd) : Option (Nat × Int × List PollFd) :=
  match (if maxFds < ps.length then some (0, none) else sysPollFrom (toI32 timeout) ps 0 c later) with
  | none => none
  | some (t, none) => some (t, ERROR_POLL, ps)
  | some (t, some (n, qs)) => some (t, n, qs)

/-- `vt_socket_receive_timed`, sockets.c:206-223, with the entry it polls: the descriptor, for input (a valid descriptor fits the `int` of the structure).  After `POLLIN`
was reported `recv` is taken not to wait. -/
def receiveTimedPoll (maxFds timeout : Nat) (c : Conds) (later : List (Nat × Happening)) (fd : Nat) (a : Answers) (buf : Mem) (len : Nat) :
    Option (Nat × Out (Int × Mem)) :=
  match pollMany maxFds timeout c later [⟨fd, POLLIN, 0⟩] with
  | none => none
  | some (t, n, qs) =>
    if n < 0 then some (t, .ok (ERROR_POLL, buf))
    else if n > 0 ∧ qs.any (fun q => q.revents &&& POLLIN != 0) = true then some (t, receive a buf len)
    else some (t, .ok (0, buf))

/-- `vt_socket_receive_timed_from`, sockets.c:225-242, likewise. -/
def receiveTimedFromPoll (maxFds timeout : Nat) (c : Conds) (later : List (Nat × Happening)) (fd : Nat) (a : Answers) (address : Addr) (buf : Mem) (len : Nat) :
    Option (Nat × Out (Int × Addr × Mem)) :=
  match pollMany maxFds timeout c later [⟨fd, POLLIN, 0⟩] with
  | none => none
  | some (t, n, qs) =>
    if n < 0 then some (t, .ok (ERROR_POLL, address, buf))
    else if n > 0 ∧ qs.any (fun q => q.revents &&& POLLIN != 0) = true then some (t, receiveFrom a address buf len)
    else some (t, .ok (0, address, buf))

end Vita.Net
