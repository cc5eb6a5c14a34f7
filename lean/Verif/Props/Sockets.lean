import Verif.Model.Sockets
import Verif.Props.StrEdit
/-!
# Sockets (C67, C77)
-/

namespace Vita
open Out Net

/-! ### C67 -/

/-- The socket of a server: bound to `port` (stored high byte first) and, for TCP, listening. -/
def IsServer (k : Sock) (ty : Proto) (port : Nat) (backlog : Int) : Prop :=
  k.proto = ty ∧ k.reuse = true ∧ (∃ q, k.bound = some q ∧ q.toNat % 256 = port / 256 ∧ q.toNat / 256 = port % 256) ∧
    k.backlog = (if ty = .tcp then some backlog else none) ∧ k.peer = none ∧ k.sent = []

/-- Every step of starting a server succeeds. -/
def ServerSteps (a : Answers) (ty : Proto) : Prop := a.socket ≠ none ∧ a.setsockopt = true ∧ a.bind = true ∧ (ty = .tcp → a.listen = true)

theorem htons_toNat (x : UInt16) : (htons x).toNat = x.toNat % 256 * 256 + x.toNat / 256 := by
  have h : x.toNat < 65536 := x.toNat_lt
  unfold htons
  rw [UInt16.toNat_ofNat_of_lt' (by show _ < 65536; omega)]

theorem toU16_toNat (n : Nat) : (toU16 n).toNat = n % 65536 := by
  unfold toU16
  rw [UInt16.toNat_ofNat_of_lt' (by show _ < 65536; omega)]
  omega

/-- **C67** (partial: see `C67_descriptor_left_open`, `C67_status_ambiguous` and `C67_port_truncated` for what fails).  `vt_socket_startup_server`
returns a descriptor exactly if every step succeeded; it is the new one, and its socket is bound to the port and listens (TCP).  A failure is reported as a
negative number, which identifies the step if that is `bind` or `listen`. -/
theorem C67_server_partial (a : Answers) (s : Socks) (ty : Proto) (port : Nat) (backlog : Int) (hp : port < 65536) :
    (0 ≤ (startupServer a s ty port backlog).1 ↔ ServerSteps a ty) ∧
    (ServerSteps a ty → ∃ fd k, a.socket = some fd ∧ (startupServer a s ty port backlog).1 = fd ∧
      (startupServer a s ty port backlog).2 fd = some k ∧ IsServer k ty port backlog ∧ ∀ m, m ≠ fd → (startupServer a s ty port backlog).2 m = s m) ∧
    ((startupServer a s ty port backlog).1 = -2 ↔ a.socket ≠ none ∧ a.setsockopt = true ∧ a.bind = false) ∧
    ((startupServer a s ty port backlog).1 = -3 ↔ a.socket ≠ none ∧ a.setsockopt = true ∧ a.bind = true ∧ ty = .tcp ∧ a.listen = false) ∧
    (a.socket = none → startupServer a s ty port backlog = (-1, s)) := by
  have hq1 : (htons (toU16 port)).toNat % 256 = port / 256 := by rw [htons_toNat, toU16_toNat, Nat.mod_eq_of_lt hp]; omega
  have hq2 : (htons (toU16 port)).toNat / 256 = port % 256 := by rw [htons_toNat, toU16_toNat, Nat.mod_eq_of_lt hp]; omega
  obtain ⟨socket, sopt, bnd, lis, con, acc, cl, snd, rcv, pl⟩ := a
  cases socket with
  | none => simp [startupServer, ServerSteps, INVALID]
  | some fd =>
    cases sopt
    · simp [startupServer, ServerSteps, ERROR_OPTIONS]
    cases bnd
    · simp [startupServer, ServerSteps, ERROR_BIND]
    have hfd : (fd : Int) ≠ -2 ∧ (fd : Int) ≠ -3 := by omega
    cases ty
    · cases lis
      · simp [startupServer, ServerSteps, ERROR_LISTEN]
      · simp [startupServer, ServerSteps, Socks.modify, Socks.set, IsServer, hq1, hq2, hfd]
        intro m hm; simp [hm]
    · simp [startupServer, ServerSteps, Socks.modify, Socks.set, IsServer, hq1, hq2, hfd]
      intro m hm; simp [hm]

/-- **C67** (partial, see there).  `vt_socket_startup_client` returns a descriptor exactly if every step succeeded; its socket is connected to the address. -/
theorem C67_client_partial (a : Answers) (s : Socks) (ty : Proto) (addr : Addr) :
    (0 ≤ (startupClient a s ty addr).1 ↔ a.socket ≠ none ∧ a.connect = true) ∧
    (a.socket ≠ none ∧ a.connect = true → ∃ fd, a.socket = some fd ∧ (startupClient a s ty addr).1 = fd ∧
      (startupClient a s ty addr).2 fd = some { proto := ty, peer := some addr } ∧ ∀ m, m ≠ fd → (startupClient a s ty addr).2 m = s m) ∧
    ((startupClient a s ty addr).1 = -4 ↔ a.socket ≠ none ∧ a.connect = false) ∧
    ((startupClient a s ty addr).1 = -1 ↔ a.socket = none) ∧
    (a.socket = none → (startupClient a s ty addr).2 = s) := by
  obtain ⟨socket, sopt, bnd, lis, con, acc, cl, snd, rcv, pl⟩ := a
  cases socket with
  | none => simp [startupClient, INVALID]
  | some fd =>
    have hfd : (fd : Int) ≠ -4 ∧ (fd : Int) ≠ -1 := by omega
    cases con
    · simp [startupClient, ERROR_CONNECT]
    · simp [startupClient, Socks.modify, Socks.set, hfd]
      intro m hm; simp [hm]

/-- **C67** Accepting and closing report every failure and change nothing then. -/
theorem C67_accept_close (a : Answers) (s : Socks) (n : Nat) :
    (0 ≤ (acceptClient a s).1 ↔ a.accept ≠ none) ∧
    (∀ fd p, a.accept = some (fd, p) → (acceptClient a s).1 = fd ∧ ∃ k, (acceptClient a s).2 fd = some k ∧ k.peer = some p) ∧
    (a.accept = none → (acceptClient a s).2 = s) ∧
    ((close a s n).1 = true ↔ a.close = true) ∧ (a.close = true → (close a s n).2 n = none) ∧
    (a.close = false → (close a s n).2 = s) ∧ ∀ m, m ≠ n → (close a s n).2 m = s m := by
  obtain ⟨socket, sopt, bnd, lis, con, acc, cl, snd, rcv, pl⟩ := a
  refine ⟨?_, ?_, ?_, ?_, ?_, ?_, ?_⟩
  · cases acc <;> simp [acceptClient, INVALID]
  · rintro fd p h
    simp only at h
    subst h
    simp [acceptClient, Socks.set]
  · rintro rfl; rfl
  · cases cl <;> simp [close]
  · rintro rfl; simp [close, Socks.set]
  · rintro rfl; simp [close]
  · intro m hm; cases cl <;> simp [close, Socks.set, hm]

/-- **C67** (counterexample) Whenever a step after `socket` fails, the new descriptor stays open although the caller does not get it. -/
theorem C67_descriptor_left_open (a : Answers) (s : Socks) (ty : Proto) (port backlog : Int) (addr : Addr) {fd : Nat} (h : a.socket = some fd) :
    ((startupServer a s ty port backlog).1 < 0 → (startupServer a s ty port backlog).2 fd ≠ none) ∧
    ((startupClient a s ty addr).1 < 0 → (startupClient a s ty addr).2 fd ≠ none) := by
  obtain ⟨socket, sopt, bnd, lis, con, acc, cl, snd, rcv, pl⟩ := a
  simp only at h
  subst h
  constructor
  · intro _
    cases sopt <;> cases bnd <;> cases lis <;> cases ty <;> simp [startupServer, Socks.modify, Socks.set]
  · intro _
    cases con <;> simp [startupClient, Socks.modify, Socks.set]

/-- **C67** (counterexample) No socket and no options are the same status, although the descriptor is open only in one case. -/
theorem C67_status_ambiguous (s : Socks) (ty : Proto) (port backlog : Int) :
    (startupServer { socket := none } s ty port backlog).1 = (startupServer { socket := some 5 } s ty port backlog).1 := rfl

/-- **C67 is false for all other ports**: a port above 65535, or a negative one, is not rejected; the one with the same lower 16 bits is used. -/
theorem C67_port_truncated (a : Answers) (s : Socks) (ty : Proto) (port backlog : Int) (h : ServerSteps a ty) :
    ∃ fd k, (startupServer a s ty port backlog).1 = Int.ofNat fd ∧ (startupServer a s ty port backlog).2 fd = some k ∧ IsServer k ty (port % 65536).toNat backlog := by
  have hp : (port % 65536).toNat < 65536 := by omega
  have e : startupServer a s ty port backlog = startupServer a s ty ((port % 65536).toNat : Nat) backlog := by
    have : toU16 port = toU16 ((port % 65536).toNat : Nat) := by
      unfold toU16
      congr 2
      omega
    unfold startupServer
    rw [this]
  obtain ⟨fd, k, -, h1, h2, h3, -⟩ := (C67_server_partial a s ty _ backlog hp).2.1 h
  rw [e]
  exact ⟨fd, k, h1, h2, h3⟩

-- Port 65616 is port 80.
example : ((65616 : Int) % 65536).toNat = 80 := by decide
example : ServerSteps { socket := some 5, setsockopt := true, bind := true } .udp := by simp [ServerSteps]
example : ServerSteps { socket := some 5, setsockopt := true, bind := true, listen := true } .tcp := by simp [ServerSteps]
example : (startupServer { socket := some 5, setsockopt := true } (fun _ => none) .tcp 80 1).1 < 0 := by decide

/-- **C67** The port of an address is stored high byte first, also when it does not fit into `int16_t` and was converted to it. -/
theorem C67_make_address {E : Env} {z : Mem} {t : List UInt8} (hz : scanZ z = .ok t) (inet : List UInt8 → UInt32) {port : Nat} (hp : port < 65536)
    {arg : Int} (ha : arg = if port < 32768 then (port : Int) else (port : Int) - 65536) :
    ∃ x, makeAddress E inet arg (some z) = .ok x ∧ x.addr = inet t ∧ x.port.toNat % 256 = port / 256 ∧ x.port.toNat / 256 = port % 256 := by
  have : (toU16 arg).toNat = port := by
    unfold toU16
    rw [UInt16.toNat_ofNat_of_lt' (by show _ < 65536; omega)]
    split at ha <;> omega
  refine ⟨⟨htons (toU16 arg), inet t⟩, by simp [makeAddress, hz], rfl, ?_, ?_⟩ <;> rw [htons_toNat, this] <;> omega

example : scanZ (zstr [49]) = .ok [49] := by decide +kernel

/-! ### C77 -/

theorem sockI32_small {n : Nat} (h : n < 2 ^ 31) : toI32 n = n := by
  unfold toI32
  rw [Nat.mod_eq_of_lt (by omega), if_pos (by omega)]

/-- What a transfer function must return if the kernel answers `r` (bytes transferred, or a failure) and the status for failures is `e`. -/
def Reported (r : Option Nat) (e : Int) : Int :=
  match r with
  | none => e
  | some n => n

/-- **C77** Sending reports how much of the front of the buffer the kernel took for this socket, or the failure.  (The kernel transfers at most `INT_MAX` bytes in
one call.) -/
theorem C77_send {a : Answers} {s : Socks} {fd : Nat} {k : Sock} {buf : Mem} {len : Nat} (hl : len ≤ buf.length) (hk : s fd = some k)
    (ha : ∀ n, a.send = some n → n ≤ len ∧ n < 2 ^ 31) (dst : Addr) :
    ∃ s1 s2, send a s fd buf len = .ok (Reported a.send (-5), s1) ∧ sendTo a s fd dst buf len = .ok (Reported a.send (-5), s2) ∧
      (∀ m, m ≠ fd → s1 m = s m ∧ s2 m = s m) ∧
      match (generalizing := false) a.send with
      | none => s1 fd = some k ∧ s2 fd = some k
      | some n => s1 fd = some { k with sent := k.sent ++ [(none, buf.take n)] } ∧ s2 fd = some { k with sent := k.sent ++ [(some dst, buf.take n)] } := by
  unfold send sendTo sysSend
  rw [readN_ok (by omega)]
  simp only [bind_ok, List.drop_zero]
  cases h : a.send with
  | none => exact ⟨s, s, by simp [Reported, ERROR_SEND], by simp [Reported, ERROR_SEND], fun _ _ => ⟨rfl, rfl⟩, hk, hk⟩
  | some n =>
    obtain ⟨h1, h2⟩ := ha n h
    have hn : ¬ ((n : Int) < 0) := by omega
    refine ⟨_, _, by simp only [bind_ok, Nat.min_eq_left h1, sockI32_small h2, hn, if_false]; rfl,
      by simp only [bind_ok, Nat.min_eq_left h1, sockI32_small h2, hn, if_false]; rfl, fun m hm => by simp [Socks.modify, Socks.set, hm], ?_⟩
    simp only [Socks.modify, Socks.set, if_true, hk, Option.map_some, List.take_take, Nat.min_eq_left h1, and_self]

/-- What a transfer of what is there (`r`) must do to a buffer of which `len` bytes may be used. -/
def received (r : Option (List UInt8 × Addr)) (buf : Mem) (len : Nat) : Int × Mem :=
  match r with
  | none => (-6, buf)
  | some (ds, _) => ((min ds.length len : Nat), (ds.take len).map some ++ buf.drop (min ds.length len))

/-- What it must do to the address. -/
def receivedAddr (r : Option (List UInt8 × Addr)) (address : Addr) : Addr :=
  match r with
  | none => address
  | some (_, src) => src

/-- **C77** Receiving reports how many bytes were stored at the front of the buffer, or the failure; nothing else in the buffer is changed, and the address of the
sender is stored exactly on success. -/
theorem C77_receive {a : Answers} {buf : Mem} {len : Nat} (hl : len ≤ buf.length)
    (ha : ∀ ds src, a.recv = some (ds, src) → min ds.length len < 2 ^ 31) (address : Addr) :
    receive a buf len = .ok (received a.recv buf len) ∧
    receiveFrom a address buf len = .ok ((received a.recv buf len).1, receivedAddr a.recv address, (received a.recv buf len).2) := by
  unfold receive receiveFrom sysRecv received receivedAddr
  cases h : a.recv with
  | none => simp [ERROR_RECEIVE]
  | some x =>
    obtain ⟨ds, src⟩ := x
    have h2 := ha ds src h
    have hn : ¬ (((min ds.length len : Nat) : Int) < 0) := by omega
    simp only
    rw [writeN_ok (by simp; omega)]
    simp only [bind_ok, sockI32_small h2, hn, if_false, List.take_zero, List.nil_append, Nat.zero_add, List.length_map, List.length_take]
    rw [Nat.min_comm len]
    exact ⟨rfl, rfl⟩

/-- **C77** The timed variants wait first: if that fails they say so, if nothing is there to be read they return 0, in both cases leaving buffer and address alone
without receiving; otherwise they do what the plain ones do. -/
theorem C77_timed {a : Answers} {buf : Mem} {len : Nat} (hl : len ≤ buf.length)
    (ha : ∀ ds src, a.recv = some (ds, src) → min ds.length len < 2 ^ 31) (address : Addr) :
    (a.poll = none → receiveTimed a buf len = .ok (-7, buf) ∧ receiveTimedFrom a address buf len = .ok (-7, address, buf)) ∧
    (∀ n pollin, a.poll = some (n, pollin) → (n = 0 ∨ pollin = false) →
      receiveTimed a buf len = .ok (0, buf) ∧ receiveTimedFrom a address buf len = .ok (0, address, buf)) ∧
    (∀ n, a.poll = some (n, true) → n ≠ 0 →
      receiveTimed a buf len = .ok (received a.recv buf len) ∧
      receiveTimedFrom a address buf len = .ok ((received a.recv buf len).1, receivedAddr a.recv address, (received a.recv buf len).2)) := by
  obtain ⟨h1, h2⟩ := C77_receive hl ha address
  refine ⟨?_, ?_, ?_⟩
  · intro h
    unfold receiveTimed receiveTimedFrom poll
    simp [h, ERROR_POLL]
  · intro n pollin h hn
    have h0 : ¬ (n : Int) < 0 := by omega
    have h3 : ¬ ((n : Int) > 0 ∧ pollin = true) := by
      rcases hn with hn | hn
      · subst hn; simp
      · simp [hn]
    unfold receiveTimed receiveTimedFrom poll
    simp only [h, h0, h3, if_false, and_self]
  · intro n h hn
    have h0 : ¬ (n : Int) < 0 := by omega
    have h3 : ((n : Int) > 0 ∧ true = true) := ⟨by omega, rfl⟩
    unfold receiveTimed receiveTimedFrom poll
    simp only [h, h0, h3, if_false, if_true]
    exact ⟨h1, h2⟩

example : receiveTimed { poll := some (1, true), recv := some ([1, 2, 3], ⟨7, 8⟩) } [none, none, none, some 9] 2 = .ok (2, [some 1, some 2, none, some 9]) := by
  decide +kernel
example : receiveTimedFrom { poll := some (0, false), recv := some ([1, 2, 3], ⟨7, 8⟩) } ⟨0, 0⟩ [none, none] 2 = .ok (0, ⟨0, 0⟩, [none, none]) := by
  decide +kernel

end Vita
