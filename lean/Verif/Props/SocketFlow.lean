import Verif.Model.SocketFlow
import Verif.Props.Sockets
/-!
# Connections over time (C106, C107)
-/

namespace Vita
open Out Net

/-! ### C106 -/

/-- The kernel transfers at most `INT_MAX` bytes in one call and no more than it was given; the buffer is as large as the caller says. -/
def OpOk : Op → Prop
  | .send data taken => data.length < 2 ^ 31 ∧ ∀ n, taken = some n → n ≤ data.length
  | .recv buf len _ => len ≤ buf.length ∧ len < 2 ^ 31

/-- The bytes which the sending program knows to be on their way: after each call those at the front of its data, as many as the call returned. -/
def knownSent : List Op → List (Int × Mem) → List UInt8
  | .send data _ :: os, r :: rs => data.take r.1.toNat ++ knownSent os rs
  | .recv _ _ _ :: os, _ :: rs => knownSent os rs
  | _, _ => []

/-- The bytes which the receiving program got: after each call those at the front of its buffer, as many as the call returned. -/
def knownReceived : List Op → List (Int × Mem) → Mem
  | .recv _ _ _ :: os, r :: rs => r.2.take r.1.toNat ++ knownReceived os rs
  | .send _ _ :: os, _ :: rs => knownReceived os rs
  | _, _ => []

/-- Sending extends the stream by what was reported. -/
theorem conn_send {c : Conn} {k : Sock} (hk : c.socks c.fd = some k) {data : List UInt8} {taken : Option Nat} (h : OpOk (.send data taken)) :
    ∃ r s k', c.step (.send data taken) = .ok (r, [], { c with socks := s }) ∧ s c.fd = some k' ∧
      ({ c with socks := s } : Conn).stream = c.stream ++ data.take r.toNat := by
  obtain ⟨h1, h2⟩ := h
  obtain ⟨s1, s2, e1, _, _, e4⟩ := C77_send (a := { send := taken }) (s := c.socks) (fd := c.fd) (k := k) (buf := data.map some) (len := data.length) (by simp) hk
    (fun n hn => ⟨h2 n hn, by have := h2 n hn; omega⟩) ⟨0, 0⟩
  simp only [Conn.step, e1, bind_ok]
  cases taken with
  | none => exact ⟨_, s1, k, rfl, e4.1, by simp [Conn.stream, e4.1, hk, Reported]⟩
  | some n =>
    refine ⟨_, s1, _, rfl, e4.1, ?_⟩
    simp only [Conn.stream, e4.1, hk, Reported, List.map_append, List.flatten_append, Int.toNat_natCast]
    simp [← List.map_take, List.filterMap_map]

/-- Receiving takes what was reported from the front. -/
theorem conn_recv (c : Conn) {buf : Mem} {len : Nat} {there : Option Nat} (h : OpOk (.recv buf len there)) :
    ∃ r m n, c.step (.recv buf len there) = .ok (r, m, { c with taken := c.taken + n }) ∧ m.take r.toNat = (c.pending.take n).map some ∧ n ≤ c.pending.length := by
  obtain ⟨h1, h2⟩ := h
  obtain ⟨e1, _⟩ := C77_receive (a := { recv := there.map fun n => (c.pending.take n, ⟨0, 0⟩) }) (buf := buf) (len := len) h1
    (fun ds src _ => by omega) ⟨0, 0⟩
  simp only [Conn.step, e1, bind_ok]
  cases there with
  | none => exact ⟨_, _, 0, rfl, by simp [received], by simp⟩
  | some n =>
    refine ⟨_, _, min (c.pending.take n).length len, rfl, ?_, by simp [List.length_take]; omega⟩
    simp only [Option.map_some, received, Int.toNat_natCast]
    rw [List.take_append_of_le_length (by simp [List.length_take]; omega), ← List.map_take, List.take_take, List.take_take]
    congr 2
    simp only [List.length_take]
    omega

/-- **C106** Whatever the sizes of the transfers and whichever calls fail: at any time, what the receiver got, followed by what is under way, is what the sender was
told it sent.  So everything arrives unchanged, in order and at most once, and the counts returned by the calls are right. -/
theorem C106_stream {c : Conn} {k : Sock} (hk : c.socks c.fd = some k) (hs : k.sent = []) (h0 : c.taken = 0) {os : List Op} (ho : ∀ o ∈ os, OpOk o) :
    ∃ rs c', c.run os = .ok (rs, c') ∧ (knownSent os rs).map some = knownReceived os rs ++ c'.pending.map some := by
  suffices H : ∀ (os : List Op) (c : Conn) (k : Sock), c.socks c.fd = some k → c.taken ≤ c.stream.length → (∀ o ∈ os, OpOk o) →
      ∃ rs c', c.run os = .ok (rs, c') ∧ (c.pending ++ knownSent os rs).map some = knownReceived os rs ++ c'.pending.map some by
    have he : c.stream = [] := by simp [Conn.stream, hk, hs]
    obtain ⟨rs, c', e1, e2⟩ := H os c k hk (by omega) ho
    refine ⟨rs, c', e1, ?_⟩
    rw [← e2]
    simp [Conn.pending, he]
  intro os
  induction os with
  | nil => intro c k _ _ _; exact ⟨[], c, rfl, by simp [knownSent, knownReceived]⟩
  | cons o os ih =>
    intro c k hk ht ho
    have h1 := ho o (by simp)
    have h2 : ∀ o ∈ os, OpOk o := fun x hx => ho x (by simp [hx])
    cases o with
    | send data taken =>
      obtain ⟨r, s, k', e1, e2, e3⟩ := conn_send hk h1
      obtain ⟨rs, c', e4, e5⟩ := ih { c with socks := s } k' e2 (by rw [e3]; simp; omega) h2
      refine ⟨(r, []) :: rs, c', by simp [Conn.run, e1, e4], ?_⟩
      simp only [knownSent, knownReceived]
      rw [← e5, ← List.append_assoc]
      congr 2
      unfold Conn.pending
      rw [e3, List.drop_append_of_le_length ht]
    | recv buf len there =>
      obtain ⟨r, m, n, e1, e2, e3⟩ := conn_recv c h1
      have h4 : c.pending.length = c.stream.length - c.taken := by simp [Conn.pending]
      obtain ⟨rs, c', e4, e5⟩ := ih { c with taken := c.taken + n } k hk (by show c.taken + n ≤ c.stream.length; omega) h2
      refine ⟨(r, m) :: rs, c', by simp [Conn.run, e1, e4], ?_⟩
      simp only [knownSent, knownReceived]
      rw [List.append_assoc, ← e5, e2, ← List.map_append, ← List.append_assoc]
      congr 2
      have : ({ c with taken := c.taken + n } : Conn).pending = c.pending.drop n := by
        unfold Conn.pending
        rw [List.drop_drop]
        rfl
      rw [this, List.take_append_drop]

example : ∃ c', (Conn.mk (fun n => if n = 3 then some { proto := .tcp } else none) 3 0).run [.send [1, 2, 3, 4] (some 3), .recv [none, none] 2 (some 5), .send [4] none]
    = .ok ([(3, []), (2, [some 1, some 2]), (-5, [])], c') ∧ c'.pending = [3] := by
  refine ⟨_, rfl, ?_⟩
  decide +kernel
example : OpOk (.send [1, 2, 3, 4] (some 3)) := ⟨by decide, by rintro _ ⟨⟩; decide⟩
example : OpOk (.recv [none, none] 2 (some 5)) := ⟨by decide, by decide⟩

/-! ### C107 -/

/-- **C107** (partial: time limits of 2^31 milliseconds and more, other than the documented "-1", are missing, see `C107_long_limit_never_ends`.)  A receiving call with a time limit is over
by then at the latest: it waits as long as nothing happens, and returns 0 at the limit; if something arrives up to then, it does at once what the call without limit does. -/
theorem C107_limit_partial {timeout : Nat} (h : timeout < 2 ^ 31) (wake : Option (Nat × Wake)) (a : Answers) (address : Addr) (buf : Mem) (len : Nat) :
    (∃ t r1 r2, receiveTimedAt timeout wake a buf len = some (t, r1) ∧ receiveTimedFromAt timeout wake a address buf len = some (t, r2) ∧ t ≤ timeout) ∧
    ((∀ t w, wake = some (t, w) → timeout < t) →
      receiveTimedAt timeout wake a buf len = some (timeout, .ok (0, buf)) ∧
      receiveTimedFromAt timeout wake a address buf len = some (timeout, .ok (0, address, buf))) ∧
    (∀ t, wake = some (t, .event true) → t ≤ timeout →
      receiveTimedAt timeout wake a buf len = some (t, receive a buf len) ∧
      receiveTimedFromAt timeout wake a address buf len = some (t, receiveFrom a address buf len)) ∧
    (∀ t, wake = some (t, .signal) → t ≤ timeout →
      receiveTimedAt timeout wake a buf len = some (t, .ok (-7, buf)) ∧
      receiveTimedFromAt timeout wake a address buf len = some (t, .ok (-7, address, buf))) := by
  have e : toI32 timeout = timeout := sockI32_small h
  have hn : ¬ ((timeout : Int) < 0) := by omega
  refine ⟨?_, ?_, ?_, ?_⟩
  · cases wake with
    | none => exact ⟨timeout, _, _, by simp [receiveTimedAt, sysPoll, e, hn]; rfl, by simp [receiveTimedFromAt, sysPoll, e, hn]; rfl, Nat.le_refl _⟩
    | some x =>
      obtain ⟨t, w⟩ := x
      by_cases hw : t ≤ timeout
      · exact ⟨t, _, _, by simp [receiveTimedAt, sysPoll, e, hn, hw]; rfl, by simp [receiveTimedFromAt, sysPoll, e, hn, hw]; rfl, hw⟩
      · exact ⟨timeout, _, _, by simp [receiveTimedAt, sysPoll, e, hn, hw]; rfl, by simp [receiveTimedFromAt, sysPoll, e, hn, hw]; rfl, Nat.le_refl _⟩
  · intro hw
    cases wake with
    | none => simp [receiveTimedAt, receiveTimedFromAt, sysPoll, e, hn, receiveTimed, receiveTimedFrom, poll]
    | some x =>
      obtain ⟨t, w⟩ := x
      have : ¬ t ≤ timeout := by have := hw t w rfl; omega
      simp [receiveTimedAt, receiveTimedFromAt, sysPoll, e, hn, receiveTimed, receiveTimedFrom, poll, this]
  · rintro t rfl hw
    simp [receiveTimedAt, receiveTimedFromAt, sysPoll, e, hn, hw, receiveTimed, receiveTimedFrom, poll, Wake.answer, receive, receiveFrom, sysRecv]
  · rintro t rfl hw
    simp [receiveTimedAt, receiveTimedFromAt, sysPoll, e, hn, hw, receiveTimed, receiveTimedFrom, poll, Wake.answer, ERROR_POLL]

/-- **C107** With the limit 0 the call is over at once. -/
theorem C107_zero (wake : Option (Nat × Wake)) (a : Answers) (buf : Mem) (len : Nat) : ∃ r, receiveTimedAt 0 wake a buf len = some (0, r) := by
  obtain ⟨⟨t, r, _, e, _, h⟩, _⟩ := C107_limit_partial (timeout := 0) (by decide) wake a ⟨0, 0⟩ buf len
  exact ⟨r, by rw [e, Nat.le_zero.mp h]⟩

theorem toI32_high {n : Nat} (h1 : 2 ^ 31 ≤ n) (h2 : n < 2 ^ 32) : toI32 n < 0 := by
  unfold toI32
  rw [Nat.mod_eq_of_lt (by omega), if_neg (by omega)]
  omega

/-- **C107** With the limit "-1" the calls behave like those without limit, as long as no error or hang-up comes without data and no signal. -/
theorem C107_no_limit (wake : Option (Nat × Wake)) (hw : ∀ t w, wake = some (t, w) → w = .event true) (a : Answers) (address : Addr) (buf : Mem) (len : Nat) :
    receiveTimedAt 4294967295 wake a buf len = receiveAt wake a buf len ∧
    receiveTimedFromAt 4294967295 wake a address buf len = receiveFromAt wake a address buf len := by
  have e : toI32 4294967295 < 0 := by decide
  cases wake with
  | none => simp [receiveTimedAt, receiveTimedFromAt, sysPoll, e, receiveAt, receiveFromAt]
  | some x =>
    obtain ⟨t, w⟩ := x
    obtain rfl := hw t w rfl
    simp [receiveTimedAt, receiveTimedFromAt, sysPoll, e, receiveAt, receiveFromAt, Wake.answer, receiveTimed, receiveTimedFrom, poll, receive, receiveFrom, sysRecv]

/-- **C107** A signal is reported as a failure at once, by the calls with any limit that is not over yet, and by those without: as a failure of `poll` or of `recv`. -/
theorem C107_signal (timeout t : Nat) (h : t ≤ timeout) (h2 : timeout < 2 ^ 32) (a : Answers) (address : Addr) (buf : Mem) (len : Nat) :
    receiveTimedAt timeout (some (t, .signal)) a buf len = some (t, .ok (-7, buf)) ∧
    receiveTimedFromAt timeout (some (t, .signal)) a address buf len = some (t, .ok (-7, address, buf)) ∧
    receiveAt (some (t, .signal)) a buf len = some (t, .ok (-6, buf)) ∧
    receiveFromAt (some (t, .signal)) a address buf len = some (t, .ok (-6, address, buf)) := by
  have hl : toI32 timeout < 0 ∨ (t : Int) ≤ toI32 timeout := by
    rcases Nat.lt_or_ge timeout (2 ^ 31) with h1 | h1
    · right; rw [sockI32_small h1]; omega
    · exact Or.inl (toI32_high h1 h2)
  refine ⟨?_, ?_, ?_, ?_⟩
  · simp [receiveTimedAt, sysPoll, hl, Wake.answer, receiveTimed, poll, ERROR_POLL]
  · simp [receiveTimedFromAt, sysPoll, hl, Wake.answer, receiveTimedFrom, poll, ERROR_POLL]
  · simp [receiveAt, receive, sysRecv, ERROR_RECEIVE]
  · simp [receiveFromAt, receiveFrom, sysRecv, ERROR_RECEIVE]

/-- **C107** (counterexample) Every limit of 2^31 milliseconds or more is none at all: if nothing arrives the calls never return. -/
theorem C107_long_limit_never_ends {timeout : Nat} (h1 : 2 ^ 31 ≤ timeout) (h2 : timeout < 2 ^ 32) (a : Answers) (address : Addr) (buf : Mem) (len : Nat) :
    receiveTimedAt timeout none a buf len = none ∧ receiveTimedFromAt timeout none a address buf len = none := by
  simp [receiveTimedAt, receiveTimedFromAt, sysPoll, toI32_high h1 h2]

/-- **C107** (counterexample) An error or hang-up without data is not reported: the call returns 0 as if the time had passed, where the call without limit reports the failure. -/
theorem C107_error_hidden (timeout t : Nat) (h1 : t ≤ timeout) (h2 : timeout < 2 ^ 31) (address : Addr) (buf : Mem) (len : Nat) :
    receiveTimedAt timeout (some (t, .event false)) { recv := none } buf len = some (t, .ok (0, buf)) ∧
    receiveAt (some (t, .event false)) { recv := none } buf len = some (t, .ok (-6, buf)) ∧
    receiveTimedFromAt timeout (some (t, .event false)) { recv := none } address buf len = some (t, .ok (0, address, buf)) ∧
    receiveFromAt (some (t, .event false)) { recv := none } address buf len = some (t, .ok (-6, address, buf)) := by
  have hn : ¬ ((timeout : Int) < 0) := by omega
  refine ⟨?_, ?_, ?_, ?_⟩
  · simp [receiveTimedAt, sysPoll, sockI32_small h2, hn, h1, Wake.answer, receiveTimed, poll]
  · simp [receiveAt, receive, sysRecv, ERROR_RECEIVE]
  · simp [receiveTimedFromAt, sysPoll, sockI32_small h2, hn, h1, Wake.answer, receiveTimedFrom, poll]
  · simp [receiveFromAt, receiveFrom, sysRecv, ERROR_RECEIVE]

example : receiveTimedAt 100 (some (40, .event true)) { recv := some ([1], ⟨7, 8⟩) } [none, none] 2 = some (40, .ok (1, [some 1, none])) := by decide +kernel

end Vita
