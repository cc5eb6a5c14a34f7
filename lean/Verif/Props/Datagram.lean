import Verif.Model.Datagram
import Verif.Props.Sockets
/-!
# Datagrams over time (C109)
-/

namespace Vita
open Out Net

/-- The sockets are open, datagrams are shorter than 2^31 bytes, and the buffer is as large as the caller says. -/
def DOpOk (w : DNet) : DOp → Prop
  | .sendTo fd _ data _ => (w.socks fd).isSome ∧ data.length < 2 ^ 31
  | .recvFrom _ _ buf len _ => len ≤ buf.length

/-- What a receiving call must have done, after the events `pre`: it failed and changed nothing; or there was a call that sent a datagram to this address and was told that all of it was
sent, and the front of that datagram, as much as fits, is in the buffer, the rest of which is as before, its size is the result, and the address is that of the socket it was sent from. -/
def Delivery (addr : Nat → Addr) (pre : List DEv) : DEv → Prop
  | .sent _ _ data r => r = data.length ∨ r = -5
  | .got fd before buf len r a m =>
    r = -6 ∧ a = before ∧ m = buf ∨
    ∃ j data, DEv.sent j (addr fd) data (data.length : Int) ∈ pre ∧ a = addr j ∧ r = (min data.length len : Nat) ∧
      m = (data.take len).map some ++ buf.drop (min data.length len)

/-- The datagrams in the hands of the network are those the programs know to have sent. -/
def DKnown (w : DNet) (pre : List DEv) : Prop :=
  ∀ j k dst bs, w.socks j = some k → (some dst, bs) ∈ k.sent → ∃ data : List UInt8, bs = data.map some ∧ data.length < 2 ^ 31 ∧ DEv.sent j dst data (data.length : Int) ∈ pre

theorem dnet_step {w : DNet} {pre : List DEv} (hk : DKnown w pre) {o : DOp} (ho : DOpOk w o) :
    ∃ e w', w.step o = .ok (e, w') ∧ Delivery w.addr pre e ∧ DKnown w' (pre ++ [e]) ∧ w'.addr = w.addr ∧ ∀ n, (w'.socks n).isSome = (w.socks n).isSome := by
  cases o with
  | sendTo fd dst data taken =>
    obtain ⟨h1, h2⟩ := ho
    obtain ⟨k, hs⟩ := Option.isSome_iff_exists.1 h1
    obtain ⟨s1, s2, _, e2, e3, e4⟩ := C77_send (a := { send := if taken then some data.length else none }) (s := w.socks) (fd := fd) (k := k) (buf := data.map some)
      (len := data.length) (by simp) hs (fun n hn => by cases taken <;> simp at hn; omega) dst
    refine ⟨_, { w with socks := s2 }, by simp only [DNet.step, e2, bind_ok]; rfl, ?_, ?_, rfl, ?_⟩
    · cases taken <;> simp [Delivery, Reported]
    · intro j k' dst' bs hj hb
      replace hj : s2 j = some k' := hj
      by_cases hjf : j = fd
      · subst hjf
        cases taken with
        | false =>
          simp only [Bool.false_eq_true, if_false] at e4
          have : k' = k := by rw [e4.2] at hj; exact (Option.some.inj hj).symm
          subst this
          obtain ⟨d, hd, hl, hm⟩ := hk j k' dst' bs hs hb
          exact ⟨d, hd, hl, by simp [hm]⟩
        | true =>
          simp only [if_true] at e4
          have : k' = { k with sent := k.sent ++ [(some dst, (data.map some).take data.length)] } := by rw [e4.2] at hj; exact (Option.some.inj hj).symm
          subst this
          simp only [List.mem_append, List.mem_singleton, Prod.mk.injEq, Option.some.injEq] at hb
          rcases hb with hb | ⟨rfl, rfl⟩
          · obtain ⟨d, hd, hl, hm⟩ := hk j k dst' bs hs hb
            exact ⟨d, hd, hl, by simp [hm]⟩
          · exact ⟨data, by rw [← List.map_take, List.take_length], h2, by simp [Reported]⟩
      · have := (e3 j hjf).2
        rw [this] at hj
        obtain ⟨d, hd, hl, hm⟩ := hk j k' dst' bs hj hb
        exact ⟨d, hd, hl, by simp [hm]⟩
    · intro n
      by_cases hn : n = fd
      · subst hn
        cases taken with
        | false => simp only [Bool.false_eq_true, if_false] at e4; simp [e4.2, hs]
        | true => simp only [if_true] at e4; simp [e4.2, hs]
      · simp [(e3 n hn).2]
  | recvFrom fd address buf len which =>
    have harr : w.arrives fd which = none ∨ ∃ j data, DEv.sent j (w.addr fd) data (data.length : Int) ∈ pre ∧ data.length < 2 ^ 31 ∧
        w.arrives fd which = some (data, w.addr j) := by
      unfold DNet.arrives
      split
      · exact Or.inl rfl
      · rename_i j m
        split
        · exact Or.inl rfl
        · rename_i k hj
          split
          · rename_i dst bs hm
            split
            · rename_i hd
              subst hd
              obtain ⟨data, rfl, hl, hp⟩ := hk j k _ bs hj (List.mem_of_getElem? hm)
              exact Or.inr ⟨j, data, hp, hl, by simp [List.filterMap_map]⟩
            · exact Or.inl rfl
          · exact Or.inl rfl
    obtain ⟨_, e2⟩ := C77_receive (a := { recv := w.arrives fd which }) (buf := buf) (len := len) ho
      (fun ds src h => by
        rcases harr with h' | ⟨j, data, _, hl, h'⟩
        · rw [h'] at h; cases h
        · rw [h'] at h
          simp only [Option.some.injEq, Prod.mk.injEq] at h
          obtain ⟨rfl, -⟩ := h
          omega) address
    refine ⟨_, w, by simp only [DNet.step, e2, bind_ok]; rfl, ?_, ?_, rfl, fun _ => rfl⟩
    · rcases harr with h' | ⟨j, data, hp, hl, h'⟩
      · rw [h']
        exact Or.inl ⟨rfl, rfl, rfl⟩
      · rw [h']
        exact Or.inr ⟨j, data, hp, rfl, rfl, rfl⟩
    · intro j k dst bs hj hb
      obtain ⟨d, hd, hl, hm⟩ := hk j k dst bs hj hb
      exact ⟨d, hd, hl, by simp [hm]⟩

/-- **C109** Whatever the network loses, repeats or delivers in another order: every receiving call gets the front of one single datagram that was sent to it before, with the address of its
sender, or fails and changes nothing. -/
theorem C109_datagrams {w : DNet} (hw : ∀ j k, w.socks j = some k → k.sent = []) {os : List DOp} (ho : ∀ o ∈ os, DOpOk w o) :
    ∃ es w', w.run os = .ok (es, w') ∧ es.length = os.length ∧ ∀ pre e post, es = pre ++ e :: post → Delivery w.addr pre e := by
  suffices H : ∀ (os : List DOp) (w : DNet) (pre : List DEv), DKnown w pre → (∀ o ∈ os, DOpOk w o) →
      ∃ es w', w.run os = .ok (es, w') ∧ es.length = os.length ∧ ∀ p e q, es = p ++ e :: q → Delivery w.addr (pre ++ p) e by
    obtain ⟨es, w', h1, h2, h3⟩ := H os w [] (fun j k dst bs hj hb => by rw [hw j k hj] at hb; simp at hb) ho
    exact ⟨es, w', h1, h2, fun p e q h => h3 p e q h⟩
  intro os
  induction os with
  | nil => intro w pre _ _; exact ⟨[], w, rfl, rfl, fun p e q h => by simp at h⟩
  | cons o os ih =>
    intro w pre hk ho
    obtain ⟨e, w', e1, e2, e3, e4, e5⟩ := dnet_step hk (ho o (by simp))
    obtain ⟨es, w'', f1, f2, f3⟩ := ih w' (pre ++ [e]) e3 (fun x hx => by
      have := ho x (by simp [hx])
      cases x with
      | sendTo => exact ⟨by rw [e5]; exact this.1, this.2⟩
      | recvFrom => exact this)
    refine ⟨e :: es, w'', by simp [DNet.run, e1, f1], by simp [f2], ?_⟩
    intro p x q h
    cases p with
    | nil =>
      simp only [List.nil_append, List.cons.injEq] at h
      obtain ⟨rfl, -⟩ := h
      simpa using e2
    | cons y p =>
      simp only [List.cons_append, List.cons.injEq] at h
      obtain ⟨rfl, h⟩ := h
      have := f3 p x q h
      rw [e4] at this
      simpa using this

/-- **C109** A datagram that fits into the buffer is received whole: the bytes counted by the result are the datagram. -/
theorem C109_whole {addr : Nat → Addr} {pre : List DEv} {fd : Nat} {before : Addr} {buf : Mem} {len : Nat} {r : Int} {a : Addr} {m : Mem}
    (h : Delivery addr pre (.got fd before buf len r a m)) (hr : 0 ≤ r)
    (hfit : ∀ j data r', DEv.sent j (addr fd) data r' ∈ pre → data.length ≤ len) :
    ∃ j data, DEv.sent j (addr fd) data (data.length : Int) ∈ pre ∧ a = addr j ∧ m.take r.toNat = data.map some := by
  rcases h with ⟨rfl, -⟩ | ⟨j, data, hp, ha, rfl, rfl⟩
  · omega
  · have hl := hfit j data _ hp
    refine ⟨j, data, hp, ha, ?_⟩
    simp only [Int.toNat_natCast, Nat.min_eq_left hl, List.take_of_length_le hl]
    rw [List.take_append_of_le_length (by simp), ← List.map_take, List.take_length]

theorem dnet_send {w : DNet} {fd : Nat} {k : Sock} (hk : w.socks fd = some k) {dst : Addr} {data : List UInt8} (hd : data.length < 2 ^ 31) :
    w.step (.sendTo fd dst data true) = .ok (.sent fd dst data data.length,
      { w with socks := w.socks.set fd (some { k with sent := k.sent ++ [(some dst, data.map some)] }) }) := by
  have hn : ¬ ((data.length : Int) < 0) := by omega
  have e1 : readN (data.map some) 0 data.length = .ok (data.map some) := by
    rw [readN_ok (by simp)]
    simp [← List.map_take]
  simp only [DNet.step, Net.sendTo, sysSend, e1, bind_ok, if_true, Nat.min_self, sockI32_small hd, hn, if_false, Socks.modify, hk, Option.map_some]
  rw [← List.map_take, List.take_length]

theorem dnet_recv {w : DNet} {fd : Nat} {which : Option (Nat × Nat)} {data : List UInt8} {src : Addr} (h : w.arrives fd which = some (data, src)) {a : Addr} {buf : Mem} {len : Nat}
    (h1 : data.length ≤ len) (h2 : len ≤ buf.length) (hd : data.length < 2 ^ 31) :
    w.step (.recvFrom fd a buf len which) = .ok (.got fd a buf len data.length src (data.map some ++ buf.drop data.length), w) := by
  obtain ⟨-, e⟩ := C77_receive (a := { recv := some (data, src) }) (buf := buf) (len := len) h2
    (fun ds s hs => by simp only [Option.some.injEq, Prod.mk.injEq] at hs; obtain ⟨rfl, -⟩ := hs; omega) a
  simp only [DNet.step, h, e, bind_ok, received, receivedAddr, Nat.min_eq_left h1, List.take_of_length_le h1]

theorem dnet_cons {w w' w'' : DNet} {o : DOp} {os : List DOp} {e : DEv} {es : List DEv} (h : w.step o = .ok (e, w')) (h2 : w'.run os = .ok (es, w'')) :
    w.run (o :: os) = .ok (e :: es, w'') := by
  simp only [DNet.run, h, h2, bind_ok]

/-- **C109** The stored address can be used for the answer: a server that sends what it got back to the address it got it from reaches the asker, who gets the datagram back with the
server's address. -/
theorem C109_echo (addr : Nat → Addr) {i j : Nat} (hij : i ≠ j) (data : List UInt8) (hd : data.length < 2 ^ 31) (a0 b0 : Addr) {buf buf' : Mem} (hb : data.length ≤ buf.length)
    (hb' : data.length ≤ buf'.length) :
    ∃ m m' w, (DNet.mk (fun n => if n = i ∨ n = j then some { proto := .udp } else none) addr).run
      [.sendTo j (addr i) data true, .recvFrom i a0 buf buf.length (some (j, 0)), .sendTo i (addr j) data true, .recvFrom j b0 buf' buf'.length (some (i, 0))] = .ok
      ([.sent j (addr i) data data.length, .got i a0 buf buf.length data.length (addr j) m, .sent i (addr j) data data.length,
        .got j b0 buf' buf'.length data.length (addr i) m'], w) ∧ m.take data.length = data.map some ∧ m'.take data.length = data.map some := by
  have hji : j ≠ i := fun h => hij h.symm
  exact ⟨_, _, _,
    dnet_cons (dnet_send (k := { proto := .udp }) (by simp) hd)
      (dnet_cons (dnet_recv (data := data) (src := addr j) (by simp [DNet.arrives, Socks.set, List.filterMap_map]) hb (Nat.le_refl _) hd)
        (dnet_cons (dnet_send (k := { proto := .udp }) (by simp [Socks.set, hij]) hd)
          (dnet_cons (dnet_recv (data := data) (src := addr i) (by simp [DNet.arrives, Socks.set, List.filterMap_map]) hb' (Nat.le_refl _) hd) rfl))),
    by rw [List.take_append_of_le_length (by simp), List.take_of_length_le (by simp)],
    by rw [List.take_append_of_le_length (by simp), List.take_of_length_le (by simp)]⟩

/-- **C109** (limit of the claim: nothing shows that a datagram did not fit.)  A datagram longer than the buffer looks exactly like its front alone. -/
theorem C109_cut_not_shown (src : Addr) (data : List UInt8) (len : Nat) (address : Addr) (buf : Mem) :
    receiveFrom { recv := some (data, src) } address buf len = receiveFrom { recv := some (data.take len, src) } address buf len := by
  have : min (min len data.length) len = min data.length len := by omega
  simp [receiveFrom, sysRecv, List.take_take, List.length_take, this]

example : ∃ w, (DNet.mk (fun n => if n < 2 then some { proto := .udp } else none) (fun n => ⟨UInt16.ofNat n, 1⟩)).run
      [.sendTo 0 ⟨1, 1⟩ [5, 6, 7] true, .recvFrom 1 ⟨9, 9⟩ [none, none, none] 2 (some (0, 0)), .recvFrom 1 ⟨9, 9⟩ [none] 1 (some (0, 1))] =
    .ok ([.sent 0 ⟨1, 1⟩ [5, 6, 7] 3, .got 1 ⟨9, 9⟩ [none, none, none] 2 2 ⟨0, 1⟩ [some 5, some 6, none], .got 1 ⟨9, 9⟩ [none] 1 (-6) ⟨9, 9⟩ [none]], w) := ⟨_, rfl⟩
example : DOpOk ⟨fun _ => some { proto := .udp }, fun _ => ⟨0, 0⟩⟩ (.sendTo 0 ⟨1, 1⟩ [5, 6, 7] true) := ⟨rfl, by decide⟩

end Vita
