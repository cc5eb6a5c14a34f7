import Verif.Props.Sockets
/-!
# C77: transfers of 2^31 bytes and more

The kernel does not transfer that much in one call, but the interface of `send` and `recv` allows it.  The functions convert the count to `int32_t`.
-/

namespace Vita
open Out Net

/-- What is reported for `n` bytes: the lowest 32 bits of the number, where a number with bit 31 set counts as a failure. -/
def ReportedHuge (n : Nat) (failure : Int) (r : Int) : Prop :=
  (n % 2 ^ 32 < 2 ^ 31 → r = ((n % 2 ^ 32 : Nat) : Int)) ∧ (2 ^ 31 ≤ n % 2 ^ 32 → r = failure)

theorem sockI32_huge (n : Nat) (failure : Int) : ReportedHuge n failure (if toI32 n < 0 then failure else toI32 n) := by
  unfold ReportedHuge toI32
  constructor
  · intro h
    have h' : n % 4294967296 < 2147483648 := h
    rw [if_pos h', if_neg (by omega)]
  · intro h
    have h' : ¬ n % 4294967296 < 2147483648 := by omega
    rw [if_neg h', if_pos (by omega)]

/-- **C77** (limit of the claim) For every count: the data are taken from, or stored at, the front of the buffer in any case, but the number reported is the
count modulo 2^32, or a failure.  So a transfer of 2^31 bytes or more is never reported as what it was. -/
theorem C77_any_count (a : Answers) (s : Socks) (fd : Nat) {k : Sock} (hk : s fd = some k) {buf : Mem} {len : Nat} (hl : len ≤ buf.length) (address : Addr) :
    (∀ n, a.send = some n → n ≤ len → ∃ r s1 s2, ReportedHuge n (-5) r ∧ send a s fd buf len = .ok (r, s1) ∧ sendTo a s fd address buf len = .ok (r, s2) ∧
      s1 fd = some { k with sent := k.sent ++ [(none, buf.take n)] } ∧ s2 fd = some { k with sent := k.sent ++ [(some address, buf.take n)] }) ∧
    (∀ ds src, a.recv = some (ds, src) → ds.length ≤ len → ∃ r, ReportedHuge ds.length (-6) r ∧
      receive a buf len = .ok (r, ds.map some ++ buf.drop ds.length) ∧
      receiveFrom a address buf len = .ok (r, if r = -6 then address else src, ds.map some ++ buf.drop ds.length)) ∧
    ∀ n r, 2 ^ 31 ≤ n → ∀ f : Int, f < 0 → ReportedHuge n f r → r ≠ (n : Int) := by
  refine ⟨?_, ?_, ?_⟩
  · intro n hs hn
    refine ⟨_, s.modify fd fun k => { k with sent := k.sent ++ [(none, ((buf.drop 0).take len).take n)] },
      s.modify fd fun k => { k with sent := k.sent ++ [(some address, ((buf.drop 0).take len).take n)] }, sockI32_huge n (-5), ?_, ?_, ?_⟩
    · unfold send sysSend
      rw [readN_ok (by omega)]
      simp only [bind_ok, hs, Nat.min_eq_left hn]
      split <;> rfl
    · unfold sendTo sysSend
      rw [readN_ok (by omega)]
      simp only [bind_ok, hs, Nat.min_eq_left hn]
      split <;> rfl
    · simp [Socks.modify, Socks.set, hk, List.take_take, Nat.min_eq_left hn]
  · intro ds src hs hn
    refine ⟨_, sockI32_huge ds.length (-6), ?_⟩
    have ht : ds.take len = ds := List.take_of_length_le hn
    have hw : writeN buf 0 (ds.map some) = .ok (ds.map some ++ buf.drop ds.length) := by
      rw [writeN_ok (by simp; omega)]; simp
    have hm : min ds.length len = ds.length := Nat.min_eq_left hn
    unfold receive receiveFrom sysRecv
    simp only [hs, ht, hw, bind_ok, hm]
    constructor
    · split <;> rfl
    · split
      · rfl
      · rename_i h
        rw [if_neg (by omega)]
  · intro n r hn f hf h e
    subst e
    rcases Nat.lt_or_ge (n % 2 ^ 32) (2 ^ 31) with h1 | h1
    · have := h.1 h1; omega
    · have := h.2 h1; omega

/-- Examples: 3 GiB look like a failure, 5 GiB like 1 GiB. -/
example : ReportedHuge (3 * 2 ^ 30) (-6) (-6) ∧ ReportedHuge (5 * 2 ^ 30) (-6) (2 ^ 30) := by
  unfold ReportedHuge; decide +kernel
example : receive { recv := some ([1, 2], ⟨7, 8⟩) } [none, none, some 9] 3 = .ok (2, [some 1, some 2, some 9]) := by decide +kernel

end Vita
