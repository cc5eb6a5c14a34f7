import Verif.Base.Mem
/-! Lemmas about block accesses. -/

namespace Vita

theorem readN_ok {m : Mem} {off n : Nat} (h : off + n ≤ m.length) :
    readN m off n = .ok ((m.drop off).take n) := by simp [readN, h]

theorem writeN_ok {m : Mem} {off : Nat} {bs : List Byte} (h : off + bs.length ≤ m.length) :
    writeN m off bs = .ok (m.take off ++ bs ++ m.drop (off + bs.length)) := by simp [writeN, h]

theorem readN_ub {m : Mem} {off n : Nat} (h : m.length < off + n) : readN m off n = .ub := by
  simp [readN]; omega

theorem writeN_ub {m : Mem} {off : Nat} {bs : List Byte} (h : m.length < off + bs.length) :
    writeN m off bs = .ub := by
  simp [writeN]; omega

/-- Reading the middle part of a block given as three parts. -/
theorem readN_mid (a b c : Mem) {off n : Nat} (h1 : off = a.length) (h2 : n = b.length) :
    readN (a ++ b ++ c) off n = .ok b := by
  subst h1; subst h2
  rw [readN_ok (by simp)]
  simp [List.append_assoc]

/-- Overwriting the middle part of a block given as three parts. -/
theorem writeN_mid (a b c bs : Mem) {off : Nat} (h1 : off = a.length) (h2 : bs.length = b.length) :
    writeN (a ++ b ++ c) off bs = .ok (a ++ bs ++ c) := by
  subst h1
  rw [writeN_ok (by simp; omega)]
  congr 1
  have : (a ++ b ++ c).take a.length = a := by simp [List.append_assoc]
  rw [this, h2]
  have : (a ++ b ++ c).drop (a.length + b.length) = c := by
    rw [← List.length_append, List.drop_left]
  rw [this]

theorem vtRealloc_ok {E : Env} {m : Mem} {n : Nat} (h0 : 0 < n) (h : E.allocOk n = true) :
    vtRealloc E m n = .ok (m.take n ++ List.replicate (n - m.length) none) := by
  have hn : n ≠ 0 := by omega
  simp [vtRealloc, h0, h, hn]

theorem vtRealloc_fail {E : Env} {m : Mem} {n : Nat} (h0 : 0 < n) (h : E.allocOk n = false) :
    vtRealloc E m n = .exit .alloc := by
  have hn : n ≠ 0 := by omega
  simp [vtRealloc, h0, h, hn]

theorem vtRealloc_length {n : Nat} (m : Mem) :
    (m.take n ++ List.replicate (n - m.length) none).length = n := by
  simp; omega

theorem vtCalloc_ok {E : Env} {n : Nat} (h0 : 0 < n) (h : E.allocOk n = true) :
    vtCalloc E n = .ok (List.replicate n (some 0)) := by
  simp [vtCalloc, h0, h]

theorem vtCalloc_fail {E : Env} {n : Nat} (h0 : 0 < n) (h : E.allocOk n = false) :
    vtCalloc E n = .exit .alloc := by
  simp [vtCalloc, h0, h]

theorem memcpyIn_ok {m : Mem} {dst : Nat} {src : Mem} {n : Nat} (h1 : n ≤ src.length)
    (h2 : dst + n ≤ m.length) :
    memcpyIn m dst src n = .ok (m.take dst ++ src.take n ++ m.drop (dst + n)) := by
  have hl : (src.take n).length = n := by simp; omega
  rw [memcpyIn, readN_ok (by omega)]
  simp only [Out.bind_ok, List.drop_zero]
  rw [writeN_ok (by rw [hl]; exact h2), hl]

end Vita
