import Verif.Base.Mem
import Verif.Spec.Seq
/-! Lemmas about blocks seen as sequences of equally sized elements. -/

namespace Vita

/-- The first `n` elements of `es` bytes each in a block. -/
def chunks (es : Nat) : Nat → List β → List (List β)
  | 0, _ => []
  | n + 1, m => m.take es :: chunks es n (m.drop es)

@[simp] theorem chunks_length (es n : Nat) (m : List β) : (chunks es n m).length = n := by
  induction n generalizing m with
  | zero => rfl
  | succ n ih => simp [chunks, ih]

theorem chunks_getElem? (es n : Nat) (m : List β) (i : Nat) :
    (chunks es n m)[i]? = if i < n then some ((m.drop (i * es)).take es) else none := by
  induction n generalizing m i with
  | zero => simp [chunks]
  | succ n ih =>
    cases i with
    | zero => simp [chunks]
    | succ i => simp [chunks, ih, Nat.succ_mul, Nat.add_comm]

theorem chunks_all (es n : Nat) (m : List β) (h : n * es ≤ m.length) :
    ∀ x ∈ chunks es n m, x.length = es := by
  induction n generalizing m with
  | zero => simp [chunks]
  | succ n ih =>
    intro x hx
    rw [Nat.succ_mul] at h
    simp only [chunks, List.mem_cons] at hx
    rcases hx with rfl | hx
    · simp; omega
    · exact ih (m.drop es) (by simp; omega) x hx

theorem chunks_flatten (es n : Nat) (m : List β) :
    (chunks es n m).flatten = m.take (n * es) := by
  induction n generalizing m with
  | zero => simp [chunks]
  | succ n ih =>
    simp only [chunks, List.flatten_cons, ih]
    rw [Nat.succ_mul, Nat.add_comm, List.take_add]

theorem chunks_of_flatten (es : Nat) (l : List (List β)) (rest : List β) (h : ∀ x ∈ l, x.length = es) :
    chunks es l.length (l.flatten ++ rest) = l := by
  induction l with
  | nil => rfl
  | cons a t ih =>
    have ha : a.length = es := h a (by simp)
    simp only [List.length_cons, chunks, List.flatten_cons, List.append_assoc]
    rw [List.take_append_of_le_length (by omega), List.take_of_length_le (by omega)]
    rw [List.drop_append_of_le_length (by omega), List.drop_of_length_le (by omega : a.length ≤ es)]
    simp only [List.nil_append]
    rw [ih (fun x hx => h x (by simp [hx]))]

theorem flatten_length (es : Nat) (l : List (List β)) (h : ∀ x ∈ l, x.length = es) :
    l.flatten.length = l.length * es := by
  induction l with
  | nil => simp
  | cons a t ih =>
    rw [List.flatten_cons, List.length_append, ih (fun x hx => h x (by simp [hx])), h a (by simp),
      List.length_cons, Nat.succ_mul, Nat.add_comm]

theorem flatten_take (es : Nat) (l : List (List β)) (h : ∀ x ∈ l, x.length = es) (i : Nat) :
    l.flatten.take (i * es) = (l.take i).flatten := by
  induction l generalizing i with
  | nil => simp
  | cons a t ih =>
    cases i with
    | zero => simp
    | succ i =>
      have ha : a.length = es := h a (by simp)
      rw [Nat.succ_mul, Nat.add_comm, List.flatten_cons, List.take_succ_cons, List.flatten_cons,
        ← ih (fun x hx => h x (by simp [hx]))]
      subst ha
      rw [List.take_length_add_append]

theorem flatten_drop (es : Nat) (l : List (List β)) (h : ∀ x ∈ l, x.length = es) (i : Nat) :
    l.flatten.drop (i * es) = (l.drop i).flatten := by
  induction l generalizing i with
  | nil => simp
  | cons a t ih =>
    cases i with
    | zero => simp
    | succ i =>
      have ha : a.length = es := h a (by simp)
      rw [Nat.succ_mul, Nat.add_comm, List.flatten_cons, List.drop_succ_cons,
        ← ih (fun x hx => h x (by simp [hx]))]
      subst ha
      rw [List.drop_length_add_append]

/-- A block that starts with the elements `l`: the bytes of element `i`. -/
theorem drop_take_chunk (es : Nat) (l : List (List β)) (rest : List β) (h : ∀ x ∈ l, x.length = es)
    (i : Nat) (hi : i < l.length) :
    ((l.flatten ++ rest).drop (i * es)).take es = l[i] := by
  have := chunks_getElem? es l.length (l.flatten ++ rest) i
  rw [chunks_of_flatten es l rest h, if_pos hi, List.getElem?_eq_getElem hi] at this
  exact (Option.some.inj this).symm

end Vita
