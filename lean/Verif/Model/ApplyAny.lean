import Verif.Model.Plist
/-!
# `vt_vec_apply`, `vt_str_apply`, `vt_plist_apply` with a callback that edits the container

`Vec.apply`, `Str.applyS` and `Plist.apply` have callbacks that touch nothing but the element they are given.  Here the callback may do to the container
whatever it wants: it is a function of its own state, of the container and of the index, and gives the two back.
-/

namespace Vita

/-- The loop of `vt_vec_apply`, vec.c:435-438, from number `i`; `k` elements are left in the block.  The end of the loop, `ptr + len * elsize`, is computed
anew before each step (line 436).  A step beyond the end of the block moves `iter` to where no pointer may be.  The buffer stays where it is (`iter` is not
adjusted if it moves); `elsize` is positive. -/
def Vec.applyAnyLoop (f : σ → Arr → Nat → σ × Arr) : (k i : Nat) → σ × Arr → Out (σ × Arr)
  | 0, i, s => if i = s.2.len then .ok s else .ub
  | k + 1, i, s => if i = s.2.len then .ok s else Vec.applyAnyLoop f k (i + 1) (f s.1 s.2 i)

/-- `vt_vec_apply`, vec.c:429-439. -/
def Vec.applyAny (f : σ → Arr → Nat → σ × Arr) (v : Arr) (st : σ) : Out (σ × Arr) := Vec.applyAnyLoop f v.cap 0 (st, v)

/-- The loop of `vt_str_apply`, str.c:1261-1263, for the `k` characters from number `i`.  The address of a character is computed anew before each call; it has
to be in the block, or right behind it. -/
def Str.applyAnyLoop (f : σ → Arr → Nat → σ × Arr) : (k i : Nat) → σ × Arr → Out (σ × Arr)
  | 0, _, s => .ok s
  | k + 1, i, s => if i ≤ s.2.mem.length then Str.applyAnyLoop f k (i + 1) (f s.1 s.2 i) else .ub

/-- `vt_str_apply`, str.c:1254-1264: the length is read once (line 1260). -/
def Str.applyAny (f : σ → Arr → Nat → σ × Arr) (v : Arr) (st : σ) : Out (σ × Arr) := Str.applyAnyLoop f v.len 0 (st, v)

/-- The loop of `vt_plist_apply`, plist.c:346-348.  The callback is given the pointer that is there when its turn comes. -/
def Plist.applyAnyLoop (f : σ → Arr → Ptr → Nat → σ × Arr) : (k i : Nat) → σ × Arr → Out (σ × Arr)
  | 0, _, s => .ok s
  | k + 1, i, s => do
    let q ← loadPtr s.2.mem i
    Plist.applyAnyLoop f k (i + 1) (f s.1 s.2 q i)

/-- `vt_plist_apply`, plist.c:338-349: the length is read once (line 345). -/
def Plist.applyAny (f : σ → Arr → Ptr → Nat → σ × Arr) (p : Arr) (st : σ) : Out (σ × Arr) := Plist.applyAnyLoop f p.len 0 (st, p)

end Vita
