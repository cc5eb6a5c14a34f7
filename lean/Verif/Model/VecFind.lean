import Verif.Model.Vec
/-!
# The typed searches of src/vita/container/vec.c
-/

namespace Vita.Vec

/-- `vt_vec_can_find##t`, vec.c:387-402: the parameter, an object of `sizeof(T) = w` bytes, is compared with the elements by `vt_vec_can_find`, that is with
`memcmp`.  The same for the integer types, for `float` (`w = 4`) and `double` (`w = 8`). -/
def canFindT (v : Arr) (w : Nat) (x : BitVec (8 * w)) : Out Int := canFind v (leBytes w x.toNat)

/-- An object of type `real`, core.h:107: `long double`, on x86-64 the 80 bits of the number in the first 10 bytes and 6 bytes of padding.  The padding of a
parameter is what happens to be in its memory; it is an argument here. -/
def realBytes (x : BitVec 80) (pad : BitVec 48) : List Byte := leBytes 10 x.toNat ++ leBytes 6 pad.toNat

/-- `vt_vec_can_findr`, vec.c:401. -/
def canFindR (v : Arr) (x : BitVec 80) (pad : BitVec 48) : Out Int := canFind v (realBytes x pad)

end Vita.Vec
