import Verif.Model.Plist
import Verif.Model.Str
/-!
# The query functions common to all containers, src/vita/container/common.c:28-75

`vt_array_len` (36-42) is `Vec.length`, `Plist.length` and `Str.length`, `vt_array_has_space` (52-58) is `hasSpace`.  `vt_array_head` (28-34) is the memory of
the container.  `vt_array_has_alloctr` (68-73) asks which allocator the container uses, see `Model/Owner.lean`.
-/

namespace Vita.Query

/-- `vt_array_capacity`, common.c:44-50; `vt_vec_capacity`, vec.c:59-61; `vt_plist_capacity`, plist.c:58-60; `vt_str_capacity`, str.c:129-131. -/
def capacity (a : Arr) : Nat := a.cap

/-- `vt_array_elsize`, common.c:60-66. -/
def elsize (a : Arr) : Nat := a.elsize

/-- `vt_vec_has_space`, vec.c:63-65; `vt_plist_has_space`, plist.c:62-64; `vt_str_has_space`, str.c:133-135. -/
def space (a : Arr) : Nat := hasSpace a

/-- `vt_plist_is_empty`, plist.c:66-68 (the same as `Vec.isEmpty` and `Str.isEmpty`). -/
def plistIsEmpty (a : Arr) : Bool := a.len == 0

end Vita.Query
