import Verif.Model.Plist
/-!
# Removal with any number as the strategy

The strategy is an enumeration, hence any number in C.  `Vec.remove` and `Plist.remove` are for the two strategies that there are.
-/

namespace Vita

/-- The branch taken for a number, vec.c:361 and plist.c:258: 0 (`VT_REMOVE_STRATEGY_STABLE`, core.h:111) is stable, everything else fast. -/
def strategyOf (rs : Nat) : Strategy := if rs = 0 then .stable else .fast

/-- `vt_vec_remove`, vec.c:347-369, with the assertion of line 351 (`VT_REMOVE_STRATEGY_COUNT` is 2, core.h:113). -/
def Vec.removeCode (E : Env) (v : Arr) (at_ rs : Nat) : Out Arr := do
  dassert E (rs < 2)
  Vec.remove E v at_ (strategyOf rs)

/-- `vt_plist_remove`, plist.c:244-266, with the assertion of line 248. -/
def Plist.removeCode (E : Env) (p : Arr) (at_ rs : Nat) : Out Arr := do
  dassert E (rs < 2)
  Plist.remove E p at_ (strategyOf rs)

/-- `vt_plist_remove_element`, plist.c:268-278, with the assertion of line 273. -/
def Plist.removeElementCode (E : Env) (p : Arr) (q : Ptr) (rs : Nat) : Out Arr := do
  dassert E (q != 0)
  dassert E (rs < 2)
  let idx ← Plist.canFind E p q
  if idx ≥ 0 then Plist.removeCode E p idx.toNat rs else .ok p

end Vita
