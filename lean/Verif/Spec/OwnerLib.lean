import Verif.Model.OwnerLib
import Verif.Props.Owner
import Verif.Props.Plist
/-!
# Specification of what library functions leave behind (C88)

`Contents` is the list of the contents of all containers a program ever created, `none` for those that were destroyed.
-/

namespace Vita
open Out Mal Own

/-- The pointer to container `n`. -/
def ptrOf (n : Nat) : Ptr := BitVec.ofNat 64 (n + 1)

/-- The contents `c` are those of `c₀` with strings `L` added to the list `p`, and nothing else: `p` now holds the pointers it held before (`old`), and then
pointers to the containers `hs`, which are the strings `L`; they are new, made with the allocator of the list (`tr`), and each is listed once; the containers of `c₀` other than `p` are as
before; whatever else was created has been destroyed.  `sl` is the slider of the list.  (`T`: containers about which nothing is said.) -/
structure Lists (tr : Bool) (c₀ : Contents) (p sl : Nat) (old T : List Nat) (c : Contents) (hs : List Nat) (L : List Arr) : Prop where
  len : c₀.length ≤ c.length
  frame : ∀ i, i < c₀.length → i ≠ p → i ∉ T → c[i]? = c₀[i]?
  list : ∃ a cap, c[p]? = some (some (.plist tr, a)) ∧ PlHolds a ⟨(old ++ hs).map ptrOf, cap⟩ ∧ a.slider = sl
  items : hs.map (c[·]?) = L.map (fun t => some (some (.str tr, t)))
  fresh : ∀ h ∈ hs, c₀.length ≤ h ∧ h ≠ p ∧ h ∉ T ∧ h + 1 < 2 ^ 64
  nodup : hs.Nodup
  rest : ∀ i, c₀.length ≤ i → i ≠ p → i ∉ T → i ∉ hs → i < c.length → c[i]? = some none

/-- Nothing but dead containers has been added: whatever was created has been destroyed, and everything else is as before. -/
def Clean (c c' : Contents) : Prop := ∃ n, c' = c ++ List.replicate n none

/-- What the two pop functions leave: the string (with allocator `tr`) without the part, and the part in the destination (with allocator `td`) or in a
new string on the system heap. -/
def Popped (c : Contents) (tr td : Bool) (s : Nat) (sr : Option Nat) (x : Option Arr) (c' : Contents) (r : Option Nat) (o : Option Arr × Arr) : Prop :=
  (o.1 = x ∧ r = sr ∧ c' = c.set s (some (.str tr, o.2))) ∨
  ∃ b, o.1 = some b ∧ match sr with
    | none => r = some c.length ∧ c' = c.set s (some (.str tr, o.2)) ++ [some (.str false, b)]
    | some j => r = some j ∧ c' = (c.set j (some (.str td, b))).set s (some (.str tr, o.2))

end Vita
