import Verif.Model.AliasText
import Verif.Model.AliasFormat
import Verif.Model.Ctype
import Verif.Model.Align
import Verif.Model.SpanTyped
import Verif.Model.DateTime
import Verif.Model.Plist
import Verif.Model.RemoveCode
import Verif.Model.FileIo
import Verif.Model.PathFs
import Verif.Model.ArgOpt
import Verif.Model.ArgShared
import Verif.Model.Mallocator
import Verif.Model.Sockets
import Verif.Model.LogCode
/-!
# Less memory: one function at a time

`Scarce a b`: the outcome `a` is the end of the program for want of memory, or it is `b`.  For every function of the model that depends on the environment, the
outcome where more requests are refused is `Scarce` with respect to the outcome where they are granted.
-/

namespace Vita

/-- The same environment, in which requests are refused besides unless `g` grants them. -/
def Env.less (E : Env) (g : Nat → Bool) : Env :=
  { E with allocOk := fun n => E.allocOk n && g n, lim := fun n h => E.lim n (by simp only [Bool.and_eq_true] at h; exact h.1) }

/-- The first outcome is the end of the program for want of memory, or the two are the same. -/
def Scarce (a b : Out α) : Prop := a = .exit .alloc ∨ a = b

namespace Scarce

theorem refl (a : Out α) : Scarce a a := Or.inr rfl

theorem bind {α β : Type} {a a' : Out α} {f f' : α → Out β} (h : Scarce a a') (hf : ∀ r, Scarce (f r) (f' r)) : Scarce (a >>= f) (a' >>= f') := by
  rcases h with h | h
  · left; rw [h]; rfl
  · subst h
    cases a with
    | ok r => exact hf r
    | exit w => exact refl _
    | ub => exact refl _
    | fuel => exact refl _

theorem ite {c : Prop} {d d' : Decidable c} {a a' b b' : Out α} (h1 : Scarce a a') (h2 : Scarce b b') :
    Scarce (@ite _ c d a b) (@ite _ c d' a' b') := by
  by_cases h : c
  · rwa [if_pos h, if_pos h]
  · rwa [if_neg h, if_neg h]

theorem grant {p q : Bool} {d : Decidable ((p && q) = true)} {d' : Decidable (p = true)} {a : Out α} :
    Scarce (@_root_.ite _ ((p && q) = true) d a (.exit .alloc)) (@_root_.ite _ (p = true) d' a (.exit .alloc)) := by
  by_cases h : (p && q) = true
  · have hp : p = true := by rw [Bool.and_eq_true] at h; exact h.1
    rw [if_pos h, if_pos hp]
    exact refl _
  · exact Or.inl (if_neg h)

end Scarce

@[simp] theorem Env.less_debug (E : Env) (g : Nat → Bool) : (E.less g).debug = E.debug := rfl
@[simp] theorem Env.less_iso (E : Env) (g : Nat → Bool) : (E.less g).isoMemcpy = E.isoMemcpy := rfl
@[simp] theorem Env.less_allocOk (E : Env) (g : Nat → Bool) (n : Nat) : (E.less g).allocOk n = (E.allocOk n && g n) := rfl
@[simp] theorem Env.less_dassert (E : Env) (g : Nat → Bool) (c : Bool) : dassert (E.less g) c = dassert E c := rfl
@[simp] theorem Env.less_cassert (E : Env) (g : Nat → Bool) (c : Bool) : cassert (E.less g) c = cassert E c := rfl

/-- One step of a proof. -/
syntax "scarce1" : tactic
macro_rules | `(tactic| scarce1) => `(tactic| split)
macro_rules | `(tactic| scarce1) => `(tactic| apply Scarce.ite)
macro_rules | `(tactic| scarce1) => `(tactic| exact Scarce.grant)
macro_rules | `(tactic| scarce1) => `(tactic| intro _)
macro_rules | `(tactic| scarce1) => `(tactic| with_reducible apply Scarce.ite)
macro_rules | `(tactic| scarce1) => `(tactic| with_reducible apply Scarce.bind)
macro_rules | `(tactic| scarce1) => `(tactic| with_reducible exact Scarce.refl _)
macro_rules | `(tactic| scarce1) => `(tactic| with_reducible apply_assumption)

/-- A proof following the structure of the program. -/
macro "scarce" : tactic => `(tactic| ((try simp only [Env.less_allocOk, Env.less_iso, Env.less_debug, Env.less_dassert, Env.less_cassert]); repeat' scarce1))

theorem vtCalloc_scarce (E : Env) (g : Nat → Bool) (n : Nat) : Scarce (vtCalloc (E.less g) n) (vtCalloc E n) := by
  unfold vtCalloc; scarce
macro_rules | `(tactic| scarce1) => `(tactic| with_reducible apply vtCalloc_scarce)

theorem vtRealloc_scarce (E : Env) (g : Nat → Bool) (m : Mem) (n : Nat) : Scarce (vtRealloc (E.less g) m n) (vtRealloc E m n) := by
  unfold vtRealloc; scarce
macro_rules | `(tactic| scarce1) => `(tactic| with_reducible apply vtRealloc_scarce)

theorem gswap_scarce (E : Env) (g_ : Nat → Bool) (m : Mem) (a b n : Nat) :
    Scarce (gswap (E.less g_) m a b n) (gswap E m a b n) := by
  unfold gswap; scarce
macro_rules | `(tactic| scarce1) => `(tactic| with_reducible apply gswap_scarce)

theorem Vec.create_scarce (E : Env) (g_ : Nat → Bool) (n elsize : Nat) :
    Scarce (Vec.create (E.less g_) n elsize) (Vec.create E n elsize) := by
  unfold Vec.create; scarce
macro_rules | `(tactic| scarce1) => `(tactic| with_reducible apply Vec.create_scarce)

theorem Vec.dup_scarce (E : Env) (g_ : Nat → Bool) (v : Arr) :
    Scarce (Vec.dup (E.less g_) v) (Vec.dup E v) := by
  unfold Vec.dup; scarce
macro_rules | `(tactic| scarce1) => `(tactic| with_reducible apply Vec.dup_scarce)

theorem Vec.shrink_scarce (E : Env) (g_ : Nat → Bool) (v : Arr) :
    Scarce (Vec.shrink (E.less g_) v) (Vec.shrink E v) := by
  unfold Vec.shrink; scarce
macro_rules | `(tactic| scarce1) => `(tactic| with_reducible apply Vec.shrink_scarce)

theorem Vec.reserve_scarce (E : Env) (g_ : Nat → Bool) (v : Arr) (n : Nat) :
    Scarce (Vec.reserve (E.less g_) v n) (Vec.reserve E v n) := by
  unfold Vec.reserve; scarce
macro_rules | `(tactic| scarce1) => `(tactic| with_reducible apply Vec.reserve_scarce)

theorem Vec.resize_scarce (E : Env) (g_ : Nat → Bool) (v : Arr) (n : Nat) :
    Scarce (Vec.resize (E.less g_) v n) (Vec.resize E v n) := by
  unfold Vec.resize; scarce
macro_rules | `(tactic| scarce1) => `(tactic| with_reducible apply Vec.resize_scarce)

theorem Vec.grow_scarce (E : Env) (g_ : Nat → Bool) (v : Arr) :
    Scarce (Vec.grow (E.less g_) v) (Vec.grow E v) := by
  unfold Vec.grow; scarce
macro_rules | `(tactic| scarce1) => `(tactic| with_reducible apply Vec.grow_scarce)

theorem Vec.pushBack_scarce (E : Env) (g_ : Nat → Bool) (v : Arr) (val : Mem) :
    Scarce (Vec.pushBack (E.less g_) v val) (Vec.pushBack E v val) := by
  unfold Vec.pushBack; scarce
macro_rules | `(tactic| scarce1) => `(tactic| with_reducible apply Vec.pushBack_scarce)

theorem Vec.insert_scarce (E : Env) (g_ : Nat → Bool) (v : Arr) (val : Mem) (at_ : Nat) :
    Scarce (Vec.insert (E.less g_) v val at_) (Vec.insert E v val at_) := by
  unfold Vec.insert; scarce
macro_rules | `(tactic| scarce1) => `(tactic| with_reducible apply Vec.insert_scarce)

theorem Vec.pushFront_scarce (E : Env) (g_ : Nat → Bool) (v : Arr) (val : Mem) :
    Scarce (Vec.pushFront (E.less g_) v val) (Vec.pushFront E v val) := by
  unfold Vec.pushFront; scarce
macro_rules | `(tactic| scarce1) => `(tactic| with_reducible apply Vec.pushFront_scarce)

theorem Vec.arrGet_scarce (E : Env) (g_ : Nat → Bool) (v : Arr) (at_ : Nat) :
    Scarce (Vec.arrGet (E.less g_) v at_) (Vec.arrGet E v at_) := by
  unfold Vec.arrGet; scarce
macro_rules | `(tactic| scarce1) => `(tactic| with_reducible apply Vec.arrGet_scarce)

theorem Vec.arrSet_scarce (E : Env) (g_ : Nat → Bool) (v : Arr) (val : Mem) (at_ : Nat) :
    Scarce (Vec.arrSet (E.less g_) v val at_) (Vec.arrSet E v val at_) := by
  unfold Vec.arrSet; scarce
macro_rules | `(tactic| scarce1) => `(tactic| with_reducible apply Vec.arrSet_scarce)

theorem Vec.get_scarce (E : Env) (g_ : Nat → Bool) (v : Arr) (at_ : Nat) :
    Scarce (Vec.get (E.less g_) v at_) (Vec.get E v at_) := by
  unfold Vec.get; scarce
macro_rules | `(tactic| scarce1) => `(tactic| with_reducible apply Vec.get_scarce)

theorem Vec.set_scarce (E : Env) (g_ : Nat → Bool) (v : Arr) (val : Mem) (at_ : Nat) :
    Scarce (Vec.set (E.less g_) v val at_) (Vec.set E v val at_) := by
  unfold Vec.set; scarce
macro_rules | `(tactic| scarce1) => `(tactic| with_reducible apply Vec.set_scarce)

theorem Vec.removeMem_scarce (E : Env) (g_ : Nat → Bool) (v : Arr) (at_ : Nat) (x0 : Strategy) :
    Scarce (Vec.removeMem (E.less g_) v at_ x0) (Vec.removeMem E v at_ x0) := by
  unfold Vec.removeMem; scarce
macro_rules | `(tactic| scarce1) => `(tactic| with_reducible apply Vec.removeMem_scarce)

theorem Vec.remove_scarce (E : Env) (g_ : Nat → Bool) (v : Arr) (at_ : Nat) (rs : Strategy) :
    Scarce (Vec.remove (E.less g_) v at_ rs) (Vec.remove E v at_ rs) := by
  unfold Vec.remove; scarce
macro_rules | `(tactic| scarce1) => `(tactic| with_reducible apply Vec.remove_scarce)

theorem Vec.pushBackT_scarce (E : Env) (g_ : Nat → Bool) (v : Arr) (w : Nat) (x : BitVec (8 * w)) :
    Scarce (Vec.pushBackT (E.less g_) v w x) (Vec.pushBackT E v w x) := by
  unfold Vec.pushBackT; scarce
macro_rules | `(tactic| scarce1) => `(tactic| with_reducible apply Vec.pushBackT_scarce)

theorem Vec.pushFrontT_scarce (E : Env) (g_ : Nat → Bool) (v : Arr) (w : Nat) (x : BitVec (8 * w)) :
    Scarce (Vec.pushFrontT (E.less g_) v w x) (Vec.pushFrontT E v w x) := by
  unfold Vec.pushFrontT; scarce
macro_rules | `(tactic| scarce1) => `(tactic| with_reducible apply Vec.pushFrontT_scarce)

theorem Vec.insertT_scarce (E : Env) (g_ : Nat → Bool) (v : Arr) (w : Nat) (x : BitVec (8 * w)) (at_ : Nat) :
    Scarce (Vec.insertT (E.less g_) v w x at_) (Vec.insertT E v w x at_) := by
  unfold Vec.insertT; scarce
macro_rules | `(tactic| scarce1) => `(tactic| with_reducible apply Vec.insertT_scarce)

theorem Vec.setT_scarce (E : Env) (g_ : Nat → Bool) (v : Arr) (w : Nat) (x : BitVec (8 * w)) (at_ : Nat) :
    Scarce (Vec.setT (E.less g_) v w x at_) (Vec.setT E v w x at_) := by
  unfold Vec.setT; scarce
macro_rules | `(tactic| scarce1) => `(tactic| with_reducible apply Vec.setT_scarce)

theorem Vec.getT_scarce (E : Env) (g_ : Nat → Bool) (v : Arr) (w : Nat) (at_ : Nat) :
    Scarce (Vec.getT (E.less g_) v w at_) (Vec.getT E v w at_) := by
  unfold Vec.getT; scarce
macro_rules | `(tactic| scarce1) => `(tactic| with_reducible apply Vec.getT_scarce)

theorem Plist.create_scarce (E : Env) (g_ : Nat → Bool) (n : Nat) :
    Scarce (Plist.create (E.less g_) n) (Plist.create E n) := by
  unfold Plist.create; scarce
macro_rules | `(tactic| scarce1) => `(tactic| with_reducible apply Plist.create_scarce)

theorem Plist.dup_scarce (E : Env) (g_ : Nat → Bool) (p : Arr) :
    Scarce (Plist.dup (E.less g_) p) (Plist.dup E p) := by
  unfold Plist.dup; scarce
macro_rules | `(tactic| scarce1) => `(tactic| with_reducible apply Plist.dup_scarce)

theorem Plist.reserve_scarce (E : Env) (g_ : Nat → Bool) (p : Arr) (n : Nat) :
    Scarce (Plist.reserve (E.less g_) p n) (Plist.reserve E p n) := by
  unfold Plist.reserve; scarce
macro_rules | `(tactic| scarce1) => `(tactic| with_reducible apply Plist.reserve_scarce)

theorem Plist.shrink_scarce (E : Env) (g_ : Nat → Bool) (p : Arr) :
    Scarce (Plist.shrink (E.less g_) p) (Plist.shrink E p) := by
  unfold Plist.shrink; scarce
macro_rules | `(tactic| scarce1) => `(tactic| with_reducible apply Plist.shrink_scarce)

theorem Plist.resize_scarce (E : Env) (g_ : Nat → Bool) (p : Arr) (n : Nat) :
    Scarce (Plist.resize (E.less g_) p n) (Plist.resize E p n) := by
  unfold Plist.resize; scarce
macro_rules | `(tactic| scarce1) => `(tactic| with_reducible apply Plist.resize_scarce)

theorem Plist.grow_scarce (E : Env) (g_ : Nat → Bool) (p : Arr) :
    Scarce (Plist.grow (E.less g_) p) (Plist.grow E p) := by
  unfold Plist.grow; scarce
macro_rules | `(tactic| scarce1) => `(tactic| with_reducible apply Plist.grow_scarce)

theorem Plist.insert_scarce (E : Env) (g_ : Nat → Bool) (p : Arr) (q : Ptr) (at_ : Nat) :
    Scarce (Plist.insert (E.less g_) p q at_) (Plist.insert E p q at_) := by
  unfold Plist.insert; scarce
macro_rules | `(tactic| scarce1) => `(tactic| with_reducible apply Plist.insert_scarce)

theorem Plist.set_scarce (E : Env) (g_ : Nat → Bool) (p : Arr) (q : Ptr) (at_ : Nat) :
    Scarce (Plist.set (E.less g_) p q at_) (Plist.set E p q at_) := by
  unfold Plist.set; scarce
macro_rules | `(tactic| scarce1) => `(tactic| with_reducible apply Plist.set_scarce)

theorem Plist.get_scarce (E : Env) (g_ : Nat → Bool) (p : Arr) (at_ : Nat) :
    Scarce (Plist.get (E.less g_) p at_) (Plist.get E p at_) := by
  unfold Plist.get; scarce
macro_rules | `(tactic| scarce1) => `(tactic| with_reducible apply Plist.get_scarce)

theorem Plist.pushBack_scarce (E : Env) (g_ : Nat → Bool) (p : Arr) (q : Ptr) :
    Scarce (Plist.pushBack (E.less g_) p q) (Plist.pushBack E p q) := by
  unfold Plist.pushBack; scarce
macro_rules | `(tactic| scarce1) => `(tactic| with_reducible apply Plist.pushBack_scarce)

theorem Plist.pushFront_scarce (E : Env) (g_ : Nat → Bool) (p : Arr) (q : Ptr) :
    Scarce (Plist.pushFront (E.less g_) p q) (Plist.pushFront E p q) := by
  unfold Plist.pushFront; scarce
macro_rules | `(tactic| scarce1) => `(tactic| with_reducible apply Plist.pushFront_scarce)

theorem Plist.remove_scarce (E : Env) (g_ : Nat → Bool) (p : Arr) (at_ : Nat) (rs : Strategy) :
    Scarce (Plist.remove (E.less g_) p at_ rs) (Plist.remove E p at_ rs) := by
  unfold Plist.remove; scarce
macro_rules | `(tactic| scarce1) => `(tactic| with_reducible apply Plist.remove_scarce)

theorem Plist.canFind_scarce (E : Env) (g_ : Nat → Bool) (p : Arr) (q : Ptr) :
    Scarce (Plist.canFind (E.less g_) p q) (Plist.canFind E p q) := by
  unfold Plist.canFind; scarce
macro_rules | `(tactic| scarce1) => `(tactic| with_reducible apply Plist.canFind_scarce)

theorem Plist.removeElement_scarce (E : Env) (g_ : Nat → Bool) (p : Arr) (q : Ptr) (rs : Strategy) :
    Scarce (Plist.removeElement (E.less g_) p q rs) (Plist.removeElement E p q rs) := by
  unfold Plist.removeElement; scarce
macro_rules | `(tactic| scarce1) => `(tactic| with_reducible apply Plist.removeElement_scarce)

theorem Vec.removeCode_scarce (E : Env) (g_ : Nat → Bool) (v : Arr) (at_ rs : Nat) :
    Scarce (Vec.removeCode (E.less g_) v at_ rs) (Vec.removeCode E v at_ rs) := by
  unfold Vec.removeCode; scarce
macro_rules | `(tactic| scarce1) => `(tactic| with_reducible apply Vec.removeCode_scarce)

theorem Plist.removeCode_scarce (E : Env) (g_ : Nat → Bool) (p : Arr) (at_ rs : Nat) :
    Scarce (Plist.removeCode (E.less g_) p at_ rs) (Plist.removeCode E p at_ rs) := by
  unfold Plist.removeCode; scarce
macro_rules | `(tactic| scarce1) => `(tactic| with_reducible apply Plist.removeCode_scarce)

theorem Plist.removeElementCode_scarce (E : Env) (g_ : Nat → Bool) (p : Arr) (q : Ptr) (rs : Nat) :
    Scarce (Plist.removeElementCode (E.less g_) p q rs) (Plist.removeElementCode E p q rs) := by
  unfold Plist.removeElementCode; scarce
macro_rules | `(tactic| scarce1) => `(tactic| with_reducible apply Plist.removeElementCode_scarce)

theorem Str.createLen_scarce (E : Env) (g_ : Nat → Bool) (n : Nat) :
    Scarce (Str.createLen (E.less g_) n) (Str.createLen E n) := by
  unfold Str.createLen; scarce
macro_rules | `(tactic| scarce1) => `(tactic| with_reducible apply Str.createLen_scarce)

theorem Str.createCapacity_scarce (E : Env) (g_ : Nat → Bool) (n : Nat) :
    Scarce (Str.createCapacity (E.less g_) n) (Str.createCapacity E n) := by
  unfold Str.createCapacity; scarce
macro_rules | `(tactic| scarce1) => `(tactic| with_reducible apply Str.createCapacity_scarce)

theorem Str.setN_scarce (E : Env) (g_ : Nat → Bool) (s : Arr) (z : Mem) (n : Nat) :
    Scarce (Str.setN (E.less g_) s z n) (Str.setN E s z n) := by
  unfold Str.setN; scarce
macro_rules | `(tactic| scarce1) => `(tactic| with_reducible apply Str.setN_scarce)

theorem Str.create_scarce (E : Env) (g_ : Nat → Bool) (z : Mem) :
    Scarce (Str.create (E.less g_) z) (Str.create E z) := by
  unfold Str.create; scarce
macro_rules | `(tactic| scarce1) => `(tactic| with_reducible apply Str.create_scarce)

theorem Str.dup_scarce (E : Env) (g_ : Nat → Bool) (s : Arr) :
    Scarce (Str.dup (E.less g_) s) (Str.dup E s) := by
  unfold Str.dup; scarce
macro_rules | `(tactic| scarce1) => `(tactic| with_reducible apply Str.dup_scarce)

theorem Str.takeOwnership_scarce (E : Env) (g_ : Nat → Bool) (z : Mem) :
    Scarce (Str.takeOwnership (E.less g_) z) (Str.takeOwnership E z) := by
  unfold Str.takeOwnership; scarce
macro_rules | `(tactic| scarce1) => `(tactic| with_reducible apply Str.takeOwnership_scarce)

theorem Str.shrink_scarce (E : Env) (g_ : Nat → Bool) (s : Arr) :
    Scarce (Str.shrink (E.less g_) s) (Str.shrink E s) := by
  unfold Str.shrink; scarce
macro_rules | `(tactic| scarce1) => `(tactic| with_reducible apply Str.shrink_scarce)

theorem Str.reserve_scarce (E : Env) (g_ : Nat → Bool) (s : Arr) (n : Nat) :
    Scarce (Str.reserve (E.less g_) s n) (Str.reserve E s n) := by
  unfold Str.reserve; scarce
macro_rules | `(tactic| scarce1) => `(tactic| with_reducible apply Str.reserve_scarce)

theorem Str.resize_scarce (E : Env) (g_ : Nat → Bool) (s : Arr) (n : Nat) :
    Scarce (Str.resize (E.less g_) s n) (Str.resize E s n) := by
  unfold Str.resize; scarce
macro_rules | `(tactic| scarce1) => `(tactic| with_reducible apply Str.resize_scarce)

theorem Str.set_scarce (E : Env) (g_ : Nat → Bool) (s : Arr) (z : Mem) :
    Scarce (Str.set (E.less g_) s z) (Str.set E s z) := by
  unfold Str.set; scarce
macro_rules | `(tactic| scarce1) => `(tactic| with_reducible apply Str.set_scarce)

theorem Str.grow_scarce (E : Env) (g_ : Nat → Bool) (s : Arr) (n : Nat) :
    Scarce (Str.grow (E.less g_) s n) (Str.grow E s n) := by
  unfold Str.grow; scarce
macro_rules | `(tactic| scarce1) => `(tactic| with_reducible apply Str.grow_scarce)

theorem Str.appendN_scarce (E : Env) (g_ : Nat → Bool) (s : Arr) (z : Mem) (n : Nat) :
    Scarce (Str.appendN (E.less g_) s z n) (Str.appendN E s z n) := by
  unfold Str.appendN; scarce
macro_rules | `(tactic| scarce1) => `(tactic| with_reducible apply Str.appendN_scarce)

theorem Str.append_scarce (E : Env) (g_ : Nat → Bool) (s : Arr) (z : Mem) :
    Scarce (Str.append (E.less g_) s z) (Str.append E s z) := by
  unfold Str.append; scarce
macro_rules | `(tactic| scarce1) => `(tactic| with_reducible apply Str.append_scarce)

theorem Str.appendf_scarce (E : Env) (g_ : Nat → Bool) (s : Arr) (out : List UInt8) :
    Scarce (Str.appendf (E.less g_) s out) (Str.appendf E s out) := by
  unfold Str.appendf; scarce
macro_rules | `(tactic| scarce1) => `(tactic| with_reducible apply Str.appendf_scarce)

theorem Str.insertN_scarce (E : Env) (g_ : Nat → Bool) (s : Arr) (z : Mem) (at_ n : Nat) :
    Scarce (Str.insertN (E.less g_) s z at_ n) (Str.insertN E s z at_ n) := by
  unfold Str.insertN; scarce
macro_rules | `(tactic| scarce1) => `(tactic| with_reducible apply Str.insertN_scarce)

theorem Str.insert_scarce (E : Env) (g_ : Nat → Bool) (s : Arr) (z : Mem) (at_ : Nat) :
    Scarce (Str.insert (E.less g_) s z at_) (Str.insert E s z at_) := by
  unfold Str.insert; scarce
macro_rules | `(tactic| scarce1) => `(tactic| with_reducible apply Str.insert_scarce)

theorem Str.vfmtSet_scarce (E : Env) (g_ : Nat → Bool) (s : Arr) (out : List UInt8) :
    Scarce (Str.vfmtSet (E.less g_) s out) (Str.vfmtSet E s out) := by
  unfold Str.vfmtSet; scarce
macro_rules | `(tactic| scarce1) => `(tactic| with_reducible apply Str.vfmtSet_scarce)

theorem Str.insertf_scarce (E : Env) (g_ : Nat → Bool) (s : Arr) (at_ : Nat) (out : List UInt8) :
    Scarce (Str.insertf (E.less g_) s at_ out) (Str.insertf E s at_ out) := by
  unfold Str.insertf; scarce
macro_rules | `(tactic| scarce1) => `(tactic| with_reducible apply Str.insertf_scarce)

theorem Str.appendfStatus_scarce (E : Env) (g_ : Nat → Bool) (s : Arr) (out : Option (List UInt8)) :
    Scarce (Str.appendfStatus (E.less g_) s out) (Str.appendfStatus E s out) := by
  unfold Str.appendfStatus; scarce
macro_rules | `(tactic| scarce1) => `(tactic| with_reducible apply Str.appendfStatus_scarce)

theorem Str.insertfStatus_scarce (E : Env) (g_ : Nat → Bool) (s : Arr) (at_ : Nat) (out : Option (List UInt8)) :
    Scarce (Str.insertfStatus (E.less g_) s at_ out) (Str.insertfStatus E s at_ out) := by
  unfold Str.insertfStatus; scarce
macro_rules | `(tactic| scarce1) => `(tactic| with_reducible apply Str.insertfStatus_scarce)

theorem Str.remove_scarce (E : Env) (g_ : Nat → Bool) (s : Arr) (from_ n : Nat) :
    Scarce (Str.remove (E.less g_) s from_ n) (Str.remove E s from_ n) := by
  unfold Str.remove; scarce
macro_rules | `(tactic| scarce1) => `(tactic| with_reducible apply Str.remove_scarce)

theorem Str.setAt_scarce (E : Env) (g_ : Nat → Bool) (s : Arr) (z : Mem) (at_ : Nat) :
    Scarce (Str.setAt (E.less g_) s z at_) (Str.setAt E s z at_) := by
  unfold Str.setAt; scarce
macro_rules | `(tactic| scarce1) => `(tactic| with_reducible apply Str.setAt_scarce)

theorem Str.setC_scarce (E : Env) (g_ : Nat → Bool) (s : Arr) (c : UInt8) (at_ : Nat) :
    Scarce (Str.setC (E.less g_) s c at_) (Str.setC E s c at_) := by
  unfold Str.setC; scarce
macro_rules | `(tactic| scarce1) => `(tactic| with_reducible apply Str.setC_scarce)

theorem Str.insertBefore_scarce (E : Env) (g_ : Nat → Bool) (s : Arr) (sub z : Mem) :
    Scarce (Str.insertBefore (E.less g_) s sub z) (Str.insertBefore E s sub z) := by
  unfold Str.insertBefore; scarce
macro_rules | `(tactic| scarce1) => `(tactic| with_reducible apply Str.insertBefore_scarce)

theorem Str.insertAfter_scarce (E : Env) (g_ : Nat → Bool) (s : Arr) (sub z : Mem) :
    Scarce (Str.insertAfter (E.less g_) s sub z) (Str.insertAfter E s sub z) := by
  unfold Str.insertAfter; scarce
macro_rules | `(tactic| scarce1) => `(tactic| with_reducible apply Str.insertAfter_scarce)

theorem Str.removeLast_scarce (E : Env) (g_ : Nat → Bool) (fuel : Nat) (s : Arr) (z : Mem) :
    Scarce (Str.removeLast (E.less g_) fuel s z) (Str.removeLast E fuel s z) := by
  unfold Str.removeLast; scarce
macro_rules | `(tactic| scarce1) => `(tactic| with_reducible apply Str.removeLast_scarce)

theorem Str.replaceAt_scarce (E : Env) (g_ : Nat → Bool) (s : Arr) (i subLen rsubLen : Nat) (rsub : Mem) :
    Scarce (Str.replaceAt (E.less g_) s i subLen rsubLen rsub) (Str.replaceAt E s i subLen rsubLen rsub) := by
  unfold Str.replaceAt; scarce
macro_rules | `(tactic| scarce1) => `(tactic| with_reducible apply Str.replaceAt_scarce)

theorem Str.replaceLoop_scarce (E : Env) (g_ : Nat → Bool) (sub rsub : Mem) (n r : Nat) (fuel_ : Nat) (x1 : Arr) (p_ : Nat) :
    Scarce (Str.replaceLoop (E.less g_) sub rsub n r fuel_ x1 p_) (Str.replaceLoop E sub rsub n r fuel_ x1 p_):= by
  induction fuel_ generalizing x1 p_ with
  | zero => unfold Str.replaceLoop; scarce
  | succ k ih => unfold Str.replaceLoop; scarce
macro_rules | `(tactic| scarce1) => `(tactic| with_reducible apply Str.replaceLoop_scarce)

theorem Str.replace_scarce (E : Env) (g_ : Nat → Bool) (fuel : Nat) (s : Arr) (sub rsub : Mem) :
    Scarce (Str.replace (E.less g_) fuel s sub rsub) (Str.replace E fuel s sub rsub) := by
  unfold Str.replace; scarce
macro_rules | `(tactic| scarce1) => `(tactic| with_reducible apply Str.replace_scarce)

theorem Str.replaceFirst_scarce (E : Env) (g_ : Nat → Bool) (s : Arr) (sub rsub : Mem) :
    Scarce (Str.replaceFirst (E.less g_) s sub rsub) (Str.replaceFirst E s sub rsub) := by
  unfold Str.replaceFirst; scarce
macro_rules | `(tactic| scarce1) => `(tactic| with_reducible apply Str.replaceFirst_scarce)

theorem Str.replaceLast_scarce (E : Env) (g_ : Nat → Bool) (fuel : Nat) (s : Arr) (sub rsub : Mem) :
    Scarce (Str.replaceLast (E.less g_) fuel s sub rsub) (Str.replaceLast E fuel s sub rsub) := by
  unfold Str.replaceLast; scarce
macro_rules | `(tactic| scarce1) => `(tactic| with_reducible apply Str.replaceLast_scarce)

theorem Str.splitLoop_scarce (E : Env) (g_ : Nat → Bool) (m sep : Mem) (n : Nat) (fuel_ : Nat) (head_ : Nat) (acc_ : List Arr) :
    Scarce (Str.splitLoop (E.less g_) m sep n fuel_ head_ acc_) (Str.splitLoop E m sep n fuel_ head_ acc_):= by
  induction fuel_ generalizing head_ acc_ with
  | zero => unfold Str.splitLoop; scarce
  | succ k ih => unfold Str.splitLoop; scarce
macro_rules | `(tactic| scarce1) => `(tactic| with_reducible apply Str.splitLoop_scarce)

theorem Str.split_scarce (E : Env) (g_ : Nat → Bool) (fuel : Nat) (s : Arr) (sep : Mem) :
    Scarce (Str.split (E.less g_) fuel s sep) (Str.split E fuel s sep) := by
  unfold Str.split; scarce
macro_rules | `(tactic| scarce1) => `(tactic| with_reducible apply Str.split_scarce)

theorem Str.splitBetween_scarce (E : Env) (g_ : Nat → Bool) (s : Option Arr) (z zl zr : Mem) :
    Scarce (Str.splitBetween (E.less g_) s z zl zr) (Str.splitBetween E s z zl zr) := by
  unfold Str.splitBetween; scarce
macro_rules | `(tactic| scarce1) => `(tactic| with_reducible apply Str.splitBetween_scarce)

theorem Str.joinLoop_scarce (E : Env) (g_ : Nat → Bool) (sep : Mem) (x0 : List Mem) (x1 : Arr) :
    Scarce (Str.joinLoop (E.less g_) sep x0 x1) (Str.joinLoop E sep x0 x1):= by
  induction x0 generalizing x1 with
  | nil => unfold Str.joinLoop; scarce
  | cons a t ih => unfold Str.joinLoop; scarce
macro_rules | `(tactic| scarce1) => `(tactic| with_reducible apply Str.joinLoop_scarce)

theorem Str.join_scarce (E : Env) (g_ : Nat → Bool) (s : Option Arr) (sep : Mem) (ps : List Mem) :
    Scarce (Str.join (E.less g_) s sep ps) (Str.join E s sep ps) := by
  unfold Str.join; scarce
macro_rules | `(tactic| scarce1) => `(tactic| with_reducible apply Str.join_scarce)

theorem Str.joinNLoop_scarce (E : Env) (g_ : Nat → Bool) (sep : Mem) (x0 : List Mem) (x1 : Arr) :
    Scarce (Str.joinNLoop (E.less g_) sep x0 x1) (Str.joinNLoop E sep x0 x1):= by
  induction x0 generalizing x1 with
  | nil => unfold Str.joinNLoop; scarce
  | cons a t ih => cases t <;> unfold Str.joinNLoop <;> scarce
macro_rules | `(tactic| scarce1) => `(tactic| with_reducible apply Str.joinNLoop_scarce)

theorem Str.joinN_scarce (E : Env) (g_ : Nat → Bool) (s : Option Arr) (sep : Mem) (ps : List Mem) :
    Scarce (Str.joinN (E.less g_) s sep ps) (Str.joinN E s sep ps) := by
  unfold Str.joinN; scarce
macro_rules | `(tactic| scarce1) => `(tactic| with_reducible apply Str.joinN_scarce)

theorem Str.popGetFirst_scarce (E : Env) (g_ : Nat → Bool) (sr : Option Arr) (s : Arr) (sep : Mem) :
    Scarce (Str.popGetFirst (E.less g_) sr s sep) (Str.popGetFirst E sr s sep) := by
  unfold Str.popGetFirst; scarce
macro_rules | `(tactic| scarce1) => `(tactic| with_reducible apply Str.popGetFirst_scarce)

theorem Str.popGetLast_scarce (E : Env) (g_ : Nat → Bool) (fuel : Nat) (sr : Option Arr) (s : Arr) (sep : Mem) :
    Scarce (Str.popGetLast (E.less g_) fuel sr s sep) (Str.popGetLast E fuel sr s sep) := by
  unfold Str.popGetLast; scarce
macro_rules | `(tactic| scarce1) => `(tactic| with_reducible apply Str.popGetLast_scarce)

theorem Str.equalsN_scarce (E : Env) (g_ : Nat → Bool) (z1 z2 : Mem) (n : Nat) :
    Scarce (Str.equalsN (E.less g_) z1 z2 n) (Str.equalsN E z1 z2 n) := by
  unfold Str.equalsN; scarce
macro_rules | `(tactic| scarce1) => `(tactic| with_reducible apply Str.equalsN_scarce)

theorem Str.isNumericZ_scarce (E : Env) (g_ : Nat → Bool) (z : Mem) (len : Nat) :
    Scarce (Str.isNumericZ (E.less g_) z len) (Str.isNumericZ E z len) := by
  unfold Str.isNumericZ; scarce
macro_rules | `(tactic| scarce1) => `(tactic| with_reducible apply Str.isNumericZ_scarce)

theorem memcpySelf_scarce (E : Env) (g_ : Nat → Bool) (m : Mem) (dst src n : Nat) :
    Scarce (memcpySelf (E.less g_) m dst src n) (memcpySelf E m dst src n) := by
  unfold memcpySelf; scarce
macro_rules | `(tactic| scarce1) => `(tactic| with_reducible apply memcpySelf_scarce)

theorem Vec.pushBackOwn_scarce (E : Env) (g_ : Nat → Bool) (v : Arr) (off : Nat) :
    Scarce (Vec.pushBackOwn (E.less g_) v off) (Vec.pushBackOwn E v off) := by
  unfold Vec.pushBackOwn; scarce
macro_rules | `(tactic| scarce1) => `(tactic| with_reducible apply Vec.pushBackOwn_scarce)

theorem Vec.insertOwn_scarce (E : Env) (g_ : Nat → Bool) (v : Arr) (off at_ : Nat) :
    Scarce (Vec.insertOwn (E.less g_) v off at_) (Vec.insertOwn E v off at_) := by
  unfold Vec.insertOwn; scarce
macro_rules | `(tactic| scarce1) => `(tactic| with_reducible apply Vec.insertOwn_scarce)

theorem Vec.pushFrontOwn_scarce (E : Env) (g_ : Nat → Bool) (v : Arr) (off : Nat) :
    Scarce (Vec.pushFrontOwn (E.less g_) v off) (Vec.pushFrontOwn E v off) := by
  unfold Vec.pushFrontOwn; scarce
macro_rules | `(tactic| scarce1) => `(tactic| with_reducible apply Vec.pushFrontOwn_scarce)

theorem Vec.setOwn_scarce (E : Env) (g_ : Nat → Bool) (v : Arr) (off at_ : Nat) :
    Scarce (Vec.setOwn (E.less g_) v off at_) (Vec.setOwn E v off at_) := by
  unfold Vec.setOwn; scarce
macro_rules | `(tactic| scarce1) => `(tactic| with_reducible apply Vec.setOwn_scarce)

theorem Str.appendNOwn_scarce (E : Env) (g_ : Nat → Bool) (s : Arr) (off n : Nat) :
    Scarce (Str.appendNOwn (E.less g_) s off n) (Str.appendNOwn E s off n) := by
  unfold Str.appendNOwn; scarce
macro_rules | `(tactic| scarce1) => `(tactic| with_reducible apply Str.appendNOwn_scarce)

theorem Str.appendOwn_scarce (E : Env) (g_ : Nat → Bool) (s : Arr) (off : Nat) :
    Scarce (Str.appendOwn (E.less g_) s off) (Str.appendOwn E s off) := by
  unfold Str.appendOwn; scarce
macro_rules | `(tactic| scarce1) => `(tactic| with_reducible apply Str.appendOwn_scarce)

theorem Str.insertOwn_scarce (E : Env) (g_ : Nat → Bool) (s : Arr) (off at_ : Nat) :
    Scarce (Str.insertOwn (E.less g_) s off at_) (Str.insertOwn E s off at_) := by
  unfold Str.insertOwn; scarce
macro_rules | `(tactic| scarce1) => `(tactic| with_reducible apply Str.insertOwn_scarce)

theorem Str.setNOwn_scarce (E : Env) (g_ : Nat → Bool) (s : Arr) (off n : Nat) :
    Scarce (Str.setNOwn (E.less g_) s off n) (Str.setNOwn E s off n) := by
  unfold Str.setNOwn; scarce
macro_rules | `(tactic| scarce1) => `(tactic| with_reducible apply Str.setNOwn_scarce)

theorem Str.setOwn_scarce (E : Env) (g_ : Nat → Bool) (s : Arr) (off : Nat) :
    Scarce (Str.setOwn (E.less g_) s off) (Str.setOwn E s off) := by
  unfold Str.setOwn; scarce
macro_rules | `(tactic| scarce1) => `(tactic| with_reducible apply Str.setOwn_scarce)

theorem Str.setAtOwn_scarce (E : Env) (g_ : Nat → Bool) (s : Arr) (off at_ : Nat) :
    Scarce (Str.setAtOwn (E.less g_) s off at_) (Str.setAtOwn E s off at_) := by
  unfold Str.setAtOwn; scarce
macro_rules | `(tactic| scarce1) => `(tactic| with_reducible apply Str.setAtOwn_scarce)

theorem Str.appendfOwn_scarce (E : Env) (g_ : Nat → Bool) (s : Arr) (ps : List Str.Piece) :
    Scarce (Str.appendfOwn (E.less g_) s ps) (Str.appendfOwn E s ps) := by
  unfold Str.appendfOwn; scarce
macro_rules | `(tactic| scarce1) => `(tactic| with_reducible apply Str.appendfOwn_scarce)

theorem Str.insertfOwn_scarce (E : Env) (g_ : Nat → Bool) (s : Arr) (at_ : Nat) (ps : List Str.Piece) :
    Scarce (Str.insertfOwn (E.less g_) s at_ ps) (Str.insertfOwn E s at_ ps) := by
  unfold Str.insertfOwn; scarce
macro_rules | `(tactic| scarce1) => `(tactic| with_reducible apply Str.insertfOwn_scarce)

theorem Str.insertBeforeOwn_scarce (E : Env) (g_ : Nat → Bool) (s : Arr) (sub : Mem) (off : Nat) :
    Scarce (Str.insertBeforeOwn (E.less g_) s sub off) (Str.insertBeforeOwn E s sub off) := by
  unfold Str.insertBeforeOwn; scarce
macro_rules | `(tactic| scarce1) => `(tactic| with_reducible apply Str.insertBeforeOwn_scarce)

theorem Str.insertAfterOwn_scarce (E : Env) (g_ : Nat → Bool) (s : Arr) (sub : Mem) (off : Nat) :
    Scarce (Str.insertAfterOwn (E.less g_) s sub off) (Str.insertAfterOwn E s sub off) := by
  unfold Str.insertAfterOwn; scarce
macro_rules | `(tactic| scarce1) => `(tactic| with_reducible apply Str.insertAfterOwn_scarce)

theorem Core.gswap2_scarce (E : Env) (g_ : Nat → Bool) (a b : Mem) (ia ib n : Nat) :
    Scarce (Core.gswap2 (E.less g_) a b ia ib n) (Core.gswap2 E a b ia ib n) := by
  unfold Core.gswap2; scarce
macro_rules | `(tactic| scarce1) => `(tactic| with_reducible apply Core.gswap2_scarce)

theorem Span.from__scarce (E : Env) (g_ : Nat → Bool) (length elsize : Nat) :
    Scarce (Span.from_ (E.less g_) length elsize) (Span.from_ E length elsize) := by
  unfold Span.from_; scarce
macro_rules | `(tactic| scarce1) => `(tactic| with_reducible apply Span.from__scarce)

theorem Span.fromTo_scarce (E : Env) (g_ : Nat → Bool) (m : Mem) (fromIdx toIdx elsize : Nat) :
    Scarce (Span.fromTo (E.less g_) m fromIdx toIdx elsize) (Span.fromTo E m fromIdx toIdx elsize) := by
  unfold Span.fromTo; scarce
macro_rules | `(tactic| scarce1) => `(tactic| with_reducible apply Span.fromTo_scarce)

theorem Span.get_scarce (E : Env) (g_ : Nat → Bool) (m : Mem) (s : Span) (at_ : Nat) :
    Scarce (Span.get (E.less g_) m s at_) (Span.get E m s at_) := by
  unfold Span.get; scarce
macro_rules | `(tactic| scarce1) => `(tactic| with_reducible apply Span.get_scarce)

theorem Span.set_scarce (E : Env) (g_ : Nat → Bool) (m : Mem) (s : Span) (val : Mem) (at_ : Nat) :
    Scarce (Span.set (E.less g_) m s val at_) (Span.set E m s val at_) := by
  unfold Span.set; scarce
macro_rules | `(tactic| scarce1) => `(tactic| with_reducible apply Span.set_scarce)

theorem Mal.hCalloc_scarce (E : Env) (g_ : Nat → Bool) (A : Allocator) (H : Heap) (n : Nat) :
    Scarce (Mal.hCalloc (E.less g_) A H n) (Mal.hCalloc E A H n) := by
  unfold Mal.hCalloc; scarce
macro_rules | `(tactic| scarce1) => `(tactic| with_reducible apply Mal.hCalloc_scarce)

theorem Mal.hRealloc_scarce (E : Env) (g_ : Nat → Bool) (A : Allocator) (H : Heap) (p n : Nat) :
    Scarce (Mal.hRealloc (E.less g_) A H p n) (Mal.hRealloc E A H p n) := by
  unfold Mal.hRealloc; scarce
macro_rules | `(tactic| scarce1) => `(tactic| with_reducible apply Mal.hRealloc_scarce)

theorem Mal.create_scarce (E : Env) (g_ : Nat → Bool) (A : Allocator) (H : Heap) :
    Scarce (Mal.create (E.less g_) A H) (Mal.create E A H) := by
  unfold Mal.create; scarce
macro_rules | `(tactic| scarce1) => `(tactic| with_reducible apply Mal.create_scarce)

theorem Mal.resize_scarce (E : Env) (g_ : Nat → Bool) (A : Allocator) (H : Heap) (m : T) (length : Nat) :
    Scarce (Mal.resize (E.less g_) A H m length) (Mal.resize E A H m length) := by
  unfold Mal.resize; scarce
macro_rules | `(tactic| scarce1) => `(tactic| with_reducible apply Mal.resize_scarce)

theorem Mal.add_scarce (E : Env) (g_ : Nat → Bool) (A : Allocator) (H : Heap) (m : T) (obj : Nat × Nat) :
    Scarce (Mal.add (E.less g_) A H m obj) (Mal.add E A H m obj) := by
  unfold Mal.add; scarce
macro_rules | `(tactic| scarce1) => `(tactic| with_reducible apply Mal.add_scarce)

theorem Mal.alloc_scarce (E : Env) (g_ : Nat → Bool) (A : Allocator) (H : Heap) (m : T) (bytes : Nat) :
    Scarce (Mal.alloc (E.less g_) A H m bytes) (Mal.alloc E A H m bytes) := by
  unfold Mal.alloc; scarce
macro_rules | `(tactic| scarce1) => `(tactic| with_reducible apply Mal.alloc_scarce)

theorem Mal.realloc_scarce (E : Env) (g_ : Nat → Bool) (A : Allocator) (H : Heap) (m : T) (ptr bytes : Nat) :
    Scarce (Mal.realloc (E.less g_) A H m ptr bytes) (Mal.realloc E A H m ptr bytes) := by
  unfold Mal.realloc; scarce
macro_rules | `(tactic| scarce1) => `(tactic| with_reducible apply Mal.realloc_scarce)

theorem Mal.free_scarce (E : Env) (g_ : Nat → Bool) (H : Heap) (m : T) (ptr : Nat) :
    Scarce (Mal.free (E.less g_) H m ptr) (Mal.free E H m ptr) := by
  unfold Mal.free; scarce
macro_rules | `(tactic| scarce1) => `(tactic| with_reducible apply Mal.free_scarce)

theorem DT.invalidMessage_scarce (E : Env) (g_ : Nat → Bool)  :
    Scarce (DT.invalidMessage (E.less g_) ) (DT.invalidMessage E ) := by
  unfold DT.invalidMessage; scarce
macro_rules | `(tactic| scarce1) => `(tactic| with_reducible apply DT.invalidMessage_scarce)

theorem DT.findYearDay_scarce (E : Env) (g_ : Nat → Bool) (zn : Zone) (d : VDT) :
    Scarce (DT.findYearDay (E.less g_) zn d) (DT.findYearDay E zn d) := by
  unfold DT.findYearDay; scarce
macro_rules | `(tactic| scarce1) => `(tactic| with_reducible apply DT.findYearDay_scarce)

theorem DT.findWeekDay_scarce (E : Env) (g_ : Nat → Bool) (zn : Zone) (d : VDT) :
    Scarce (DT.findWeekDay (E.less g_) zn d) (DT.findWeekDay E zn d) := by
  unfold DT.findWeekDay; scarce
macro_rules | `(tactic| scarce1) => `(tactic| with_reducible apply DT.findWeekDay_scarce)

theorem DT.fillIn_scarce (E : Env) (g_ : Nat → Bool) (zn : Zone) (d : VDT) :
    Scarce (DT.fillIn (E.less g_) zn d) (DT.fillIn E zn d) := by
  unfold DT.fillIn; scarce
macro_rules | `(tactic| scarce1) => `(tactic| with_reducible apply DT.fillIn_scarce)

theorem DT.create_scarce (E : Env) (g_ : Nat → Bool) (zn : Zone) (year month mday hour minute second wday yday : Int) :
    Scarce (DT.create (E.less g_) zn year month mday hour minute second wday yday) (DT.create E zn year month mday hour minute second wday yday) := by
  unfold DT.create; scarce
macro_rules | `(tactic| scarce1) => `(tactic| with_reducible apply DT.create_scarce)

theorem DT.toTextFmt_scarce (E : Env) (g_ : Nat → Bool) (d : VDT) (buf : Mem) (len : Nat) (f : List Fmt) :
    Scarce (DT.toTextFmt (E.less g_) d buf len f) (DT.toTextFmt E d buf len f) := by
  unfold DT.toTextFmt; scarce
macro_rules | `(tactic| scarce1) => `(tactic| with_reducible apply DT.toTextFmt_scarce)

theorem DT.toText_scarce (E : Env) (g_ : Nat → Bool) (d : VDT) (buf : Mem) (len : Nat) :
    Scarce (DT.toText (E.less g_) d buf len) (DT.toText E d buf len) := by
  unfold DT.toText; scarce
macro_rules | `(tactic| scarce1) => `(tactic| with_reducible apply DT.toText_scarce)

theorem DT.toTextIso_scarce (E : Env) (g_ : Nat → Bool) (d : VDT) (buf : Mem) (len : Nat) :
    Scarce (DT.toTextIso (E.less g_) d buf len) (DT.toTextIso E d buf len) := by
  unfold DT.toTextIso; scarce
macro_rules | `(tactic| scarce1) => `(tactic| with_reducible apply DT.toTextIso_scarce)

theorem DT.toTextIsoExt_scarce (E : Env) (g_ : Nat → Bool) (d : VDT) (buf : Mem) (len : Nat) :
    Scarce (DT.toTextIsoExt (E.less g_) d buf len) (DT.toTextIsoExt E d buf len) := by
  unfold DT.toTextIsoExt; scarce
macro_rules | `(tactic| scarce1) => `(tactic| with_reducible apply DT.toTextIsoExt_scarce)

theorem DT.toTextPretty_scarce (E : Env) (g_ : Nat → Bool) (d : VDT) (buf : Mem) (len : Nat) :
    Scarce (DT.toTextPretty (E.less g_) d buf len) (DT.toTextPretty E d buf len) := by
  unfold DT.toTextPretty; scarce
macro_rules | `(tactic| scarce1) => `(tactic| with_reducible apply DT.toTextPretty_scarce)

theorem DT.getNowText_scarce (E : Env) (g_ : Nat → Bool) (zn : Zone) (clock : Int) (buf : Mem) (len : Nat) :
    Scarce (DT.getNowText (E.less g_) zn clock buf len) (DT.getNowText E zn clock buf len) := by
  unfold DT.getNowText; scarce
macro_rules | `(tactic| scarce1) => `(tactic| with_reducible apply DT.getNowText_scarce)

theorem DT.getNowPretty_scarce (E : Env) (g_ : Nat → Bool) (zn : Zone) (clock : Int) (buf : Mem) (len : Nat) :
    Scarce (DT.getNowPretty (E.less g_) zn clock buf len) (DT.getNowPretty E zn clock buf len) := by
  unfold DT.getNowPretty; scarce
macro_rules | `(tactic| scarce1) => `(tactic| with_reducible apply DT.getNowPretty_scarce)

theorem ArgOpt.assignCstr_scarce (E : Env) (g_ : Nat → Bool) (old : Option Mem) (value : Mem) :
    Scarce (ArgOpt.assignCstr (E.less g_) old value) (ArgOpt.assignCstr E old value) := by
  unfold ArgOpt.assignCstr; scarce
macro_rules | `(tactic| scarce1) => `(tactic| with_reducible apply ArgOpt.assignCstr_scarce)

theorem ArgOpt.assignValue_scarce (E : Env) (g_ : Nat → Bool) (ty : Ty) (old : Val) (value : Mem) :
    Scarce (ArgOpt.assignValue (E.less g_) ty old value) (ArgOpt.assignValue E ty old value):= by
  unfold ArgOpt.assignValue
  cases ty
  case str =>
    rcases old with _ | _ | _ | _ | (_ | _) | _ <;> scarce
  case cstr => cases old <;> scarce
  all_goals scarce
macro_rules | `(tactic| scarce1) => `(tactic| with_reducible apply ArgOpt.assignValue_scarce)

theorem ArgOpt.assign_scarce (E : Env) (g_ : Nat → Bool) (o : Opt) (value : Mem) :
    Scarce (ArgOpt.assign (E.less g_) o value) (ArgOpt.assign E o value) := by
  unfold ArgOpt.assign; scarce
macro_rules | `(tactic| scarce1) => `(tactic| with_reducible apply ArgOpt.assign_scarce)

theorem ArgOpt.tryOpts_scarce (E : Env) (g_ : Nat → Bool) (sOpt sArg : Arr) (next : Option Mem) (x0 : List Opt) :
    Scarce (ArgOpt.tryOpts (E.less g_) sOpt sArg next x0) (ArgOpt.tryOpts E sOpt sArg next x0):= by
  induction x0 with
  | nil => unfold ArgOpt.tryOpts; scarce
  | cons a t ih => unfold ArgOpt.tryOpts; scarce
macro_rules | `(tactic| scarce1) => `(tactic| with_reducible apply ArgOpt.tryOpts_scarce)

theorem ArgOpt.parseLoop_scarce (E : Env) (g_ : Nat → Bool)  (skip_ : Bool) (x1 : List Mem) (x2 : Arr) (x3 : Arr) (x4 : List Opt) :
    Scarce (ArgOpt.parseLoop (E.less g_) skip_ x1 x2 x3 x4) (ArgOpt.parseLoop E skip_ x1 x2 x3 x4):= by
  induction x1 generalizing skip_ x2 x3 x4 with
  | nil => cases skip_ <;> unfold ArgOpt.parseLoop <;> scarce
  | cons a t ih => cases skip_ <;> unfold ArgOpt.parseLoop <;> scarce
macro_rules | `(tactic| scarce1) => `(tactic| with_reducible apply ArgOpt.parseLoop_scarce)

theorem ArgOpt.parse_scarce (E : Env) (g_ : Nat → Bool) (args : List Mem) (opts : List Opt) :
    Scarce (ArgOpt.parse (E.less g_) args opts) (ArgOpt.parse E args opts) := by
  unfold ArgOpt.parse; scarce
macro_rules | `(tactic| scarce1) => `(tactic| with_reducible apply ArgOpt.parse_scarce)

theorem ArgOpt.assignSh_scarce (E : Env) (g_ : Nat → Bool) (vars : List Val) (o : ShOpt) (value : Mem) :
    Scarce (ArgOpt.assignSh (E.less g_) vars o value) (ArgOpt.assignSh E vars o value) := by
  unfold ArgOpt.assignSh; scarce
macro_rules | `(tactic| scarce1) => `(tactic| with_reducible apply ArgOpt.assignSh_scarce)

theorem ArgOpt.tryOptsSh_scarce (E : Env) (g_ : Nat → Bool) (sOpt sArg : Arr) (next : Option Mem) (vars : List Val) (x0 : List ShOpt) :
    Scarce (ArgOpt.tryOptsSh (E.less g_) sOpt sArg next vars x0) (ArgOpt.tryOptsSh E sOpt sArg next vars x0):= by
  induction x0 with
  | nil => unfold ArgOpt.tryOptsSh; scarce
  | cons a t ih => unfold ArgOpt.tryOptsSh; scarce
macro_rules | `(tactic| scarce1) => `(tactic| with_reducible apply ArgOpt.tryOptsSh_scarce)

theorem ArgOpt.parseLoopSh_scarce (E : Env) (g_ : Nat → Bool) (opts : List ShOpt) (skip_ : Bool) (x1 : List Mem) (x2 : Arr) (x3 : Arr) (x4 : List Val) :
    Scarce (ArgOpt.parseLoopSh (E.less g_) opts skip_ x1 x2 x3 x4) (ArgOpt.parseLoopSh E opts skip_ x1 x2 x3 x4):= by
  induction x1 generalizing skip_ x2 x3 x4 with
  | nil => cases skip_ <;> unfold ArgOpt.parseLoopSh <;> scarce
  | cons a t ih => cases skip_ <;> unfold ArgOpt.parseLoopSh <;> scarce
macro_rules | `(tactic| scarce1) => `(tactic| with_reducible apply ArgOpt.parseLoopSh_scarce)

theorem ArgOpt.parseSh_scarce (E : Env) (g_ : Nat → Bool) (args : List Mem) (opts : List ShOpt) (vars : List Val) :
    Scarce (ArgOpt.parseSh (E.less g_) args opts vars) (ArgOpt.parseSh E args opts vars) := by
  unfold ArgOpt.parseSh; scarce
macro_rules | `(tactic| scarce1) => `(tactic| with_reducible apply ArgOpt.parseSh_scarce)

theorem Path.build_scarce (E : Env) (g_ : Nat → Bool) (s : Option Arr) (ps : List Mem) :
    Scarce (Path.build (E.less g_) s ps) (Path.build E s ps) := by
  unfold Path.build; scarce
macro_rules | `(tactic| scarce1) => `(tactic| with_reducible apply Path.build_scarce)

theorem Path.buildN_scarce (E : Env) (g_ : Nat → Bool) (s : Option Arr) (ps : List Mem) :
    Scarce (Path.buildN (E.less g_) s ps) (Path.buildN E s ps) := by
  unfold Path.buildN; scarce
macro_rules | `(tactic| scarce1) => `(tactic| with_reducible apply Path.buildN_scarce)

theorem Path.basename_scarce (E : Env) (g_ : Nat → Bool) (fuel : Nat) (s : Option Arr) (z : Mem) :
    Scarce (Path.basename (E.less g_) fuel s z) (Path.basename E fuel s z) := by
  unfold Path.basename; scarce
macro_rules | `(tactic| scarce1) => `(tactic| with_reducible apply Path.basename_scarce)

theorem Path.expandTilda_scarce (E : Env) (g_ : Nat → Bool) (home : Option Mem) (z : Mem) :
    Scarce (Path.expandTilda (E.less g_) home z) (Path.expandTilda E home z) := by
  unfold Path.expandTilda; scarce
macro_rules | `(tactic| scarce1) => `(tactic| with_reducible apply Path.expandTilda_scarce)

theorem Path.exeLocation_scarce (E : Env) (g_ : Nat → Bool) (link : Option (List UInt8)) :
    Scarce (Path.exeLocation (E.less g_) link) (Path.exeLocation E link) := by
  unfold Path.exeLocation; scarce
macro_rules | `(tactic| scarce1) => `(tactic| with_reducible apply Path.exeLocation_scarce)

theorem Path.getCwd_scarce (E : Env) (g_ : Nat → Bool) (cwd : Option Mem) :
    Scarce (Path.getCwd (E.less g_) cwd) (Path.getCwd E cwd) := by
  unfold Path.getCwd; scarce
macro_rules | `(tactic| scarce1) => `(tactic| with_reducible apply Path.getCwd_scarce)

theorem Str.replaceLoopOwn_scarce (E : Env) (g_ : Nat → Bool) (off : Nat) (rsub : Mem) (n r : Nat) (fuel_ : Nat) (x1 : Arr) (p_ : Nat) :
    Scarce (Str.replaceLoopOwn (E.less g_) off rsub n r fuel_ x1 p_) (Str.replaceLoopOwn E off rsub n r fuel_ x1 p_):= by
  induction fuel_ generalizing x1 p_ with
  | zero => unfold Str.replaceLoopOwn; scarce
  | succ k ih => unfold Str.replaceLoopOwn; scarce
macro_rules | `(tactic| scarce1) => `(tactic| with_reducible apply Str.replaceLoopOwn_scarce)

theorem Str.replaceOwn_scarce (E : Env) (g_ : Nat → Bool) (fuel : Nat) (s : Arr) (off : Nat) (rsub : Mem) :
    Scarce (Str.replaceOwn (E.less g_) fuel s off rsub) (Str.replaceOwn E fuel s off rsub) := by
  unfold Str.replaceOwn; scarce
macro_rules | `(tactic| scarce1) => `(tactic| with_reducible apply Str.replaceOwn_scarce)

theorem Str.replaceFirstOwn_scarce (E : Env) (g_ : Nat → Bool) (s : Arr) (off : Nat) (rsub : Mem) :
    Scarce (Str.replaceFirstOwn (E.less g_) s off rsub) (Str.replaceFirstOwn E s off rsub) := by
  unfold Str.replaceFirstOwn; scarce
macro_rules | `(tactic| scarce1) => `(tactic| with_reducible apply Str.replaceFirstOwn_scarce)

theorem Str.splitBetweenOwn_scarce (E : Env) (g_ : Nat → Bool) (s : Arr) (off : Nat) (zl zr : Mem) :
    Scarce (Str.splitBetweenOwn (E.less g_) s off zl zr) (Str.splitBetweenOwn E s off zl zr) := by
  unfold Str.splitBetweenOwn; scarce
macro_rules | `(tactic| scarce1) => `(tactic| with_reducible apply Str.splitBetweenOwn_scarce)

theorem Str.popGetFirstSelf_scarce (E : Env) (g_ : Nat → Bool) (s : Arr) (sep : Mem) :
    Scarce (Str.popGetFirstSelf (E.less g_) s sep) (Str.popGetFirstSelf E s sep) := by
  unfold Str.popGetFirstSelf; scarce
macro_rules | `(tactic| scarce1) => `(tactic| with_reducible apply Str.popGetFirstSelf_scarce)

theorem Str.popGetLastSelf_scarce (E : Env) (g_ : Nat → Bool) (fuel : Nat) (s : Arr) (sep : Mem) :
    Scarce (Str.popGetLastSelf (E.less g_) fuel s sep) (Str.popGetLastSelf E fuel s sep) := by
  unfold Str.popGetLastSelf; scarce
macro_rules | `(tactic| scarce1) => `(tactic| with_reducible apply Str.popGetLastSelf_scarce)

theorem Path.basenameOwn_scarce (E : Env) (g_ : Nat → Bool) (fuel : Nat) (s : Arr) (off : Nat) :
    Scarce (Path.basenameOwn (E.less g_) fuel s off) (Path.basenameOwn E fuel s off) := by
  unfold Path.basenameOwn; scarce
macro_rules | `(tactic| scarce1) => `(tactic| with_reducible apply Path.basenameOwn_scarce)

theorem Span.getT_scarce (E : Env) (g_ : Nat → Bool) (m : Mem) (s : Span) (w : Nat) (at_ : Nat) :
    Scarce (Span.getT (E.less g_) m s w at_) (Span.getT E m s w at_) := by
  unfold Span.getT; scarce
macro_rules | `(tactic| scarce1) => `(tactic| with_reducible apply Span.getT_scarce)

theorem Span.setT_scarce (E : Env) (g_ : Nat → Bool) (m : Mem) (s : Span) (w : Nat) (x : BitVec (8 * w)) (at_ : Nat) :
    Scarce (Span.setT (E.less g_) m s w x at_) (Span.setT E m s w x at_) := by
  unfold Span.setT; scarce
macro_rules | `(tactic| scarce1) => `(tactic| with_reducible apply Span.setT_scarce)

theorem Path.listLoop_scarce (E : Env) (g_ : Nat → Bool) (ign : Bool) (x0 : List Fs.Name) (pl_ : List Arr) :
    Scarce (Path.listLoop (E.less g_) ign x0 pl_) (Path.listLoop E ign x0 pl_):= by
  induction x0 generalizing pl_ with
  | nil => unfold Path.listLoop; scarce
  | cons a t ih => unfold Path.listLoop; scarce
macro_rules | `(tactic| scarce1) => `(tactic| with_reducible apply Path.listLoop_scarce)

theorem Path.dirList_scarce (E : Env) (g_ : Nat → Bool) (w : Fs.World) (z : Mem) (ign : Bool) :
    Scarce (Path.dirList (E.less g_) w z ign) (Path.dirList E w z ign) := by
  unfold Path.dirList; scarce
macro_rules | `(tactic| scarce1) => `(tactic| with_reducible apply Path.dirList_scarce)

theorem Path.recurseLoop_scarce (E : Env) (g_ : Nat → Bool) (w : Fs.World) (ign : Bool) (z : Mem) (rec : List Arr → Mem → Out (Option (List Arr))) (x0 : List Fs.Name) (st_ : Arr) (pl_ : List Arr) :
    Scarce (Path.recurseLoop (E.less g_) w ign z rec x0 st_ pl_) (Path.recurseLoop E w ign z rec x0 st_ pl_):= by
  induction x0 generalizing st_ pl_ with
  | nil => unfold Path.recurseLoop; scarce
  | cons a t ih => unfold Path.recurseLoop; scarce
macro_rules | `(tactic| scarce1) => `(tactic| with_reducible apply Path.recurseLoop_scarce)

theorem Path.recurseLoop_scarce' (E : Env) (g : Nat → Bool) (w : Fs.World) (ign : Bool) (z : Mem) {rec rec' : List Arr → Mem → Out (Option (List Arr))}
    (h : ∀ l z, Scarce (rec l z) (rec' l z)) (ns : List Fs.Name) (st : Arr) (pl : List Arr) :
    Scarce (Path.recurseLoop (E.less g) w ign z rec ns st pl) (Path.recurseLoop E w ign z rec' ns st pl) := by
  induction ns generalizing st pl with
  | nil => unfold Path.recurseLoop; scarce
  | cons a t ih => unfold Path.recurseLoop; scarce

theorem Path.dirListRecurse_scarce (E : Env) (g_ : Nat → Bool) (w : Fs.World) (ign : Bool) (fuel_ : Nat) (pl_ : List Arr) (z_ : Mem) :
    Scarce (Path.dirListRecurse (E.less g_) w ign fuel_ pl_ z_) (Path.dirListRecurse E w ign fuel_ pl_ z_):= by
  induction fuel_ generalizing pl_ z_ with
  | zero => unfold Path.dirListRecurse; scarce
  | succ k ih =>
    unfold Path.dirListRecurse
    scarce
    exact Path.recurseLoop_scarce' E _ w ign z_ ih _ _ _
macro_rules | `(tactic| scarce1) => `(tactic| with_reducible apply Path.dirListRecurse_scarce)

theorem Path.mkdirLoop_scarce (E : Env) (g_ : Nat → Bool)  (x0 : List Arr) (sfull_ : Arr) (x2 : Fs.World) :
    Scarce (Path.mkdirLoop (E.less g_) x0 sfull_ x2) (Path.mkdirLoop E x0 sfull_ x2):= by
  induction x0 generalizing sfull_ x2 with
  | nil => unfold Path.mkdirLoop; scarce
  | cons a t ih => unfold Path.mkdirLoop; scarce
macro_rules | `(tactic| scarce1) => `(tactic| with_reducible apply Path.mkdirLoop_scarce)

theorem Path.mkdirParents_scarce (E : Env) (g_ : Nat → Bool) (fuel : Nat) (w : Fs.World) (z : Mem) :
    Scarce (Path.mkdirParents (E.less g_) fuel w z) (Path.mkdirParents E fuel w z) := by
  unfold Path.mkdirParents; scarce
macro_rules | `(tactic| scarce1) => `(tactic| with_reducible apply Path.mkdirParents_scarce)

theorem Path.rmdirRecurse_scarce (E : Env) (g_ : Nat → Bool) (fuel : Nat) (w : Fs.World) (z : Mem) :
    Scarce (Path.rmdirRecurse (E.less g_) fuel w z) (Path.rmdirRecurse E fuel w z) := by
  unfold Path.rmdirRecurse; scarce
macro_rules | `(tactic| scarce1) => `(tactic| with_reducible apply Path.rmdirRecurse_scarce)

theorem FileIo.read_scarce (E : Env) (g_ : Nat → Bool) (w : Fs.World) (z : Mem) :
    Scarce (FileIo.read (E.less g_) w z) (FileIo.read E w z) := by
  unfold FileIo.read; scarce
macro_rules | `(tactic| scarce1) => `(tactic| with_reducible apply FileIo.read_scarce)

theorem FileIo.readToBuffer_scarce (E : Env) (g_ : Nat → Bool) (w : Fs.World) (z : Mem) (buf : Mem) (n : Nat) :
    Scarce (FileIo.readToBuffer (E.less g_) w z buf n) (FileIo.readToBuffer E w z buf n) := by
  unfold FileIo.readToBuffer; scarce
macro_rules | `(tactic| scarce1) => `(tactic| with_reducible apply FileIo.readToBuffer_scarce)

theorem Net.makeAddress_scarce (E : Env) (g_ : Nat → Bool) (inet : List UInt8 → UInt32) (port : Int) (z : Option Mem) :
    Scarce (Net.makeAddress (E.less g_) inet port z) (Net.makeAddress E inet port z) := by
  unfold Net.makeAddress; scarce
macro_rules | `(tactic| scarce1) => `(tactic| with_reducible apply Net.makeAddress_scarce)

theorem Ctype.isNumericZ_scarce (E : Env) (g_ : Nat → Bool) (sg : Bool) (z : Mem) (len : Nat) :
    Scarce (Ctype.isNumericZ (E.less g_) sg z len) (Ctype.isNumericZ E sg z len) := by
  unfold Ctype.isNumericZ; scarce
macro_rules | `(tactic| scarce1) => `(tactic| with_reducible apply Ctype.isNumericZ_scarce)

theorem Align.vecGet_scarce (E : Env) (g_ : Nat → Bool) (base : Nat) (v : Arr) (at_ : Nat) :
    Scarce (Align.vecGet (E.less g_) base v at_) (Align.vecGet E base v at_) := by
  unfold Align.vecGet; scarce
macro_rules | `(tactic| scarce1) => `(tactic| with_reducible apply Align.vecGet_scarce)

theorem Align.spanGet_scarce (E : Env) (g_ : Nat → Bool) (base : Nat) (s : Span) (at_ : Nat) :
    Scarce (Align.spanGet (E.less g_) base s at_) (Align.spanGet E base s at_) := by
  unfold Align.spanGet; scarce
macro_rules | `(tactic| scarce1) => `(tactic| with_reducible apply Align.spanGet_scarce)

theorem Align.vecGetT_scarce (E : Env) (g_ : Nat → Bool) (base : Nat) (v : Arr) (w : Nat) (at_ : Nat) :
    Scarce (Align.vecGetT (E.less g_) base v w at_) (Align.vecGetT E base v w at_) := by
  unfold Align.vecGetT; scarce
macro_rules | `(tactic| scarce1) => `(tactic| with_reducible apply Align.vecGetT_scarce)

theorem Align.spanGetT_scarce (E : Env) (g_ : Nat → Bool) (base : Nat) (m : Mem) (s : Span) (w : Nat) (at_ : Nat) :
    Scarce (Align.spanGetT (E.less g_) base m s w at_) (Align.spanGetT E base m s w at_) := by
  unfold Align.spanGetT; scarce
macro_rules | `(tactic| scarce1) => `(tactic| with_reducible apply Align.spanGetT_scarce)

theorem Log.redirectCode_scarce (E : Env) (g_ : Nat → Bool) (s : Log.St) (n : Nat) (z : Option Mem) :
    Scarce (Log.redirectCode (E.less g_) s n z) (Log.redirectCode E s n z) := by
  unfold Log.redirectCode; scarce
macro_rules | `(tactic| scarce1) => `(tactic| with_reducible apply Log.redirectCode_scarce)

theorem Log.levelStrCode_scarce (E : Env) (g_ : Nat → Bool) (n : Nat) :
    Scarce (Log.levelStrCode (E.less g_) n) (Log.levelStrCode E n) := by
  unfold Log.levelStrCode; scarce
macro_rules | `(tactic| scarce1) => `(tactic| with_reducible apply Log.levelStrCode_scarce)

theorem Log.logCode_scarce (E : Env) (g_ : Nat → Bool) (s : Log.St) (z : Option Mem) (n : Nat) (expr : Bool) (m : Log.Msg) :
    Scarce (Log.logCode (E.less g_) s z n expr m) (Log.logCode E s z n expr m) := by
  unfold Log.logCode; scarce
macro_rules | `(tactic| scarce1) => `(tactic| with_reducible apply Log.logCode_scarce)

end Vita
