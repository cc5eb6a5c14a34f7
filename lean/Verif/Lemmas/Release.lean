import Verif.Model.AliasText
import Verif.Model.AliasFormat
import Verif.Model.Ctype
import Verif.Model.Align
import Verif.Model.SpanTyped
import Verif.Model.DateTime
import Verif.Model.Plist
import Verif.Model.RemoveCode
import Verif.Model.FileIo
import Verif.Model.PathFs
import Verif.Model.ArgOpt
import Verif.Model.ArgShared
import Verif.Model.Mallocator
import Verif.Model.Sockets
/-!
# Debug and release builds: one function at a time

`Agree a b`: the outcome `a` is a failed debug assertion, or it is `b`.  For every function of the model that contains a debug
assertion or calls one that does, the outcome in any environment agrees with that in a release build with the same memory.
-/

namespace Vita

/-- The same environment, in a release build. -/
def Env.release (E : Env) : Env := { E with debug := false }

/-- The first outcome is a failed debug check, or the two are the same. -/
def Agree (a b : Out α) : Prop := a = .exit .dbgAssert ∨ a = .exit .cAssert ∨ a = b

namespace Agree

theorem refl (a : Out α) : Agree a a := Or.inr (Or.inr rfl)

theorem bind {α β : Type} {a a' : Out α} {f f' : α → Out β} (h : Agree a a') (hf : ∀ r, Agree (f r) (f' r)) : Agree (a >>= f) (a' >>= f') := by
  rcases h with h | h | h
  · left; rw [h]; rfl
  · right; left; rw [h]; rfl
  · subst h
    cases a with
    | ok r => exact hf r
    | exit w => exact refl _
    | ub => exact refl _
    | fuel => exact refl _

theorem ite {c : Prop} {d d' : Decidable c} {a a' b b' : Out α} (h1 : Agree a a') (h2 : Agree b b') :
    Agree (@ite _ c d a b) (@ite _ c d' a' b') := by
  by_cases h : c
  · rwa [if_pos h, if_pos h]
  · rwa [if_neg h, if_neg h]

theorem dassert (E : Env) (c : Bool) : Agree (dassert E c) (dassert E.release c) := by
  unfold Vita.dassert Env.release
  cases hd : E.debug <;> cases c <;> simp [Agree]

theorem cassert (E : Env) (c : Bool) : Agree (cassert E c) (cassert E.release c) := by
  unfold Vita.cassert Env.release
  cases hd : E.debug <;> cases c <;> simp [Agree]

end Agree

@[simp] theorem Env.release_allocOk (E : Env) (n : Nat) : E.release.allocOk n = E.allocOk n := rfl
@[simp] theorem Env.release_iso (E : Env) : E.release.isoMemcpy = E.isoMemcpy := rfl

/-- One step of a proof of agreement. -/
syntax "agree1" : tactic
macro_rules | `(tactic| agree1) => `(tactic| split)
macro_rules | `(tactic| agree1) => `(tactic| apply Agree.ite)
macro_rules | `(tactic| agree1) => `(tactic| intro _)
macro_rules | `(tactic| agree1) => `(tactic| with_reducible apply Agree.ite)
macro_rules | `(tactic| agree1) => `(tactic| with_reducible apply Agree.bind)
macro_rules | `(tactic| agree1) => `(tactic| with_reducible apply Agree.dassert)
macro_rules | `(tactic| agree1) => `(tactic| with_reducible apply Agree.cassert)
macro_rules | `(tactic| agree1) => `(tactic| with_reducible exact Agree.refl _)
macro_rules | `(tactic| agree1) => `(tactic| with_reducible apply_assumption)

/-- A proof of agreement, following the structure of the program. -/
macro "agree" : tactic => `(tactic| ((try simp only [Env.release_allocOk, Env.release_iso]); repeat' agree1))

theorem vtCalloc_agree (E : Env) (n : Nat) : Agree (vtCalloc E n) (vtCalloc E.release n) := by
  unfold vtCalloc; agree
macro_rules | `(tactic| agree1) => `(tactic| with_reducible apply vtCalloc_agree)

theorem vtRealloc_agree (E : Env) (m : Mem) (n : Nat) : Agree (vtRealloc E m n) (vtRealloc E.release m n) := by
  unfold vtRealloc; agree
macro_rules | `(tactic| agree1) => `(tactic| with_reducible apply vtRealloc_agree)

theorem gswap_agree (E : Env) (m : Mem) (a b n : Nat) :
    Agree (gswap E m a b n) (gswap E.release m a b n) := by
  unfold gswap; agree
macro_rules | `(tactic| agree1) => `(tactic| with_reducible apply gswap_agree)

theorem Vec.create_agree (E : Env) (n elsize : Nat) :
    Agree (Vec.create E n elsize) (Vec.create E.release n elsize) := by
  unfold Vec.create; agree
macro_rules | `(tactic| agree1) => `(tactic| with_reducible apply Vec.create_agree)

theorem Vec.dup_agree (E : Env) (v : Arr) :
    Agree (Vec.dup E v) (Vec.dup E.release v) := by
  unfold Vec.dup; agree
macro_rules | `(tactic| agree1) => `(tactic| with_reducible apply Vec.dup_agree)

theorem Vec.shrink_agree (E : Env) (v : Arr) :
    Agree (Vec.shrink E v) (Vec.shrink E.release v) := by
  unfold Vec.shrink; agree
macro_rules | `(tactic| agree1) => `(tactic| with_reducible apply Vec.shrink_agree)

theorem Vec.reserve_agree (E : Env) (v : Arr) (n : Nat) :
    Agree (Vec.reserve E v n) (Vec.reserve E.release v n) := by
  unfold Vec.reserve; agree
macro_rules | `(tactic| agree1) => `(tactic| with_reducible apply Vec.reserve_agree)

theorem Vec.resize_agree (E : Env) (v : Arr) (n : Nat) :
    Agree (Vec.resize E v n) (Vec.resize E.release v n) := by
  unfold Vec.resize; agree
macro_rules | `(tactic| agree1) => `(tactic| with_reducible apply Vec.resize_agree)

theorem Vec.grow_agree (E : Env) (v : Arr) :
    Agree (Vec.grow E v) (Vec.grow E.release v) := by
  unfold Vec.grow; agree
macro_rules | `(tactic| agree1) => `(tactic| with_reducible apply Vec.grow_agree)

theorem Vec.pushBack_agree (E : Env) (v : Arr) (val : Mem) :
    Agree (Vec.pushBack E v val) (Vec.pushBack E.release v val) := by
  unfold Vec.pushBack; agree
macro_rules | `(tactic| agree1) => `(tactic| with_reducible apply Vec.pushBack_agree)

theorem Vec.insert_agree (E : Env) (v : Arr) (val : Mem) (at_ : Nat) :
    Agree (Vec.insert E v val at_) (Vec.insert E.release v val at_) := by
  unfold Vec.insert; agree
macro_rules | `(tactic| agree1) => `(tactic| with_reducible apply Vec.insert_agree)

theorem Vec.pushFront_agree (E : Env) (v : Arr) (val : Mem) :
    Agree (Vec.pushFront E v val) (Vec.pushFront E.release v val) := by
  unfold Vec.pushFront; agree
macro_rules | `(tactic| agree1) => `(tactic| with_reducible apply Vec.pushFront_agree)

theorem Vec.arrGet_agree (E : Env) (v : Arr) (at_ : Nat) :
    Agree (Vec.arrGet E v at_) (Vec.arrGet E.release v at_) := by
  unfold Vec.arrGet; agree
macro_rules | `(tactic| agree1) => `(tactic| with_reducible apply Vec.arrGet_agree)

theorem Vec.arrSet_agree (E : Env) (v : Arr) (val : Mem) (at_ : Nat) :
    Agree (Vec.arrSet E v val at_) (Vec.arrSet E.release v val at_) := by
  unfold Vec.arrSet; agree
macro_rules | `(tactic| agree1) => `(tactic| with_reducible apply Vec.arrSet_agree)

theorem Vec.get_agree (E : Env) (v : Arr) (at_ : Nat) :
    Agree (Vec.get E v at_) (Vec.get E.release v at_) := by
  unfold Vec.get; agree
macro_rules | `(tactic| agree1) => `(tactic| with_reducible apply Vec.get_agree)

theorem Vec.set_agree (E : Env) (v : Arr) (val : Mem) (at_ : Nat) :
    Agree (Vec.set E v val at_) (Vec.set E.release v val at_) := by
  unfold Vec.set; agree
macro_rules | `(tactic| agree1) => `(tactic| with_reducible apply Vec.set_agree)

theorem Vec.removeMem_agree (E : Env) (v : Arr) (at_ : Nat) (x0 : Strategy) :
    Agree (Vec.removeMem E v at_ x0) (Vec.removeMem E.release v at_ x0) := by
  unfold Vec.removeMem; agree
macro_rules | `(tactic| agree1) => `(tactic| with_reducible apply Vec.removeMem_agree)

theorem Vec.remove_agree (E : Env) (v : Arr) (at_ : Nat) (rs : Strategy) :
    Agree (Vec.remove E v at_ rs) (Vec.remove E.release v at_ rs) := by
  unfold Vec.remove; agree
macro_rules | `(tactic| agree1) => `(tactic| with_reducible apply Vec.remove_agree)

theorem Vec.pushBackT_agree (E : Env) (v : Arr) (w : Nat) (x : BitVec (8 * w)) :
    Agree (Vec.pushBackT E v w x) (Vec.pushBackT E.release v w x) := by
  unfold Vec.pushBackT; agree
macro_rules | `(tactic| agree1) => `(tactic| with_reducible apply Vec.pushBackT_agree)

theorem Vec.pushFrontT_agree (E : Env) (v : Arr) (w : Nat) (x : BitVec (8 * w)) :
    Agree (Vec.pushFrontT E v w x) (Vec.pushFrontT E.release v w x) := by
  unfold Vec.pushFrontT; agree
macro_rules | `(tactic| agree1) => `(tactic| with_reducible apply Vec.pushFrontT_agree)

theorem Vec.insertT_agree (E : Env) (v : Arr) (w : Nat) (x : BitVec (8 * w)) (at_ : Nat) :
    Agree (Vec.insertT E v w x at_) (Vec.insertT E.release v w x at_) := by
  unfold Vec.insertT; agree
macro_rules | `(tactic| agree1) => `(tactic| with_reducible apply Vec.insertT_agree)

theorem Vec.setT_agree (E : Env) (v : Arr) (w : Nat) (x : BitVec (8 * w)) (at_ : Nat) :
    Agree (Vec.setT E v w x at_) (Vec.setT E.release v w x at_) := by
  unfold Vec.setT; agree
macro_rules | `(tactic| agree1) => `(tactic| with_reducible apply Vec.setT_agree)

theorem Vec.getT_agree (E : Env) (v : Arr) (w : Nat) (at_ : Nat) :
    Agree (Vec.getT E v w at_) (Vec.getT E.release v w at_) := by
  unfold Vec.getT; agree
macro_rules | `(tactic| agree1) => `(tactic| with_reducible apply Vec.getT_agree)

theorem Plist.create_agree (E : Env) (n : Nat) :
    Agree (Plist.create E n) (Plist.create E.release n) := by
  unfold Plist.create; agree
macro_rules | `(tactic| agree1) => `(tactic| with_reducible apply Plist.create_agree)

theorem Plist.dup_agree (E : Env) (p : Arr) :
    Agree (Plist.dup E p) (Plist.dup E.release p) := by
  unfold Plist.dup; agree
macro_rules | `(tactic| agree1) => `(tactic| with_reducible apply Plist.dup_agree)

theorem Plist.reserve_agree (E : Env) (p : Arr) (n : Nat) :
    Agree (Plist.reserve E p n) (Plist.reserve E.release p n) := by
  unfold Plist.reserve; agree
macro_rules | `(tactic| agree1) => `(tactic| with_reducible apply Plist.reserve_agree)

theorem Plist.shrink_agree (E : Env) (p : Arr) :
    Agree (Plist.shrink E p) (Plist.shrink E.release p) := by
  unfold Plist.shrink; agree
macro_rules | `(tactic| agree1) => `(tactic| with_reducible apply Plist.shrink_agree)

theorem Plist.resize_agree (E : Env) (p : Arr) (n : Nat) :
    Agree (Plist.resize E p n) (Plist.resize E.release p n) := by
  unfold Plist.resize; agree
macro_rules | `(tactic| agree1) => `(tactic| with_reducible apply Plist.resize_agree)

theorem Plist.grow_agree (E : Env) (p : Arr) :
    Agree (Plist.grow E p) (Plist.grow E.release p) := by
  unfold Plist.grow; agree
macro_rules | `(tactic| agree1) => `(tactic| with_reducible apply Plist.grow_agree)

theorem Plist.insert_agree (E : Env) (p : Arr) (q : Ptr) (at_ : Nat) :
    Agree (Plist.insert E p q at_) (Plist.insert E.release p q at_) := by
  unfold Plist.insert; agree
macro_rules | `(tactic| agree1) => `(tactic| with_reducible apply Plist.insert_agree)

theorem Plist.set_agree (E : Env) (p : Arr) (q : Ptr) (at_ : Nat) :
    Agree (Plist.set E p q at_) (Plist.set E.release p q at_) := by
  unfold Plist.set; agree
macro_rules | `(tactic| agree1) => `(tactic| with_reducible apply Plist.set_agree)

theorem Plist.get_agree (E : Env) (p : Arr) (at_ : Nat) :
    Agree (Plist.get E p at_) (Plist.get E.release p at_) := by
  unfold Plist.get; agree
macro_rules | `(tactic| agree1) => `(tactic| with_reducible apply Plist.get_agree)

theorem Plist.pushBack_agree (E : Env) (p : Arr) (q : Ptr) :
    Agree (Plist.pushBack E p q) (Plist.pushBack E.release p q) := by
  unfold Plist.pushBack; agree
macro_rules | `(tactic| agree1) => `(tactic| with_reducible apply Plist.pushBack_agree)

theorem Plist.pushFront_agree (E : Env) (p : Arr) (q : Ptr) :
    Agree (Plist.pushFront E p q) (Plist.pushFront E.release p q) := by
  unfold Plist.pushFront; agree
macro_rules | `(tactic| agree1) => `(tactic| with_reducible apply Plist.pushFront_agree)

theorem Plist.remove_agree (E : Env) (p : Arr) (at_ : Nat) (rs : Strategy) :
    Agree (Plist.remove E p at_ rs) (Plist.remove E.release p at_ rs) := by
  unfold Plist.remove; agree
macro_rules | `(tactic| agree1) => `(tactic| with_reducible apply Plist.remove_agree)

theorem Plist.canFind_agree (E : Env) (p : Arr) (q : Ptr) :
    Agree (Plist.canFind E p q) (Plist.canFind E.release p q) := by
  unfold Plist.canFind; agree
macro_rules | `(tactic| agree1) => `(tactic| with_reducible apply Plist.canFind_agree)

theorem Plist.removeElement_agree (E : Env) (p : Arr) (q : Ptr) (rs : Strategy) :
    Agree (Plist.removeElement E p q rs) (Plist.removeElement E.release p q rs) := by
  unfold Plist.removeElement; agree
macro_rules | `(tactic| agree1) => `(tactic| with_reducible apply Plist.removeElement_agree)

theorem Vec.removeCode_agree (E : Env) (v : Arr) (at_ rs : Nat) :
    Agree (Vec.removeCode E v at_ rs) (Vec.removeCode E.release v at_ rs) := by
  unfold Vec.removeCode; agree
macro_rules | `(tactic| agree1) => `(tactic| with_reducible apply Vec.removeCode_agree)

theorem Plist.removeCode_agree (E : Env) (p : Arr) (at_ rs : Nat) :
    Agree (Plist.removeCode E p at_ rs) (Plist.removeCode E.release p at_ rs) := by
  unfold Plist.removeCode; agree
macro_rules | `(tactic| agree1) => `(tactic| with_reducible apply Plist.removeCode_agree)

theorem Plist.removeElementCode_agree (E : Env) (p : Arr) (q : Ptr) (rs : Nat) :
    Agree (Plist.removeElementCode E p q rs) (Plist.removeElementCode E.release p q rs) := by
  unfold Plist.removeElementCode; agree
macro_rules | `(tactic| agree1) => `(tactic| with_reducible apply Plist.removeElementCode_agree)

theorem Str.createLen_agree (E : Env) (n : Nat) :
    Agree (Str.createLen E n) (Str.createLen E.release n) := by
  unfold Str.createLen; agree
macro_rules | `(tactic| agree1) => `(tactic| with_reducible apply Str.createLen_agree)

theorem Str.createCapacity_agree (E : Env) (n : Nat) :
    Agree (Str.createCapacity E n) (Str.createCapacity E.release n) := by
  unfold Str.createCapacity; agree
macro_rules | `(tactic| agree1) => `(tactic| with_reducible apply Str.createCapacity_agree)

theorem Str.setN_agree (E : Env) (s : Arr) (z : Mem) (n : Nat) :
    Agree (Str.setN E s z n) (Str.setN E.release s z n) := by
  unfold Str.setN; agree
macro_rules | `(tactic| agree1) => `(tactic| with_reducible apply Str.setN_agree)

theorem Str.create_agree (E : Env) (z : Mem) :
    Agree (Str.create E z) (Str.create E.release z) := by
  unfold Str.create; agree
macro_rules | `(tactic| agree1) => `(tactic| with_reducible apply Str.create_agree)

theorem Str.dup_agree (E : Env) (s : Arr) :
    Agree (Str.dup E s) (Str.dup E.release s) := by
  unfold Str.dup; agree
macro_rules | `(tactic| agree1) => `(tactic| with_reducible apply Str.dup_agree)

theorem Str.takeOwnership_agree (E : Env) (z : Mem) :
    Agree (Str.takeOwnership E z) (Str.takeOwnership E.release z) := by
  unfold Str.takeOwnership; agree
macro_rules | `(tactic| agree1) => `(tactic| with_reducible apply Str.takeOwnership_agree)

theorem Str.shrink_agree (E : Env) (s : Arr) :
    Agree (Str.shrink E s) (Str.shrink E.release s) := by
  unfold Str.shrink; agree
macro_rules | `(tactic| agree1) => `(tactic| with_reducible apply Str.shrink_agree)

theorem Str.reserve_agree (E : Env) (s : Arr) (n : Nat) :
    Agree (Str.reserve E s n) (Str.reserve E.release s n) := by
  unfold Str.reserve; agree
macro_rules | `(tactic| agree1) => `(tactic| with_reducible apply Str.reserve_agree)

theorem Str.resize_agree (E : Env) (s : Arr) (n : Nat) :
    Agree (Str.resize E s n) (Str.resize E.release s n) := by
  unfold Str.resize; agree
macro_rules | `(tactic| agree1) => `(tactic| with_reducible apply Str.resize_agree)

theorem Str.set_agree (E : Env) (s : Arr) (z : Mem) :
    Agree (Str.set E s z) (Str.set E.release s z) := by
  unfold Str.set; agree
macro_rules | `(tactic| agree1) => `(tactic| with_reducible apply Str.set_agree)

theorem Str.grow_agree (E : Env) (s : Arr) (n : Nat) :
    Agree (Str.grow E s n) (Str.grow E.release s n) := by
  unfold Str.grow; agree
macro_rules | `(tactic| agree1) => `(tactic| with_reducible apply Str.grow_agree)

theorem Str.appendN_agree (E : Env) (s : Arr) (z : Mem) (n : Nat) :
    Agree (Str.appendN E s z n) (Str.appendN E.release s z n) := by
  unfold Str.appendN; agree
macro_rules | `(tactic| agree1) => `(tactic| with_reducible apply Str.appendN_agree)

theorem Str.append_agree (E : Env) (s : Arr) (z : Mem) :
    Agree (Str.append E s z) (Str.append E.release s z) := by
  unfold Str.append; agree
macro_rules | `(tactic| agree1) => `(tactic| with_reducible apply Str.append_agree)

theorem Str.appendf_agree (E : Env) (s : Arr) (out : List UInt8) :
    Agree (Str.appendf E s out) (Str.appendf E.release s out) := by
  unfold Str.appendf; agree
macro_rules | `(tactic| agree1) => `(tactic| with_reducible apply Str.appendf_agree)

theorem Str.insertN_agree (E : Env) (s : Arr) (z : Mem) (at_ n : Nat) :
    Agree (Str.insertN E s z at_ n) (Str.insertN E.release s z at_ n) := by
  unfold Str.insertN; agree
macro_rules | `(tactic| agree1) => `(tactic| with_reducible apply Str.insertN_agree)

theorem Str.insert_agree (E : Env) (s : Arr) (z : Mem) (at_ : Nat) :
    Agree (Str.insert E s z at_) (Str.insert E.release s z at_) := by
  unfold Str.insert; agree
macro_rules | `(tactic| agree1) => `(tactic| with_reducible apply Str.insert_agree)

theorem Str.vfmtSet_agree (E : Env) (s : Arr) (out : List UInt8) :
    Agree (Str.vfmtSet E s out) (Str.vfmtSet E.release s out) := by
  unfold Str.vfmtSet; agree
macro_rules | `(tactic| agree1) => `(tactic| with_reducible apply Str.vfmtSet_agree)

theorem Str.insertf_agree (E : Env) (s : Arr) (at_ : Nat) (out : List UInt8) :
    Agree (Str.insertf E s at_ out) (Str.insertf E.release s at_ out) := by
  unfold Str.insertf; agree
macro_rules | `(tactic| agree1) => `(tactic| with_reducible apply Str.insertf_agree)

theorem Str.appendfStatus_agree (E : Env) (s : Arr) (out : Option (List UInt8)) :
    Agree (Str.appendfStatus E s out) (Str.appendfStatus E.release s out) := by
  unfold Str.appendfStatus; agree
macro_rules | `(tactic| agree1) => `(tactic| with_reducible apply Str.appendfStatus_agree)

theorem Str.insertfStatus_agree (E : Env) (s : Arr) (at_ : Nat) (out : Option (List UInt8)) :
    Agree (Str.insertfStatus E s at_ out) (Str.insertfStatus E.release s at_ out) := by
  unfold Str.insertfStatus; agree
macro_rules | `(tactic| agree1) => `(tactic| with_reducible apply Str.insertfStatus_agree)

theorem Str.remove_agree (E : Env) (s : Arr) (from_ n : Nat) :
    Agree (Str.remove E s from_ n) (Str.remove E.release s from_ n) := by
  unfold Str.remove; agree
macro_rules | `(tactic| agree1) => `(tactic| with_reducible apply Str.remove_agree)

theorem Str.setAt_agree (E : Env) (s : Arr) (z : Mem) (at_ : Nat) :
    Agree (Str.setAt E s z at_) (Str.setAt E.release s z at_) := by
  unfold Str.setAt; agree
macro_rules | `(tactic| agree1) => `(tactic| with_reducible apply Str.setAt_agree)

theorem Str.setC_agree (E : Env) (s : Arr) (c : UInt8) (at_ : Nat) :
    Agree (Str.setC E s c at_) (Str.setC E.release s c at_) := by
  unfold Str.setC; agree
macro_rules | `(tactic| agree1) => `(tactic| with_reducible apply Str.setC_agree)

theorem Str.insertBefore_agree (E : Env) (s : Arr) (sub z : Mem) :
    Agree (Str.insertBefore E s sub z) (Str.insertBefore E.release s sub z) := by
  unfold Str.insertBefore; agree
macro_rules | `(tactic| agree1) => `(tactic| with_reducible apply Str.insertBefore_agree)

theorem Str.insertAfter_agree (E : Env) (s : Arr) (sub z : Mem) :
    Agree (Str.insertAfter E s sub z) (Str.insertAfter E.release s sub z) := by
  unfold Str.insertAfter; agree
macro_rules | `(tactic| agree1) => `(tactic| with_reducible apply Str.insertAfter_agree)

theorem Str.removeLast_agree (E : Env) (fuel : Nat) (s : Arr) (z : Mem) :
    Agree (Str.removeLast E fuel s z) (Str.removeLast E.release fuel s z) := by
  unfold Str.removeLast; agree
macro_rules | `(tactic| agree1) => `(tactic| with_reducible apply Str.removeLast_agree)

theorem Str.replaceAt_agree (E : Env) (s : Arr) (i subLen rsubLen : Nat) (rsub : Mem) :
    Agree (Str.replaceAt E s i subLen rsubLen rsub) (Str.replaceAt E.release s i subLen rsubLen rsub) := by
  unfold Str.replaceAt; agree
macro_rules | `(tactic| agree1) => `(tactic| with_reducible apply Str.replaceAt_agree)

theorem Str.replaceLoop_agree (E : Env) (sub rsub : Mem) (n r : Nat) (fuel_ : Nat) (x1 : Arr) (p_ : Nat) :
    Agree (Str.replaceLoop E sub rsub n r fuel_ x1 p_) (Str.replaceLoop E.release sub rsub n r fuel_ x1 p_):= by
  induction fuel_ generalizing x1 p_ with
  | zero => unfold Str.replaceLoop; agree
  | succ k ih => unfold Str.replaceLoop; agree
macro_rules | `(tactic| agree1) => `(tactic| with_reducible apply Str.replaceLoop_agree)

theorem Str.replace_agree (E : Env) (fuel : Nat) (s : Arr) (sub rsub : Mem) :
    Agree (Str.replace E fuel s sub rsub) (Str.replace E.release fuel s sub rsub) := by
  unfold Str.replace; agree
macro_rules | `(tactic| agree1) => `(tactic| with_reducible apply Str.replace_agree)

theorem Str.replaceFirst_agree (E : Env) (s : Arr) (sub rsub : Mem) :
    Agree (Str.replaceFirst E s sub rsub) (Str.replaceFirst E.release s sub rsub) := by
  unfold Str.replaceFirst; agree
macro_rules | `(tactic| agree1) => `(tactic| with_reducible apply Str.replaceFirst_agree)

theorem Str.replaceLast_agree (E : Env) (fuel : Nat) (s : Arr) (sub rsub : Mem) :
    Agree (Str.replaceLast E fuel s sub rsub) (Str.replaceLast E.release fuel s sub rsub) := by
  unfold Str.replaceLast; agree
macro_rules | `(tactic| agree1) => `(tactic| with_reducible apply Str.replaceLast_agree)

theorem Str.splitLoop_agree (E : Env) (m sep : Mem) (n : Nat) (fuel_ : Nat) (head_ : Nat) (acc_ : List Arr) :
    Agree (Str.splitLoop E m sep n fuel_ head_ acc_) (Str.splitLoop E.release m sep n fuel_ head_ acc_):= by
  induction fuel_ generalizing head_ acc_ with
  | zero => unfold Str.splitLoop; agree
  | succ k ih => unfold Str.splitLoop; agree
macro_rules | `(tactic| agree1) => `(tactic| with_reducible apply Str.splitLoop_agree)

theorem Str.split_agree (E : Env) (fuel : Nat) (s : Arr) (sep : Mem) :
    Agree (Str.split E fuel s sep) (Str.split E.release fuel s sep) := by
  unfold Str.split; agree
macro_rules | `(tactic| agree1) => `(tactic| with_reducible apply Str.split_agree)

theorem Str.splitBetween_agree (E : Env) (s : Option Arr) (z zl zr : Mem) :
    Agree (Str.splitBetween E s z zl zr) (Str.splitBetween E.release s z zl zr) := by
  unfold Str.splitBetween; agree
macro_rules | `(tactic| agree1) => `(tactic| with_reducible apply Str.splitBetween_agree)

theorem Str.joinLoop_agree (E : Env) (sep : Mem) (x0 : List Mem) (x1 : Arr) :
    Agree (Str.joinLoop E sep x0 x1) (Str.joinLoop E.release sep x0 x1):= by
  induction x0 generalizing x1 with
  | nil => unfold Str.joinLoop; agree
  | cons a t ih => unfold Str.joinLoop; agree
macro_rules | `(tactic| agree1) => `(tactic| with_reducible apply Str.joinLoop_agree)

theorem Str.join_agree (E : Env) (s : Option Arr) (sep : Mem) (ps : List Mem) :
    Agree (Str.join E s sep ps) (Str.join E.release s sep ps) := by
  unfold Str.join; agree
macro_rules | `(tactic| agree1) => `(tactic| with_reducible apply Str.join_agree)

theorem Str.joinNLoop_agree (E : Env) (sep : Mem) (x0 : List Mem) (x1 : Arr) :
    Agree (Str.joinNLoop E sep x0 x1) (Str.joinNLoop E.release sep x0 x1):= by
  induction x0 generalizing x1 with
  | nil => unfold Str.joinNLoop; agree
  | cons a t ih => cases t <;> unfold Str.joinNLoop <;> agree
macro_rules | `(tactic| agree1) => `(tactic| with_reducible apply Str.joinNLoop_agree)

theorem Str.joinN_agree (E : Env) (s : Option Arr) (sep : Mem) (ps : List Mem) :
    Agree (Str.joinN E s sep ps) (Str.joinN E.release s sep ps) := by
  unfold Str.joinN; agree
macro_rules | `(tactic| agree1) => `(tactic| with_reducible apply Str.joinN_agree)

theorem Str.popGetFirst_agree (E : Env) (sr : Option Arr) (s : Arr) (sep : Mem) :
    Agree (Str.popGetFirst E sr s sep) (Str.popGetFirst E.release sr s sep) := by
  unfold Str.popGetFirst; agree
macro_rules | `(tactic| agree1) => `(tactic| with_reducible apply Str.popGetFirst_agree)

theorem Str.popGetLast_agree (E : Env) (fuel : Nat) (sr : Option Arr) (s : Arr) (sep : Mem) :
    Agree (Str.popGetLast E fuel sr s sep) (Str.popGetLast E.release fuel sr s sep) := by
  unfold Str.popGetLast; agree
macro_rules | `(tactic| agree1) => `(tactic| with_reducible apply Str.popGetLast_agree)

theorem Str.equalsN_agree (E : Env) (z1 z2 : Mem) (n : Nat) :
    Agree (Str.equalsN E z1 z2 n) (Str.equalsN E.release z1 z2 n) := by
  unfold Str.equalsN; agree
macro_rules | `(tactic| agree1) => `(tactic| with_reducible apply Str.equalsN_agree)

theorem Str.isNumericZ_agree (E : Env) (z : Mem) (len : Nat) :
    Agree (Str.isNumericZ E z len) (Str.isNumericZ E.release z len) := by
  unfold Str.isNumericZ; agree
macro_rules | `(tactic| agree1) => `(tactic| with_reducible apply Str.isNumericZ_agree)

theorem memcpySelf_agree (E : Env) (m : Mem) (dst src n : Nat) :
    Agree (memcpySelf E m dst src n) (memcpySelf E.release m dst src n) := by
  unfold memcpySelf; agree
macro_rules | `(tactic| agree1) => `(tactic| with_reducible apply memcpySelf_agree)

theorem Vec.pushBackOwn_agree (E : Env) (v : Arr) (off : Nat) :
    Agree (Vec.pushBackOwn E v off) (Vec.pushBackOwn E.release v off) := by
  unfold Vec.pushBackOwn; agree
macro_rules | `(tactic| agree1) => `(tactic| with_reducible apply Vec.pushBackOwn_agree)

theorem Vec.insertOwn_agree (E : Env) (v : Arr) (off at_ : Nat) :
    Agree (Vec.insertOwn E v off at_) (Vec.insertOwn E.release v off at_) := by
  unfold Vec.insertOwn; agree
macro_rules | `(tactic| agree1) => `(tactic| with_reducible apply Vec.insertOwn_agree)

theorem Vec.pushFrontOwn_agree (E : Env) (v : Arr) (off : Nat) :
    Agree (Vec.pushFrontOwn E v off) (Vec.pushFrontOwn E.release v off) := by
  unfold Vec.pushFrontOwn; agree
macro_rules | `(tactic| agree1) => `(tactic| with_reducible apply Vec.pushFrontOwn_agree)

theorem Vec.setOwn_agree (E : Env) (v : Arr) (off at_ : Nat) :
    Agree (Vec.setOwn E v off at_) (Vec.setOwn E.release v off at_) := by
  unfold Vec.setOwn; agree
macro_rules | `(tactic| agree1) => `(tactic| with_reducible apply Vec.setOwn_agree)

theorem Str.appendNOwn_agree (E : Env) (s : Arr) (off n : Nat) :
    Agree (Str.appendNOwn E s off n) (Str.appendNOwn E.release s off n) := by
  unfold Str.appendNOwn; agree
macro_rules | `(tactic| agree1) => `(tactic| with_reducible apply Str.appendNOwn_agree)

theorem Str.appendOwn_agree (E : Env) (s : Arr) (off : Nat) :
    Agree (Str.appendOwn E s off) (Str.appendOwn E.release s off) := by
  unfold Str.appendOwn; agree
macro_rules | `(tactic| agree1) => `(tactic| with_reducible apply Str.appendOwn_agree)

theorem Str.insertOwn_agree (E : Env) (s : Arr) (off at_ : Nat) :
    Agree (Str.insertOwn E s off at_) (Str.insertOwn E.release s off at_) := by
  unfold Str.insertOwn; agree
macro_rules | `(tactic| agree1) => `(tactic| with_reducible apply Str.insertOwn_agree)

theorem Str.setNOwn_agree (E : Env) (s : Arr) (off n : Nat) :
    Agree (Str.setNOwn E s off n) (Str.setNOwn E.release s off n) := by
  unfold Str.setNOwn; agree
macro_rules | `(tactic| agree1) => `(tactic| with_reducible apply Str.setNOwn_agree)

theorem Str.setOwn_agree (E : Env) (s : Arr) (off : Nat) :
    Agree (Str.setOwn E s off) (Str.setOwn E.release s off) := by
  unfold Str.setOwn; agree
macro_rules | `(tactic| agree1) => `(tactic| with_reducible apply Str.setOwn_agree)

theorem Str.setAtOwn_agree (E : Env) (s : Arr) (off at_ : Nat) :
    Agree (Str.setAtOwn E s off at_) (Str.setAtOwn E.release s off at_) := by
  unfold Str.setAtOwn; agree
macro_rules | `(tactic| agree1) => `(tactic| with_reducible apply Str.setAtOwn_agree)

theorem Str.appendfOwn_agree (E : Env) (s : Arr) (ps : List Str.Piece) :
    Agree (Str.appendfOwn E s ps) (Str.appendfOwn E.release s ps) := by
  unfold Str.appendfOwn; agree
macro_rules | `(tactic| agree1) => `(tactic| with_reducible apply Str.appendfOwn_agree)

theorem Str.insertfOwn_agree (E : Env) (s : Arr) (at_ : Nat) (ps : List Str.Piece) :
    Agree (Str.insertfOwn E s at_ ps) (Str.insertfOwn E.release s at_ ps) := by
  unfold Str.insertfOwn; agree
macro_rules | `(tactic| agree1) => `(tactic| with_reducible apply Str.insertfOwn_agree)

theorem Str.insertBeforeOwn_agree (E : Env) (s : Arr) (sub : Mem) (off : Nat) :
    Agree (Str.insertBeforeOwn E s sub off) (Str.insertBeforeOwn E.release s sub off) := by
  unfold Str.insertBeforeOwn; agree
macro_rules | `(tactic| agree1) => `(tactic| with_reducible apply Str.insertBeforeOwn_agree)

theorem Str.insertAfterOwn_agree (E : Env) (s : Arr) (sub : Mem) (off : Nat) :
    Agree (Str.insertAfterOwn E s sub off) (Str.insertAfterOwn E.release s sub off) := by
  unfold Str.insertAfterOwn; agree
macro_rules | `(tactic| agree1) => `(tactic| with_reducible apply Str.insertAfterOwn_agree)

theorem Core.gswap2_agree (E : Env) (a b : Mem) (ia ib n : Nat) :
    Agree (Core.gswap2 E a b ia ib n) (Core.gswap2 E.release a b ia ib n) := by
  unfold Core.gswap2; agree
macro_rules | `(tactic| agree1) => `(tactic| with_reducible apply Core.gswap2_agree)

theorem Span.from__agree (E : Env) (length elsize : Nat) :
    Agree (Span.from_ E length elsize) (Span.from_ E.release length elsize) := by
  unfold Span.from_; agree
macro_rules | `(tactic| agree1) => `(tactic| with_reducible apply Span.from__agree)

theorem Span.fromTo_agree (E : Env) (m : Mem) (fromIdx toIdx elsize : Nat) :
    Agree (Span.fromTo E m fromIdx toIdx elsize) (Span.fromTo E.release m fromIdx toIdx elsize) := by
  unfold Span.fromTo; agree
macro_rules | `(tactic| agree1) => `(tactic| with_reducible apply Span.fromTo_agree)

theorem Span.get_agree (E : Env) (m : Mem) (s : Span) (at_ : Nat) :
    Agree (Span.get E m s at_) (Span.get E.release m s at_) := by
  unfold Span.get; agree
macro_rules | `(tactic| agree1) => `(tactic| with_reducible apply Span.get_agree)

theorem Span.set_agree (E : Env) (m : Mem) (s : Span) (val : Mem) (at_ : Nat) :
    Agree (Span.set E m s val at_) (Span.set E.release m s val at_) := by
  unfold Span.set; agree
macro_rules | `(tactic| agree1) => `(tactic| with_reducible apply Span.set_agree)

theorem Mal.hCalloc_agree (E : Env) (A : Allocator) (H : Heap) (n : Nat) :
    Agree (Mal.hCalloc E A H n) (Mal.hCalloc E.release A H n) := by
  unfold Mal.hCalloc; agree
macro_rules | `(tactic| agree1) => `(tactic| with_reducible apply Mal.hCalloc_agree)

theorem Mal.hRealloc_agree (E : Env) (A : Allocator) (H : Heap) (p n : Nat) :
    Agree (Mal.hRealloc E A H p n) (Mal.hRealloc E.release A H p n) := by
  unfold Mal.hRealloc; agree
macro_rules | `(tactic| agree1) => `(tactic| with_reducible apply Mal.hRealloc_agree)

theorem Mal.create_agree (E : Env) (A : Allocator) (H : Heap) :
    Agree (Mal.create E A H) (Mal.create E.release A H) := by
  unfold Mal.create; agree
macro_rules | `(tactic| agree1) => `(tactic| with_reducible apply Mal.create_agree)

theorem Mal.resize_agree (E : Env) (A : Allocator) (H : Heap) (m : T) (length : Nat) :
    Agree (Mal.resize E A H m length) (Mal.resize E.release A H m length) := by
  unfold Mal.resize; agree
macro_rules | `(tactic| agree1) => `(tactic| with_reducible apply Mal.resize_agree)

theorem Mal.add_agree (E : Env) (A : Allocator) (H : Heap) (m : T) (obj : Nat × Nat) :
    Agree (Mal.add E A H m obj) (Mal.add E.release A H m obj) := by
  unfold Mal.add; agree
macro_rules | `(tactic| agree1) => `(tactic| with_reducible apply Mal.add_agree)

theorem Mal.alloc_agree (E : Env) (A : Allocator) (H : Heap) (m : T) (bytes : Nat) :
    Agree (Mal.alloc E A H m bytes) (Mal.alloc E.release A H m bytes) := by
  unfold Mal.alloc; agree
macro_rules | `(tactic| agree1) => `(tactic| with_reducible apply Mal.alloc_agree)

theorem Mal.realloc_agree (E : Env) (A : Allocator) (H : Heap) (m : T) (ptr bytes : Nat) :
    Agree (Mal.realloc E A H m ptr bytes) (Mal.realloc E.release A H m ptr bytes) := by
  unfold Mal.realloc; agree
macro_rules | `(tactic| agree1) => `(tactic| with_reducible apply Mal.realloc_agree)

theorem Mal.free_agree (E : Env) (H : Heap) (m : T) (ptr : Nat) :
    Agree (Mal.free E H m ptr) (Mal.free E.release H m ptr) := by
  unfold Mal.free; agree
macro_rules | `(tactic| agree1) => `(tactic| with_reducible apply Mal.free_agree)

theorem DT.toTextFmt_agree (E : Env) (d : VDT) (buf : Mem) (len : Nat) (f : List Fmt) :
    Agree (DT.toTextFmt E d buf len f) (DT.toTextFmt E.release d buf len f) := by
  unfold DT.toTextFmt; agree
macro_rules | `(tactic| agree1) => `(tactic| with_reducible apply DT.toTextFmt_agree)

theorem DT.toText_agree (E : Env) (d : VDT) (buf : Mem) (len : Nat) :
    Agree (DT.toText E d buf len) (DT.toText E.release d buf len) := by
  unfold DT.toText; agree
macro_rules | `(tactic| agree1) => `(tactic| with_reducible apply DT.toText_agree)

theorem DT.toTextIso_agree (E : Env) (d : VDT) (buf : Mem) (len : Nat) :
    Agree (DT.toTextIso E d buf len) (DT.toTextIso E.release d buf len) := by
  unfold DT.toTextIso; agree
macro_rules | `(tactic| agree1) => `(tactic| with_reducible apply DT.toTextIso_agree)

theorem DT.toTextIsoExt_agree (E : Env) (d : VDT) (buf : Mem) (len : Nat) :
    Agree (DT.toTextIsoExt E d buf len) (DT.toTextIsoExt E.release d buf len) := by
  unfold DT.toTextIsoExt; agree
macro_rules | `(tactic| agree1) => `(tactic| with_reducible apply DT.toTextIsoExt_agree)

theorem DT.toTextPretty_agree (E : Env) (d : VDT) (buf : Mem) (len : Nat) :
    Agree (DT.toTextPretty E d buf len) (DT.toTextPretty E.release d buf len) := by
  unfold DT.toTextPretty; agree
macro_rules | `(tactic| agree1) => `(tactic| with_reducible apply DT.toTextPretty_agree)

theorem DT.getNowText_agree (E : Env) (zn : Zone) (clock : Int) (buf : Mem) (len : Nat) :
    Agree (DT.getNowText E zn clock buf len) (DT.getNowText E.release zn clock buf len) := by
  unfold DT.getNowText; agree
macro_rules | `(tactic| agree1) => `(tactic| with_reducible apply DT.getNowText_agree)

theorem DT.getNowPretty_agree (E : Env) (zn : Zone) (clock : Int) (buf : Mem) (len : Nat) :
    Agree (DT.getNowPretty E zn clock buf len) (DT.getNowPretty E.release zn clock buf len) := by
  unfold DT.getNowPretty; agree
macro_rules | `(tactic| agree1) => `(tactic| with_reducible apply DT.getNowPretty_agree)

theorem ArgOpt.assignCstr_agree (E : Env) (old : Option Mem) (value : Mem) :
    Agree (ArgOpt.assignCstr E old value) (ArgOpt.assignCstr E.release old value) := by
  unfold ArgOpt.assignCstr; agree
macro_rules | `(tactic| agree1) => `(tactic| with_reducible apply ArgOpt.assignCstr_agree)

theorem ArgOpt.assignValue_agree (E : Env) (ty : Ty) (old : Val) (value : Mem) :
    Agree (ArgOpt.assignValue E ty old value) (ArgOpt.assignValue E.release ty old value):= by
  unfold ArgOpt.assignValue
  cases ty
  case str =>
    rcases old with _ | _ | _ | _ | (_ | _) | _ <;> agree
  case cstr => cases old <;> agree
  all_goals agree
macro_rules | `(tactic| agree1) => `(tactic| with_reducible apply ArgOpt.assignValue_agree)

theorem ArgOpt.assign_agree (E : Env) (o : Opt) (value : Mem) :
    Agree (ArgOpt.assign E o value) (ArgOpt.assign E.release o value) := by
  unfold ArgOpt.assign; agree
macro_rules | `(tactic| agree1) => `(tactic| with_reducible apply ArgOpt.assign_agree)

theorem ArgOpt.tryOpts_agree (E : Env) (sOpt sArg : Arr) (next : Option Mem) (x0 : List Opt) :
    Agree (ArgOpt.tryOpts E sOpt sArg next x0) (ArgOpt.tryOpts E.release sOpt sArg next x0):= by
  induction x0 with
  | nil => unfold ArgOpt.tryOpts; agree
  | cons a t ih => unfold ArgOpt.tryOpts; agree
macro_rules | `(tactic| agree1) => `(tactic| with_reducible apply ArgOpt.tryOpts_agree)

theorem ArgOpt.parseLoop_agree (E : Env) (skip_ : Bool) (x1 : List Mem) (x2 : Arr) (x3 : Arr) (x4 : List Opt) :
    Agree (ArgOpt.parseLoop E skip_ x1 x2 x3 x4) (ArgOpt.parseLoop E.release skip_ x1 x2 x3 x4):= by
  induction x1 generalizing skip_ x2 x3 x4 with
  | nil => cases skip_ <;> unfold ArgOpt.parseLoop <;> agree
  | cons a t ih => cases skip_ <;> unfold ArgOpt.parseLoop <;> agree
macro_rules | `(tactic| agree1) => `(tactic| with_reducible apply ArgOpt.parseLoop_agree)

theorem ArgOpt.parse_agree (E : Env) (args : List Mem) (opts : List Opt) :
    Agree (ArgOpt.parse E args opts) (ArgOpt.parse E.release args opts) := by
  unfold ArgOpt.parse; agree
macro_rules | `(tactic| agree1) => `(tactic| with_reducible apply ArgOpt.parse_agree)

theorem ArgOpt.assignSh_agree (E : Env) (vars : List Val) (o : ShOpt) (value : Mem) :
    Agree (ArgOpt.assignSh E vars o value) (ArgOpt.assignSh E.release vars o value) := by
  unfold ArgOpt.assignSh; agree
macro_rules | `(tactic| agree1) => `(tactic| with_reducible apply ArgOpt.assignSh_agree)

theorem ArgOpt.tryOptsSh_agree (E : Env) (sOpt sArg : Arr) (next : Option Mem) (vars : List Val) (x0 : List ShOpt) :
    Agree (ArgOpt.tryOptsSh E sOpt sArg next vars x0) (ArgOpt.tryOptsSh E.release sOpt sArg next vars x0):= by
  induction x0 with
  | nil => unfold ArgOpt.tryOptsSh; agree
  | cons a t ih => unfold ArgOpt.tryOptsSh; agree
macro_rules | `(tactic| agree1) => `(tactic| with_reducible apply ArgOpt.tryOptsSh_agree)

theorem ArgOpt.parseLoopSh_agree (E : Env) (opts : List ShOpt) (skip_ : Bool) (x1 : List Mem) (x2 : Arr) (x3 : Arr) (x4 : List Val) :
    Agree (ArgOpt.parseLoopSh E opts skip_ x1 x2 x3 x4) (ArgOpt.parseLoopSh E.release opts skip_ x1 x2 x3 x4):= by
  induction x1 generalizing skip_ x2 x3 x4 with
  | nil => cases skip_ <;> unfold ArgOpt.parseLoopSh <;> agree
  | cons a t ih => cases skip_ <;> unfold ArgOpt.parseLoopSh <;> agree
macro_rules | `(tactic| agree1) => `(tactic| with_reducible apply ArgOpt.parseLoopSh_agree)

theorem ArgOpt.parseSh_agree (E : Env) (args : List Mem) (opts : List ShOpt) (vars : List Val) :
    Agree (ArgOpt.parseSh E args opts vars) (ArgOpt.parseSh E.release args opts vars) := by
  unfold ArgOpt.parseSh; agree
macro_rules | `(tactic| agree1) => `(tactic| with_reducible apply ArgOpt.parseSh_agree)

theorem Path.build_agree (E : Env) (s : Option Arr) (ps : List Mem) :
    Agree (Path.build E s ps) (Path.build E.release s ps) := by
  unfold Path.build; agree
macro_rules | `(tactic| agree1) => `(tactic| with_reducible apply Path.build_agree)

theorem Path.buildN_agree (E : Env) (s : Option Arr) (ps : List Mem) :
    Agree (Path.buildN E s ps) (Path.buildN E.release s ps) := by
  unfold Path.buildN; agree
macro_rules | `(tactic| agree1) => `(tactic| with_reducible apply Path.buildN_agree)

theorem Path.basename_agree (E : Env) (fuel : Nat) (s : Option Arr) (z : Mem) :
    Agree (Path.basename E fuel s z) (Path.basename E.release fuel s z) := by
  unfold Path.basename; agree
macro_rules | `(tactic| agree1) => `(tactic| with_reducible apply Path.basename_agree)

theorem Path.expandTilda_agree (E : Env) (home : Option Mem) (z : Mem) :
    Agree (Path.expandTilda E home z) (Path.expandTilda E.release home z) := by
  unfold Path.expandTilda; agree
macro_rules | `(tactic| agree1) => `(tactic| with_reducible apply Path.expandTilda_agree)

theorem Path.exeLocation_agree (E : Env) (link : Option (List UInt8)) :
    Agree (Path.exeLocation E link) (Path.exeLocation E.release link) := by
  unfold Path.exeLocation; agree
macro_rules | `(tactic| agree1) => `(tactic| with_reducible apply Path.exeLocation_agree)

theorem Path.getCwd_agree (E : Env) (cwd : Option Mem) :
    Agree (Path.getCwd E cwd) (Path.getCwd E.release cwd) := by
  unfold Path.getCwd; agree
macro_rules | `(tactic| agree1) => `(tactic| with_reducible apply Path.getCwd_agree)

theorem Str.replaceLoopOwn_agree (E : Env) (off : Nat) (rsub : Mem) (n r : Nat) (fuel_ : Nat) (x1 : Arr) (p_ : Nat) :
    Agree (Str.replaceLoopOwn E off rsub n r fuel_ x1 p_) (Str.replaceLoopOwn E.release off rsub n r fuel_ x1 p_):= by
  induction fuel_ generalizing x1 p_ with
  | zero => unfold Str.replaceLoopOwn; agree
  | succ k ih => unfold Str.replaceLoopOwn; agree
macro_rules | `(tactic| agree1) => `(tactic| with_reducible apply Str.replaceLoopOwn_agree)

theorem Str.replaceOwn_agree (E : Env) (fuel : Nat) (s : Arr) (off : Nat) (rsub : Mem) :
    Agree (Str.replaceOwn E fuel s off rsub) (Str.replaceOwn E.release fuel s off rsub) := by
  unfold Str.replaceOwn; agree
macro_rules | `(tactic| agree1) => `(tactic| with_reducible apply Str.replaceOwn_agree)

theorem Str.replaceFirstOwn_agree (E : Env) (s : Arr) (off : Nat) (rsub : Mem) :
    Agree (Str.replaceFirstOwn E s off rsub) (Str.replaceFirstOwn E.release s off rsub) := by
  unfold Str.replaceFirstOwn; agree
macro_rules | `(tactic| agree1) => `(tactic| with_reducible apply Str.replaceFirstOwn_agree)

theorem Str.splitBetweenOwn_agree (E : Env) (s : Arr) (off : Nat) (zl zr : Mem) :
    Agree (Str.splitBetweenOwn E s off zl zr) (Str.splitBetweenOwn E.release s off zl zr) := by
  unfold Str.splitBetweenOwn; agree
macro_rules | `(tactic| agree1) => `(tactic| with_reducible apply Str.splitBetweenOwn_agree)

theorem Str.popGetFirstSelf_agree (E : Env) (s : Arr) (sep : Mem) :
    Agree (Str.popGetFirstSelf E s sep) (Str.popGetFirstSelf E.release s sep) := by
  unfold Str.popGetFirstSelf; agree
macro_rules | `(tactic| agree1) => `(tactic| with_reducible apply Str.popGetFirstSelf_agree)

theorem Str.popGetLastSelf_agree (E : Env) (fuel : Nat) (s : Arr) (sep : Mem) :
    Agree (Str.popGetLastSelf E fuel s sep) (Str.popGetLastSelf E.release fuel s sep) := by
  unfold Str.popGetLastSelf; agree
macro_rules | `(tactic| agree1) => `(tactic| with_reducible apply Str.popGetLastSelf_agree)

theorem Path.basenameOwn_agree (E : Env) (fuel : Nat) (s : Arr) (off : Nat) :
    Agree (Path.basenameOwn E fuel s off) (Path.basenameOwn E.release fuel s off) := by
  unfold Path.basenameOwn; agree
macro_rules | `(tactic| agree1) => `(tactic| with_reducible apply Path.basenameOwn_agree)

theorem Span.getT_agree (E : Env) (m : Mem) (s : Span) (w : Nat) (at_ : Nat) :
    Agree (Span.getT E m s w at_) (Span.getT E.release m s w at_) := by
  unfold Span.getT; agree
macro_rules | `(tactic| agree1) => `(tactic| with_reducible apply Span.getT_agree)

theorem Span.setT_agree (E : Env) (m : Mem) (s : Span) (w : Nat) (x : BitVec (8 * w)) (at_ : Nat) :
    Agree (Span.setT E m s w x at_) (Span.setT E.release m s w x at_) := by
  unfold Span.setT; agree
macro_rules | `(tactic| agree1) => `(tactic| with_reducible apply Span.setT_agree)

theorem Path.listLoop_agree (E : Env) (ign : Bool) (x0 : List Fs.Name) (pl_ : List Arr) :
    Agree (Path.listLoop E ign x0 pl_) (Path.listLoop E.release ign x0 pl_):= by
  induction x0 generalizing pl_ with
  | nil => unfold Path.listLoop; agree
  | cons a t ih => unfold Path.listLoop; agree
macro_rules | `(tactic| agree1) => `(tactic| with_reducible apply Path.listLoop_agree)

theorem Path.dirList_agree (E : Env) (w : Fs.World) (z : Mem) (ign : Bool) :
    Agree (Path.dirList E w z ign) (Path.dirList E.release w z ign) := by
  unfold Path.dirList; agree
macro_rules | `(tactic| agree1) => `(tactic| with_reducible apply Path.dirList_agree)

theorem Path.recurseLoop_agree (E : Env) (w : Fs.World) (ign : Bool) (z : Mem) (rec : List Arr → Mem → Out (Option (List Arr))) (x0 : List Fs.Name) (st_ : Arr) (pl_ : List Arr) :
    Agree (Path.recurseLoop E w ign z rec x0 st_ pl_) (Path.recurseLoop E.release w ign z rec x0 st_ pl_):= by
  induction x0 generalizing st_ pl_ with
  | nil => unfold Path.recurseLoop; agree
  | cons a t ih => unfold Path.recurseLoop; agree
macro_rules | `(tactic| agree1) => `(tactic| with_reducible apply Path.recurseLoop_agree)

theorem Path.recurseLoop_agree' (E : Env) (w : Fs.World) (ign : Bool) (z : Mem) {rec rec' : List Arr → Mem → Out (Option (List Arr))}
    (h : ∀ l z, Agree (rec l z) (rec' l z)) (ns : List Fs.Name) (st : Arr) (pl : List Arr) :
    Agree (Path.recurseLoop E w ign z rec ns st pl) (Path.recurseLoop E.release w ign z rec' ns st pl) := by
  induction ns generalizing st pl with
  | nil => unfold Path.recurseLoop; agree
  | cons a t ih => unfold Path.recurseLoop; agree

theorem Path.dirListRecurse_agree (E : Env) (w : Fs.World) (ign : Bool) (fuel_ : Nat) (pl_ : List Arr) (z_ : Mem) :
    Agree (Path.dirListRecurse E w ign fuel_ pl_ z_) (Path.dirListRecurse E.release w ign fuel_ pl_ z_):= by
  induction fuel_ generalizing pl_ z_ with
  | zero => unfold Path.dirListRecurse; agree
  | succ k ih =>
    unfold Path.dirListRecurse
    agree
    exact Path.recurseLoop_agree' E w ign z_ ih _ _ _
macro_rules | `(tactic| agree1) => `(tactic| with_reducible apply Path.dirListRecurse_agree)

theorem Path.mkdirLoop_agree (E : Env) (x0 : List Arr) (sfull_ : Arr) (x2 : Fs.World) :
    Agree (Path.mkdirLoop E x0 sfull_ x2) (Path.mkdirLoop E.release x0 sfull_ x2):= by
  induction x0 generalizing sfull_ x2 with
  | nil => unfold Path.mkdirLoop; agree
  | cons a t ih => unfold Path.mkdirLoop; agree
macro_rules | `(tactic| agree1) => `(tactic| with_reducible apply Path.mkdirLoop_agree)

theorem Path.mkdirParents_agree (E : Env) (fuel : Nat) (w : Fs.World) (z : Mem) :
    Agree (Path.mkdirParents E fuel w z) (Path.mkdirParents E.release fuel w z) := by
  unfold Path.mkdirParents; agree
macro_rules | `(tactic| agree1) => `(tactic| with_reducible apply Path.mkdirParents_agree)

theorem Path.rmdirRecurse_agree (E : Env) (fuel : Nat) (w : Fs.World) (z : Mem) :
    Agree (Path.rmdirRecurse E fuel w z) (Path.rmdirRecurse E.release fuel w z) := by
  unfold Path.rmdirRecurse; agree
macro_rules | `(tactic| agree1) => `(tactic| with_reducible apply Path.rmdirRecurse_agree)

theorem FileIo.read_agree (E : Env) (w : Fs.World) (z : Mem) :
    Agree (FileIo.read E w z) (FileIo.read E.release w z) := by
  unfold FileIo.read; agree
macro_rules | `(tactic| agree1) => `(tactic| with_reducible apply FileIo.read_agree)

theorem FileIo.readToBuffer_agree (E : Env) (w : Fs.World) (z : Mem) (buf : Mem) (n : Nat) :
    Agree (FileIo.readToBuffer E w z buf n) (FileIo.readToBuffer E.release w z buf n) := by
  unfold FileIo.readToBuffer; agree
macro_rules | `(tactic| agree1) => `(tactic| with_reducible apply FileIo.readToBuffer_agree)

theorem Net.makeAddress_agree (E : Env) (inet : List UInt8 → UInt32) (port : Int) (z : Option Mem) :
    Agree (Net.makeAddress E inet port z) (Net.makeAddress E.release inet port z) := by
  unfold Net.makeAddress; agree
macro_rules | `(tactic| agree1) => `(tactic| with_reducible apply Net.makeAddress_agree)

theorem Ctype.isNumericZ_agree (E : Env) (sg : Bool) (z : Mem) (len : Nat) :
    Agree (Ctype.isNumericZ E sg z len) (Ctype.isNumericZ E.release sg z len) := by
  unfold Ctype.isNumericZ; agree
macro_rules | `(tactic| agree1) => `(tactic| with_reducible apply Ctype.isNumericZ_agree)

theorem Align.vecGet_agree (E : Env) (base : Nat) (v : Arr) (at_ : Nat) :
    Agree (Align.vecGet E base v at_) (Align.vecGet E.release base v at_) := by
  unfold Align.vecGet; agree
macro_rules | `(tactic| agree1) => `(tactic| with_reducible apply Align.vecGet_agree)

theorem Align.spanGet_agree (E : Env) (base : Nat) (s : Span) (at_ : Nat) :
    Agree (Align.spanGet E base s at_) (Align.spanGet E.release base s at_) := by
  unfold Align.spanGet; agree
macro_rules | `(tactic| agree1) => `(tactic| with_reducible apply Align.spanGet_agree)

theorem Align.vecGetT_agree (E : Env) (base : Nat) (v : Arr) (w : Nat) (at_ : Nat) :
    Agree (Align.vecGetT E base v w at_) (Align.vecGetT E.release base v w at_) := by
  unfold Align.vecGetT; agree
macro_rules | `(tactic| agree1) => `(tactic| with_reducible apply Align.vecGetT_agree)

theorem Align.spanGetT_agree (E : Env) (base : Nat) (m : Mem) (s : Span) (w : Nat) (at_ : Nat) :
    Agree (Align.spanGetT E base m s w at_) (Align.spanGetT E.release base m s w at_) := by
  unfold Align.spanGetT; agree
macro_rules | `(tactic| agree1) => `(tactic| with_reducible apply Align.spanGetT_agree)

end Vita
