import Verif.Base.Mem
import Verif.Spec.Text
import Mathlib.Data.List.Forall2
/-!
# Specification of string editing

The specified effect of each editing call on the text and the capacity, in a debug build.
Text arguments are given as memory; `textAt z` is the C string found there.
-/

namespace Vita.Spec

/-- The C string at the beginning of the memory `z`. -/
def textAt (z : Mem) : Text :=
  match scanZ z with
  | .ok t => t
  | _ => []

/-- Editing calls. -/
inductive StrOp
  | append (z : Mem)
  | appendN (z : Mem) (n : Nat)
  | appendf (out : Text)
  | insert (z : Mem) (i : Nat)
  | insertN (z : Mem) (i n : Nat)
  | insertf (i : Nat) (out : Text)
  | remove (i n : Nat)
  | setAt (z : Mem) (i : Nat)
  | setC (c : UInt8) (i : Nat)
  | setN (z : Mem) (n : Nat)
  | clear
  | reserve (n : Nat)
  | resize (n : Nat)
  | shrink
  | removeFirst (z : Mem)
  | removeAll (z : Mem)
  | removeC (c : Mem)
  | replace (sub rsub : Mem)
  | replaceFirst (sub rsub : Mem)
  | replaceC (c r : Mem)
  | toUpper
  | toLower

/-- Abstract state: the text and the capacity. -/
structure StrState where
  text : Text
  cap : Nat

/-- Store the new text `t`: within the capacity if it fits, otherwise the block is enlarged to
exactly fit it and its terminator. -/
def store (E : Env) (s : StrState) (t : Text) : Out StrState :=
  if t.length ≤ s.cap then .ok ⟨t, s.cap⟩
  else if E.allocOk (t.length + 1) then .ok ⟨t, t.length⟩
  else .exit .alloc

/-- ASCII upper case of a character. -/
def upper (c : UInt8) : UInt8 := if 97 ≤ c ∧ c ≤ 122 then c - 32 else c
/-- ASCII lower case of a character. -/
def lower (c : UInt8) : UInt8 := if 65 ≤ c ∧ c ≤ 90 then c + 32 else c

/-- `o` is the new text `t` (with a capacity not smaller than before), or a refused request for not
much more memory than the old and the new text need. -/
def Rewritten (E : Env) (s : StrState) (t : Text) (o : Out StrState) : Prop :=
  (∃ cap, s.cap ≤ cap ∧ t.length ≤ cap ∧ o = .ok ⟨t, cap⟩) ∨ (o = .exit .alloc ∧ E.Refuses (2 * (s.text.length + t.length) + 56))

/-- The specified outcome of an editing call. -/
def StrStep (E : Env) (s : StrState) (op : StrOp) (o : Out StrState) : Prop :=
  match op with
  | .append z =>
      if textAt z = [] then o = .exit .dbgAssert else o = store E s (s.text ++ textAt z)
  | .appendN z n =>
      if n = 0 then o = .exit .dbgAssert else o = store E s (s.text ++ (textAt z).take n)
  | .appendf out => o = store E s (s.text ++ out)
  | .insert z i =>
      if i < s.text.length then o = store E s (s.text.take i ++ textAt z ++ s.text.drop i)
      else o = .exit .dbgAssert
  | .insertN z i n =>
      if n = 0 then o = .exit .dbgAssert
      else o = store E s (s.text.take i ++ (textAt z).take n ++ s.text.drop i)
  | .insertf i out =>
      if i < s.text.length then
        (if out.length < 1023 then o = store E s (s.text.take i ++ out ++ s.text.drop i)
         else Rewritten E s (s.text.take i ++ out ++ s.text.drop i) o)
      else o = .exit .dbgAssert ∨ (1023 ≤ out.length ∧ o = .exit .alloc ∧ E.Refuses (2 * out.length + 56))
  | .remove i n =>
      if 0 < n ∧ i < s.text.length then o = .ok ⟨s.text.take i ++ s.text.drop (i + n), s.cap⟩
      else o = .exit .dbgAssert
  | .setAt z i =>
      if s.text.length ≤ i then o = .exit .dbgAssert
      else if s.text.length - i < (textAt z).length then o = .exit .enforce
      else if textAt z = [] then o = .exit .dbgAssert
      else o = .ok ⟨s.text.take i ++ textAt z, s.cap⟩
  | .setC c i =>
      if i < s.text.length then o = .ok ⟨s.text.set i c, s.cap⟩ else o = .exit .dbgAssert
  | .setN z n =>
      if n = 0 then o = .exit .dbgAssert
      else if s.text.length < n then o = .exit .enforce
      else o = .ok ⟨(textAt z).take n, s.cap⟩
  | .clear => o = .ok ⟨[], s.cap⟩
  | .reserve n =>
      if n = 0 then o = .exit .dbgAssert
      else if E.allocOk (s.cap + n + 1) then o = .ok ⟨s.text, s.cap + n⟩
      else o = .exit .alloc
  | .resize n =>
      if n = 0 then o = .exit .dbgAssert
      else if E.allocOk (n + 1) then o = .ok ⟨s.text.take n, n⟩
      else o = .exit .alloc
  | .shrink =>
      if s.text.length = s.cap then o = .ok s
      else if E.allocOk (s.text.length + 1) then o = .ok ⟨s.text, s.text.length⟩
      else o = .exit .alloc
  | .removeFirst z =>
      (∃ i, IsFirst s.text (textAt z) i ∧ o = .ok ⟨splice s.text i (textAt z).length [], s.cap⟩) ∨
      (¬ Occurs s.text (textAt z) ∧ o = .ok s)
  | .removeAll z =>
      ∃ t, Deletes (textAt z) s.text t ∧ ¬ Occurs t (textAt z) ∧ o = .ok ⟨t, s.cap⟩
  | .removeC c => o = .ok ⟨s.text.filter (fun x => decide (x ∉ textAt c)), s.cap⟩
  | .replace sub rsub =>
      if textAt sub = [] ∨ textAt rsub = [] then o = .ok s
      else Rewritten E s (replaceAll s.text (textAt sub) (textAt rsub)) o
  | .replaceFirst sub rsub =>
      if textAt sub = [] ∨ textAt rsub = [] then o = .ok s
      else if s.text.length < (textAt sub).length then o = .exit .enforce
      else (∃ i, IsFirst s.text (textAt sub) i ∧
              Rewritten E s (splice s.text i (textAt sub).length (textAt rsub)) o) ∨
           (¬ Occurs s.text (textAt sub) ∧ o = .ok s)
  | .replaceC c r =>
      if (textAt c).length < (textAt r).length then o = .exit .enforce
      else if textAt r = [] then o = .ok s
      else ∃ t, List.Forall₂ (IsTranslated (textAt c) (textAt r)) s.text t ∧ o = .ok ⟨t, s.cap⟩
  | .toUpper => o = .ok ⟨s.text.map upper, s.cap⟩
  | .toLower => o = .ok ⟨s.text.map lower, s.cap⟩

/-- `z` is a C string in the address space. -/
def IsCText (z : Mem) : Prop := scanZ z = .ok (textAt z) ∧ (textAt z).length < 2 ^ 56

/-- The obligations of the caller that the code does not check: text arguments are NUL-terminated,
counts do not exceed the text they count in, `insert_n` positions are inside the text, no NUL is
stored inside the text, sizes do not overflow, and `remove_all` is not asked to remove "". -/
def Legal (t : Text) : StrOp → Prop
  | .append z => IsCText z
  | .appendN z n => IsCText z ∧ n ≤ (textAt z).length
  | .appendf out => 0 ∉ out ∧ out.length < 2 ^ 31
  | .insert z _ => IsCText z
  | .insertN z i n => IsCText z ∧ n ≤ (textAt z).length ∧ i ≤ t.length
  | .insertf _ out => 0 ∉ out ∧ out.length + 1 < 2 ^ 31
  | .remove _ _ => True
  | .setAt z _ => IsCText z
  | .setC c _ => c ≠ 0
  | .setN z n => IsCText z ∧ n ≤ (textAt z).length
  | .clear => True
  | .reserve n => n < 2 ^ 63
  | .resize n => n < 2 ^ 63
  | .shrink => True
  | .removeFirst z => IsCText z
  | .removeAll z => IsCText z ∧ textAt z ≠ []
  | .removeC c => IsCText c
  | .replace sub rsub => IsCText sub ∧ IsCText rsub
  | .replaceFirst sub rsub => IsCText sub ∧ IsCText rsub
  | .replaceC c r => IsCText c ∧ IsCText r
  | .toUpper => True
  | .toLower => True

/-- Specified outcomes of a history of editing calls: it stops at the first call that does not
return. -/
inductive StrRun (E : Env) : StrState → List StrOp → Out StrState → Prop
  | nil (s) : StrRun E s [] (.ok s)
  | cons {s s' op ops o} : StrStep E s op (.ok s') → StrRun E s' ops o → StrRun E s (op :: ops) o
  | stop {s op ops w} : StrStep E s op (.exit w) → StrRun E s (op :: ops) (.exit w)

/-- Every call of the history is legal in the state in which it is made, in whatever way the
specification resolves the earlier calls. -/
inductive LegalRun (E : Env) : StrState → List StrOp → Prop
  | nil (s) : LegalRun E s []
  | cons {s op ops} : Legal s.text op → (∀ s', StrStep E s op (.ok s') → LegalRun E s' ops) →
      LegalRun E s (op :: ops)

end Vita.Spec
