/-!
# Specification of text operations

What a user expects of string functions, on lists of characters.  Nothing here refers to the model.
-/

namespace Vita.Spec

/-- A text: its bytes, without the terminator. -/
abbrev Text := List UInt8

/-- `sub` occurs in `t` at position `i`. -/
def OccursAt (t sub : Text) (i : Nat) : Prop := ∃ a b, t = a ++ sub ++ b ∧ a.length = i

/-- `sub` occurs somewhere in `t`. -/
def Occurs (t sub : Text) : Prop := ∃ i, OccursAt t sub i

/-- `i` is the first position where `sub` occurs in `t`. -/
def IsFirst (t sub : Text) (i : Nat) : Prop := OccursAt t sub i ∧ ∀ j, j < i → ¬ OccursAt t sub j

/-- `i` is the last position where `sub` occurs in `t`. -/
def IsLast (t sub : Text) (i : Nat) : Prop := OccursAt t sub i ∧ ∀ j, i < j → ¬ OccursAt t sub j

/-- No two occurrences of `sub` in `t` overlap. -/
def NoOverlap (t sub : Text) : Prop :=
  ∀ i j, OccursAt t sub i → OccursAt t sub j → i < j → i + sub.length ≤ j

/-- Put `r` in place of the `n` characters at `i`. -/
def splice (t : Text) (i n : Nat) (r : Text) : Text := t.take i ++ r ++ t.drop (i + n)

/-- Walk over `t` from the left, jumping over each occurrence of `sub` that is met; `f` lists
the positions of these occurrences, offset by `k`.  (`skip` counts characters of the current
occurrence still to be passed.) -/
def scan (sub : Text) : (t : Text) → (k skip : Nat) → List Nat
  | [], _, _ => []
  | _ :: t, k, skip + 1 => scan sub t (k + 1) skip
  | c :: t, k, 0 =>
      if sub.isPrefixOf (c :: t) then k :: scan sub t (k + 1) (sub.length - 1)
      else scan sub t (k + 1) 0

/-- Positions of the non-overlapping occurrences of a non-empty `sub` in `t`, found from left to
right. -/
def positions (t sub : Text) : List Nat := scan sub t 0 0

/-- Replace the non-overlapping occurrences of a non-empty `sub`, found from left to right, by `r`.
(`skip` counts characters of the current occurrence still to be dropped.) -/
def replGo (sub r : Text) : (t : Text) → (skip : Nat) → Text
  | [], _ => []
  | _ :: t, skip + 1 => replGo sub r t skip
  | c :: t, 0 =>
      if sub.isPrefixOf (c :: t) then r ++ replGo sub r t (sub.length - 1) else c :: replGo sub r t 0

/-- Replace all non-overlapping occurrences, left to right. -/
def replaceAll (t sub r : Text) : Text := replGo sub r t 0

/-- All pieces of `t` between the non-overlapping occurrences of a non-empty `sep`, empty ones included.
`cur` is the piece being read. -/
def piecesGo (sep : Text) : (t : Text) → (skip : Nat) → (cur : Text) → List Text
  | [], _, cur => [cur]
  | _ :: t, skip + 1, cur => piecesGo sep t skip cur
  | c :: t, 0, cur =>
      if sep.isPrefixOf (c :: t) then cur :: piecesGo sep t (sep.length - 1) []
      else piecesGo sep t 0 (cur ++ [c])

/-- All pieces of `t` between the non-overlapping occurrences of `sep`, found from left to right. -/
def pieces (t sep : Text) : List Text := piecesGo sep t 0 []

/-- Texts written one after the other with `sep` in between. -/
def joinWith (sep : Text) : List Text → Text
  | [] => []
  | [a] => a
  | a :: b :: l => a ++ sep ++ joinWith sep (b :: l)

/-- `m` is `t` without its longest prefix and suffix of characters satisfying `p`. -/
def IsStrip (p : UInt8 → Bool) (t m : Text) : Prop :=
  ∃ a b, t = a ++ m ++ b ∧ (∀ c ∈ a, p c = true) ∧ (∀ c ∈ b, p c = true) ∧
    (∀ c, m.head? = some c → p c = false) ∧ (∀ c, m.getLast? = some c → p c = false)

/-- `u` results from `t` by deleting, again and again, the occurrence of `z` that is then the first. -/
inductive Deletes (z : Text) : Text → Text → Prop
  | done (t : Text) : Deletes z t t
  | step {t u : Text} {i : Nat} : IsFirst t z i → Deletes z (splice t i z.length []) u → Deletes z t u

/-- The character that takes the place of `x`: if `x` is the `j`-th character of `c` (the first such `j`),
the `j`-th character of `r`, or the last one of `r` if `r` is shorter; otherwise `x` itself. -/
def IsTranslated (c r : Text) (x y : UInt8) : Prop :=
  (x ∉ c ∧ y = x) ∨
  (∃ j, c[j]? = some x ∧ (∀ k, k < j → c[k]? ≠ some x) ∧
    ((j < r.length ∧ r[j]? = some y) ∨ (r.length ≤ j ∧ r.getLast? = some y)))

end Vita.Spec
