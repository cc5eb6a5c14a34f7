import Verif.Model.OwnerProg
/-!
# Several threads of control with their own containers

The library has no state of its own for containers (src/vita/container/*.c have no variables outside of functions): a call works on the containers it is
given, and on the allocator.  Here several pieces of code (`Model/OwnerLib.lean`) run in turns, each call as a whole, in an arbitrary order; all of them use the
same memory and the same tracking allocator.  Every piece of code numbers its containers itself; `mine` says which containers of the program these are.
Not modelled: calls of two threads at the same time.
-/

namespace Vita.Own

/-- A thread: the code that is left, and the containers it has created so far. -/
structure Thread (α : Type) where
  code : Prog α
  mine : List Nat

/-- The command on the containers of the program instead of those of the thread. -/
def Cmd.onto (m : List Nat) : Cmd → Option Cmd
  | .make tr x => some (.make tr x)
  | .makeLike i x => m[i]?.map fun g => .makeLike g x
  | .call i f => m[i]?.map fun g => .call g f
  | .dup i tr => m[i]?.map fun g => .dup g tr
  | .destroy i => m[i]?.map fun g => .destroy g

/-- Does the command create a container? -/
def Cmd.creates : Cmd → Bool
  | .make _ _ => true
  | .makeLike _ _ => true
  | .call _ _ => false
  | .dup _ _ => true
  | .destroy _ => false

/-- A turn of a thread: one call, or one look at a container.  A thread that is through stays as it is; one that ends the program ends it. -/
def Thread.turn : Thread α → Prog (Thread α)
  | ⟨.out (.ok a), m⟩ => .out (.ok ⟨.out (.ok a), m⟩)
  | ⟨.out (.exit w), _⟩ => .out (.exit w)
  | ⟨.out .ub, _⟩ => .out .ub
  | ⟨.out .fuel, _⟩ => .out .fuel
  | ⟨.cmd c k, m⟩ =>
    match c.onto m with
    | none => .out .ub
    | some c' => .next fun n => .cmd c' (.out (.ok ⟨k, if c.creates then m ++ [n] else m⟩))
  | ⟨.look i k, m⟩ =>
    match m[i]? with
    | none => .out .ub
    | some g => .look g fun o => .out (.ok ⟨k o, m⟩)
  | ⟨.next k, m⟩ => .out (.ok ⟨k m.length, m⟩)

/-- The threads take turns in the given order. -/
def weave : List Nat → List (Thread α) → Prog (List (Thread α))
  | [], ts => .out (.ok ts)
  | i :: order, ts =>
    match ts[i]? with
    | none => weave order ts
    | some t => t.turn >>= fun t' => weave order (ts.set i t')

end Vita.Own
