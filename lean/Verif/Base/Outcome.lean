/-!
# Outcomes of C code

The result of running a piece of C code: a value, a deliberate program termination, undefined
behaviour, or "the loop bound given to the model was not enough".
-/

namespace Vita

/-- Why the program was terminated on purpose.
* `dbgAssert`: a failed `VT_DEBUG_ASSERT` (inc/vita/util/debug.h:29-37), only in debug builds;
* `enforce`: a failed `VT_ENFORCE` (inc/vita/util/debug.h:43), in all builds;
* `cAssert`: a failed libc `assert`, only in debug builds;
* `alloc`: a refused memory request (src/vita/core/core.c:12-49), in all builds. -/
inductive Why
  | dbgAssert
  | enforce
  | cAssert
  | alloc
  deriving DecidableEq, Repr

/-- Outcome of running C code.  `exit` models `exit(EXIT_FAILURE)` in `vt_debug_assert`
(src/vita/util/debug.c:7-45) and in the allocation wrappers (src/vita/core/core.c:12-49);
`ub` is undefined behaviour of ISO C; `fuel` is a model artefact: the loop has not finished within
the number of iterations given to the model. -/
inductive Out (α : Type u) where
  | ok (a : α)
  | exit (w : Why)
  | ub
  | fuel
  deriving Repr, DecidableEq

namespace Out

/-- Sequencing: later code runs only if the earlier code returned. -/
@[simp] def bind {α : Type u} {β : Type v} : Out α → (α → Out β) → Out β
  | ok a, f => f a
  | exit w, _ => exit w
  | ub, _ => ub
  | fuel, _ => fuel

instance : Monad Out where
  pure := ok
  bind := bind

@[simp] theorem pure_def {α : Type u} (a : α) : (pure a : Out α) = ok a := (rfl)
@[simp] theorem bind_ok {α β : Type u} (a : α) (f : α → Out β) : (ok a >>= f) = f a := (rfl)
@[simp] theorem bind_exit {α β : Type u} (w) (f : α → Out β) : ((exit w : Out α) >>= f) = exit w := (rfl)
@[simp] theorem bind_ub {α β : Type u} (f : α → Out β) : ((ub : Out α) >>= f) = ub := (rfl)
@[simp] theorem bind_fuel {α β : Type u} (f : α → Out β) : ((fuel : Out α) >>= f) = fuel := (rfl)

theorem bind_assoc {α β γ : Type u} (x : Out α) (f : α → Out β) (g : β → Out γ) :
    ((x >>= f) >>= g) = (x >>= fun a => f a >>= g) := by cases x <;> rfl

instance : LawfulMonad Out := LawfulMonad.mk'
  (id_map := by intro α x; cases x <;> rfl)
  (pure_bind := by intros; rfl)
  (bind_assoc := by intro α β γ x f g; cases x <;> rfl)

/-- Apply a function to the returned value, if any. -/
@[simp] def mapOk {α : Type u} {β : Type v} (f : α → β) : Out α → Out β
  | ok a => ok (f a)
  | exit w => exit w
  | ub => ub
  | fuel => fuel

@[simp] theorem map_ok {α β : Type u} (f : α → β) (a : α) : f <$> (ok a : Out α) = ok (f a) := (rfl)

/-- The code did not run into undefined behaviour and did finish. -/
def Safe {α : Type u} (o : Out α) : Prop := o ≠ ub ∧ o ≠ fuel

@[simp] theorem bind_eq_ok {α β : Type u} {x : Out α} {f : α → Out β} {b : β} :
    (x >>= f) = ok b ↔ ∃ a, x = ok a ∧ f a = ok b := by cases x <;> simp

end Out

/-- The environment a program runs in.
* `debug`: debug build (no `NDEBUG`); in release builds `VT_DEBUG_ASSERT` (debug.h:34-36) and `assert`
  disappear;
* `allocOk n`: does the C library grant a request of `n` bytes?
* `isoMemcpy`: is `memcpy(p, p, n)` (source = destination) undefined, as ISO C says literally?  Every
  implementation in use tolerates it; `false` means tolerated.
* `lim`: no request of 2^56 bytes or more is granted (the user address space of x86-64 with five
  level paging). -/
structure Env where
  debug : Bool
  allocOk : Nat → Bool
  isoMemcpy : Bool
  lim : ∀ n, allocOk n = true → n < 2 ^ 56

/-- Some request for at most `B` bytes of memory is refused. -/
def Env.Refuses (E : Env) (B : Nat) : Prop := ∃ n, n ≤ B ∧ E.allocOk n = false

theorem Env.Refuses.le {E : Env} {B C : Nat} (h : E.Refuses B) (hl : B ≤ C) : E.Refuses C := by
  obtain ⟨n, hn, ha⟩ := h
  exact ⟨n, Nat.le_trans hn hl, ha⟩

/-- `VT_DEBUG_ASSERT(c, ...)`, inc/vita/util/debug.h:29-37 and src/vita/util/debug.c:7-45: exits in
debug builds if `c` is false, nothing in release builds.  The message printed is not modelled. -/
def dassert (E : Env) (c : Bool) : Out Unit :=
  if E.debug && !c then .exit .dbgAssert else .ok ()

/-- `VT_ENFORCE(c, ...)`, inc/vita/util/debug.h:43 and src/vita/util/debug.c:7-45: exits if `c` is
false, in all builds. -/
def enforce (c : Bool) : Out Unit :=
  if !c then .exit .enforce else .ok ()

/-- libc `assert(c)`: aborts in debug builds if `c` is false. -/
def cassert (E : Env) (c : Bool) : Out Unit :=
  if E.debug && !c then .exit .cAssert else .ok ()

@[simp] theorem dassert_true (E : Env) : dassert E true = .ok () := by simp [dassert]
@[simp] theorem enforce_true : enforce true = .ok () := by simp [enforce]
@[simp] theorem enforce_false : enforce false = .exit .enforce := by simp [enforce]
@[simp] theorem cassert_true (E : Env) : cassert E true = .ok () := by simp [cassert]

theorem dassert_false {E : Env} (h : E.debug = true) : dassert E false = .exit .dbgAssert := by
  simp [dassert, h]
theorem cassert_false {E : Env} (h : E.debug = true) : cassert E false = .exit .cAssert := by
  simp [cassert, h]
theorem dassert_release {E : Env} (h : E.debug = false) (c : Bool) : dassert E c = .ok () := by
  simp [dassert, h]
theorem cassert_release {E : Env} (h : E.debug = false) (c : Bool) : cassert E c = .ok () := by
  simp [cassert, h]

/-! ## `size_t` arithmetic (64 bit, wrapping) -/

/-- `a + b` in `size_t` (LP64: modulo 2^64). -/
def wadd (a b : Nat) : Nat := (a + b) % 2 ^ 64
/-- `a - b` in `size_t`. -/
def wsub (a b : Nat) : Nat := (a + (2 ^ 64 - b % 2 ^ 64)) % 2 ^ 64
/-- `a * b` in `size_t`. -/
def wmul (a b : Nat) : Nat := (a * b) % 2 ^ 64

theorem wadd_eq {a b : Nat} (h : a + b < 2 ^ 64) : wadd a b = a + b := Nat.mod_eq_of_lt h
theorem wmul_eq {a b : Nat} (h : a * b < 2 ^ 64) : wmul a b = a * b := Nat.mod_eq_of_lt h
theorem wsub_eq {a b : Nat} (h : b ≤ a) (h2 : a < 2 ^ 64) : wsub a b = a - b := by
  unfold wsub; omega

end Vita
