import Verif.Model.Owner
/-!
# The requests of a call agree with its effect on the contents
-/

namespace Vita
open Out Own

seal wadd wsub wmul

/-! ### Code that makes no request -/

/-- The code is not terminated by a refused memory request. -/
def NoAl (r : Out α) : Prop := r ≠ .exit .alloc

theorem NoAl.bind {r : Out α} {k : α → Out β} (h : NoAl r) (hk : ∀ a, r = .ok a → NoAl (k a)) : NoAl (r >>= k) := by
  cases r with
  | ok a => exact hk a rfl
  | exit w => intro e; simp at e; subst e; exact h rfl
  | _ => intro e; simp at e

theorem NoAl.ok (a : α) : NoAl (.ok a) := by simp [NoAl]
theorem NoAl.ub : NoAl (.ub : Out α) := by simp [NoAl]
theorem NoAl.fuel : NoAl (.fuel : Out α) := by simp [NoAl]
theorem NoAl.dassert (E : Env) (c : Bool) : NoAl (dassert E c) := by unfold Vita.dassert; split <;> simp [NoAl]
theorem NoAl.cassert (E : Env) (c : Bool) : NoAl (cassert E c) := by unfold Vita.cassert; split <;> simp [NoAl]
theorem NoAl.enforce (c : Bool) : NoAl (enforce c) := by unfold Vita.enforce; split <;> simp [NoAl]
theorem NoAl.readN (m : Mem) (o n : Nat) : NoAl (readN m o n) := by unfold Vita.readN; split <;> simp [NoAl]
theorem NoAl.writeN (m : Mem) (o : Nat) (b : List Byte) : NoAl (writeN m o b) := by unfold Vita.writeN; split <;> simp [NoAl]
theorem NoAl.getc (m : Mem) (i : Nat) : NoAl (getc m i) := by unfold Vita.getc; split <;> simp [NoAl]
theorem NoAl.putc (m : Mem) (i : Nat) (c : UInt8) : NoAl (putc m i c) := NoAl.writeN _ _ _
theorem NoAl.scanZ : ∀ m : Mem, NoAl (scanZ m)
  | [] => NoAl.ub
  | none :: _ => NoAl.ub
  | some c :: t => by
    unfold Vita.scanZ
    split
    · exact NoAl.ok _
    · exact (NoAl.scanZ t).bind fun _ _ => NoAl.ok _
theorem NoAl.strlen (m : Mem) : NoAl (strlen m) := (NoAl.scanZ m).bind fun _ _ => NoAl.ok _
theorem NoAl.cstrAt (m : Mem) (o : Nat) : NoAl (cstrAt m o) := by
  unfold Vita.cstrAt; split
  · exact NoAl.scanZ _
  · exact NoAl.ub
theorem NoAl.strstrAt (m : Mem) (o : Nat) (s : Mem) : NoAl (strstrAt m o s) :=
  (NoAl.cstrAt m o).bind fun _ _ => (NoAl.scanZ s).bind fun _ _ => NoAl.ok _
theorem NoAl.find (a : Arr) (s : Mem) : NoAl (Str.find a s) :=
  (NoAl.strlen s).bind fun _ _ => (NoAl.enforce _).bind fun _ _ => NoAl.strstrAt _ _ _
theorem NoAl.indexFind (a : Arr) (s : Mem) : NoAl (Str.indexFind a s) :=
  (NoAl.find a s).bind fun r _ => by cases r <;> exact NoAl.ok _
theorem NoAl.lastInstance (m z : Mem) (n : Nat) : ∀ (k p : Nat), NoAl (Str.lastInstance m z n k p)
  | 0, _ => NoAl.fuel
  | k + 1, p => by
    unfold Str.lastInstance
    refine (NoAl.strstrAt m _ z).bind fun r _ => ?_
    cases r with
    | none => exact NoAl.ok _
    | some q => exact NoAl.lastInstance m z n k q
theorem NoAl.leValue : ∀ b : List Byte, NoAl (Vec.leValue b)
  | [] => NoAl.ok _
  | none :: _ => NoAl.ub
  | some _ :: t => (NoAl.leValue t).bind fun _ _ => NoAl.ok _
theorem NoAl.loadPtr (m : Mem) (i : Nat) : NoAl (loadPtr m i) :=
  (NoAl.readN _ _ _).bind fun _ _ => (NoAl.leValue _).bind fun _ _ => NoAl.ok _
theorem NoAl.plCanFindLoop (p : Arr) (q : Ptr) : ∀ k i, NoAl (Plist.canFindLoop p q k i)
  | 0, _ => NoAl.ok _
  | k + 1, i => by
    unfold Plist.canFindLoop
    refine (NoAl.loadPtr _ _).bind fun x _ => ?_
    split
    · exact NoAl.ok _
    · exact NoAl.plCanFindLoop p q k (i + 1)
theorem NoAl.strnlen : ∀ (m : Mem) (n : Nat), NoAl (strnlen m n)
  | _, 0 => by unfold Vita.strnlen; exact NoAl.ok _
  | [], n + 1 => NoAl.ub
  | none :: _, n + 1 => NoAl.ub
  | some c :: t, n + 1 => by
    unfold Vita.strnlen
    split
    · exact NoAl.ok _
    · exact (NoAl.strnlen t n).bind fun _ _ => NoAl.ok _
theorem NoAl.stripFront (p : UInt8 → Bool) (m : Mem) : ∀ k o, NoAl (Str.stripFront p m k o)
  | 0, _ => NoAl.fuel
  | k + 1, o => by
    unfold Str.stripFront
    refine (NoAl.getc _ _).bind fun x _ => ?_
    split
    · exact NoAl.stripFront p m k _
    · exact NoAl.ok _
theorem NoAl.stripBack (p : UInt8 → Bool) (m : Mem) (o : Nat) : ∀ k l, NoAl (Str.stripBack p m o k l)
  | 0, _ => NoAl.fuel
  | k + 1, l => by
    unfold Str.stripBack
    refine (NoAl.getc _ _).bind fun x _ => ?_
    split
    · exact NoAl.stripBack p m o k _
    · exact NoAl.ok _
theorem NoAl.stripCFront (c : List UInt8) (m : Mem) : ∀ k o, NoAl (Str.stripCFront c m k o)
  | 0, _ => NoAl.fuel
  | k + 1, o => by
    unfold Str.stripCFront
    refine (NoAl.getc _ _).bind fun x _ => ?_
    dsimp only
    split
    · exact NoAl.stripCFront c m k _
    · split
      · exact NoAl.ok _
      · exact NoAl.stripCFront c m k _
theorem NoAl.stripCBack (c : List UInt8) (m : Mem) (o : Nat) : ∀ k l, NoAl (Str.stripCBack c m o k l)
  | 0, _ => NoAl.fuel
  | k + 1, l => by
    unfold Str.stripCBack
    refine (NoAl.getc _ _).bind fun x _ => ?_
    dsimp only
    split
    · exact NoAl.stripCBack c m o k _
    · split
      · exact NoAl.ok _
      · exact NoAl.stripCBack c m o k _

/-! ### Requests -/

/-- The sizes of all blocks requested. -/
def reqSizes : List Req → List Nat
  | [] => []
  | .own n :: rs => n :: reqSizes rs
  | .tmp n :: rs => n :: reqSizes rs
  | .tmpStr n k inner :: rs => arrStructSize :: n :: k :: inner ++ reqSizes rs

/-- The sizes of all requests that go to the allocator of the container are positive (the others only in debug builds). -/
def ReqPos (E : Env) : List Req → Prop
  | [] => True
  | .own n :: rs => 0 < n ∧ ReqPos E rs
  | .tmp n :: rs => (E.debug = true → 0 < n) ∧ ReqPos E rs
  | .tmpStr n k inner :: rs => 0 < n ∧ 0 < k ∧ (∀ x ∈ inner, 0 < x) ∧ ReqPos E rs

/-- The size of a block after some reallocations. -/
def lastSize (n : Nat) (l : List Nat) : Nat := l.getLast?.getD n

/-- The size of the buffer after the requests, if it was `n`. -/
def reqFinal (n : Nat) : List Req → Nat
  | [] => n
  | .own k :: rs => reqFinal k rs
  | .tmp _ :: rs => reqFinal n rs
  | .tmpStr _ _ inner :: rs => reqFinal (lastSize n inner) rs

theorem reqSizes_append (a b : List Req) : reqSizes (a ++ b) = reqSizes a ++ reqSizes b := by
  induction a with
  | nil => rfl
  | cons x a ih => cases x <;> simp [reqSizes, ih]

theorem ReqPos_append (E : Env) (a b : List Req) : ReqPos E (a ++ b) ↔ ReqPos E a ∧ ReqPos E b := by
  induction a with
  | nil => simp [ReqPos]
  | cons x a ih => cases x <;> simp [ReqPos, ih, and_assoc]

theorem reqFinal_append (n : Nat) (a b : List Req) : reqFinal n (a ++ b) = reqFinal (reqFinal n a) b := by
  induction a generalizing n with
  | nil => rfl
  | cons x a ih => cases x <;> simp [reqFinal, ih]

/-- The outcome `r` of a call on a container with a buffer of `n` bytes agrees with the list of requests `rs`: if it returns, all of them were
granted and the new buffer (`len`) has the size last requested for it; if it ends because memory was refused, one of them was refused (a buffer of 0
bytes cannot be had). -/
structure Fai (E : Env) (len : β → Nat) (r : Out β) (rs : List Req) (n : Nat) : Prop where
  granted : ∀ b, r = .ok b → (∀ k ∈ reqSizes rs, E.allocOk k = true) ∧ ReqPos E rs ∧ reqFinal n rs = len b
  refused : r = .exit .alloc → ∃ k ∈ reqSizes rs, E.allocOk k = false ∨ k = 0

variable {E : Env} {β γ : Type} {len : β → Nat} {len' : γ → Nat}

theorem Fai.ok {b : β} {n : Nat} (h : len b = n) : Fai E len (.ok b) [] n :=
  ⟨by intro b' e; injection e with e; subst e; exact ⟨by simp [reqSizes], trivial, h.symm⟩, by intro e; cases e⟩

theorem Fai.stop {r : Out β} {rs : List Req} {n : Nat} (h : NoAl r) (h2 : ∀ b, r ≠ .ok b) : Fai E len r rs n :=
  ⟨fun b e => absurd e (h2 b), fun e => absurd e h⟩

theorem Fai.read {r : Out γ} {k : γ → Out β} {rs : List Req} {n : Nat} (h : NoAl r) (hk : ∀ c, r = .ok c → Fai E len (k c) rs n) :
    Fai E len (r >>= k) rs n := by
  cases r with
  | ok c => exact hk c rfl
  | exit w => exact Fai.stop (NoAl.bind h fun _ e => by cases e) (by intro b e; cases e)
  | _ => exact Fai.stop (NoAl.bind h fun _ e => by cases e) (by intro b e; cases e)

theorem Fai.readThen {r : Out γ} {k : γ → Out β} {f : γ → List Req} {n : Nat} (h : NoAl r) (hk : ∀ c, r = .ok c → Fai E len (k c) (f c) n) :
    Fai E len (r >>= k) (andThen r f) n := by
  cases r with
  | ok c => exact hk c rfl
  | exit w => exact Fai.stop (NoAl.bind h fun _ e => by cases e) (by intro b e; cases e)
  | _ => exact Fai.stop (NoAl.bind h fun _ e => by cases e) (by intro b e; cases e)

theorem Fai.bindThen {r : Out γ} {k : γ → Out β} {rs : List Req} {f : γ → List Req} {n : Nat} (h : Fai E len' r rs n)
    (hk : ∀ c, r = .ok c → Fai E len (k c) (f c) (len' c)) : Fai E len (r >>= k) (rs ++ andThen r f) n := by
  cases r with
  | ok c =>
    obtain ⟨g1, g2, g3⟩ := h.granted c rfl
    have hc := hk c rfl
    constructor
    · intro b e
      obtain ⟨q1, q2, q3⟩ := hc.granted b e
      refine ⟨?_, (ReqPos_append _ _ _).2 ⟨g2, q2⟩, by rw [reqFinal_append, g3]; exact q3⟩
      intro x hx
      rw [reqSizes_append, List.mem_append] at hx
      exact hx.elim (g1 x) (q1 x)
    · intro e
      obtain ⟨x, hx, hx2⟩ := hc.refused e
      exact ⟨x, by rw [reqSizes_append]; exact List.mem_append_right _ hx, hx2⟩
  | exit w =>
    constructor
    · intro b e; cases e
    · intro e
      simp at e; subst e
      obtain ⟨x, hx, hx2⟩ := h.refused rfl
      exact ⟨x, by rw [reqSizes_append]; exact List.mem_append_left _ hx, hx2⟩
  | _ => exact Fai.stop (by simp [NoAl]) (by intro b e; cases e)

theorem Fai.bind {r : Out γ} {k : γ → Out β} {rs : List Req} {n : Nat} (h : Fai E len' r rs n)
    (hk : ∀ c, r = .ok c → Fai E len (k c) [] (len' c)) : Fai E len (r >>= k) rs n := by
  have := Fai.bindThen (f := fun _ => []) h hk
  have e : andThen r (fun _ : γ => ([] : List Req)) = [] := by cases r <;> rfl
  rwa [e, List.append_nil] at this

theorem Fai.quietThen {r : Out γ} {k : γ → Out β} {f : γ → List Req} {n : Nat} (h : Fai E len' r [] n)
    (hk : ∀ c, r = .ok c → Fai E len (k c) (f c) (len' c)) : Fai E len (r >>= k) (andThen r f) n := Fai.bindThen h hk

/-! ### Memory primitives -/

theorem fai_writeN (m : Mem) (o : Nat) (b : List Byte) : Fai E List.length (writeN m o b) [] m.length := by
  unfold writeN
  split
  · refine Fai.ok ?_
    simp; omega
  · exact Fai.stop NoAl.ub (by simp)

theorem fai_putc (m : Mem) (i : Nat) (c : UInt8) : Fai E List.length (putc m i c) [] m.length := fai_writeN _ _ _

theorem fai_memmove (m : Mem) (d s n : Nat) : Fai E List.length (memmove m d s n) [] m.length :=
  Fai.read (NoAl.readN _ _ _) fun _ _ => fai_writeN _ _ _

theorem fai_vtMemmove (m : Mem) (d s n : Nat) : Fai E List.length (vtMemmove m d s n) [] m.length := by
  unfold vtMemmove; split
  · exact Fai.ok rfl
  · exact fai_memmove _ _ _ _

theorem fai_memcpyIn (m : Mem) (d : Nat) (s : Mem) (n : Nat) : Fai E List.length (memcpyIn m d s n) [] m.length :=
  Fai.read (NoAl.readN _ _ _) fun _ _ => fai_writeN _ _ _

theorem fai_vtMemcpyIn (m : Mem) (d : Nat) (s : Mem) (n : Nat) : Fai E List.length (vtMemcpyIn m d s n) [] m.length := by
  unfold vtMemcpyIn; split
  · exact Fai.ok rfl
  · exact fai_memcpyIn _ _ _ _

theorem fai_vtMemset (m : Mem) (d : Nat) (b : UInt8) (n : Nat) : Fai E List.length (vtMemset m d b n) [] m.length := by
  unfold vtMemset; split
  · exact Fai.ok rfl
  · exact fai_writeN _ _ _

theorem fai_vtRealloc (m : Mem) (n : Nat) : Fai E List.length (vtRealloc E m n) [.own n] m.length := by
  unfold vtRealloc
  refine Fai.read (NoAl.cassert _ _) fun _ _ => ?_
  split
  · -- `n = 0` ends the program like a refused request
    rename_i h0
    constructor
    · intro b e; cases e
    · intro _
      exact ⟨n, by simp [reqSizes], Or.inr h0⟩
  · split
    · rename_i h0 ha
      refine ⟨?_, by intro e; cases e⟩
      intro b e
      injection e with e
      subst e
      refine ⟨by simpa [reqSizes] using ha, ⟨by omega, trivial⟩, ?_⟩
      simp [reqFinal]; omega
    · rename_i h0 ha
      exact ⟨(by intro b e; cases e), fun _ => ⟨n, by simp [reqSizes], Or.inl (by simpa using ha)⟩⟩


/-- The size of the buffer. -/
def bufLen (a : Arr) : Nat := a.mem.length

theorem Fai.okMem {a b : Arr} (h : b.mem = a.mem) : Fai E bufLen (.ok b) [] (bufLen a) := Fai.ok (congrArg List.length h)

/-! ### Vectors -/

theorem fai_vecReserve (a : Arr) (n : Nat) : Fai E bufLen (Vec.reserve E a n) [.own (wmul (wadd a.cap n) a.elsize)] (bufLen a) :=
  Fai.read (NoAl.dassert _ _) fun _ _ => (fai_vtRealloc _ _).bind fun _ _ => Fai.ok rfl

theorem fai_vecGrow (a : Arr) : Fai E bufLen (Vec.grow E a) (growReq a) (bufLen a) := by
  unfold Vec.grow growReq; split
  · exact fai_vecReserve _ _
  · exact Fai.ok rfl

theorem fai_vecPushBack (a : Arr) (x : Mem) : Fai E bufLen (Vec.pushBack E a x) (growReq a) (bufLen a) :=
  (fai_vecGrow a).bind fun _ _ => (fai_memcpyIn _ _ _ _).bind fun _ _ => Fai.ok rfl

theorem fai_vecInsert (a : Arr) (x : Mem) (i : Nat) : Fai E bufLen (Vec.insert E a x i) (growReq a) (bufLen a) :=
  Fai.read (NoAl.dassert _ _) fun _ _ => (fai_vecGrow a).bind fun _ _ => (fai_vtMemmove _ _ _ _).bind fun _ _ =>
    (fai_memcpyIn _ _ _ _).bind fun _ _ => Fai.ok rfl

theorem fai_vecPushFront (a : Arr) (x : Mem) : Fai E bufLen (Vec.pushFront E a x) (growReq a) (bufLen a) := by
  unfold Vec.pushFront; split
  · exact fai_vecInsert _ _ _
  · exact fai_vecPushBack _ _

theorem fai_vecSet (a : Arr) (x : Mem) (i : Nat) : Fai E bufLen (Vec.set E a x i) [] (bufLen a) :=
  Fai.read (NoAl.dassert _ _) fun _ _ => Fai.read (NoAl.dassert _ _) fun _ _ => (fai_memcpyIn _ _ _ _).bind fun _ _ => Fai.ok rfl

theorem fai_gswap (m : Mem) (a b n : Nat) : Fai E List.length (gswap E m a b n) [.tmp n] m.length := by
  unfold gswap
  refine Fai.read (NoAl.cassert _ _) fun _ _ => ?_
  have h : ∀ k : Mem → Out Mem, (∀ t, Fai E List.length (k t) [] m.length) → Fai E List.length (vtCalloc E n >>= k) [.tmp n] m.length := by
    intro k hk
    unfold vtCalloc
    cases hc : cassert E (decide (n > 0)) with
    | ok _ =>
      rw [bind_ok]
      by_cases ha : E.allocOk n = true
      · rw [if_pos ha, bind_ok]
        refine ⟨fun b e => ?_, fun e => ?_⟩
        · obtain ⟨-, -, g⟩ := (hk _).granted b e
          refine ⟨by simpa [reqSizes] using ha, ⟨fun hE => ?_, trivial⟩, g⟩
          by_cases hn : n > 0
          · exact hn
          · rw [decide_eq_false hn, cassert_false hE] at hc; cases hc
        · obtain ⟨x, hx, -⟩ := (hk _).refused e
          simp [reqSizes] at hx
      · rw [if_neg ha]
        exact ⟨(by intro b e; cases e), fun _ => ⟨n, by simp [reqSizes], Or.inl (by simpa using ha)⟩⟩
    | exit w =>
      refine Fai.stop ?_ (by intro b e; cases e)
      have := NoAl.cassert E (decide (n > 0))
      rw [hc] at this
      intro e; simp at e; subst e; exact this rfl
    | _ => exact Fai.stop (by simp [NoAl]) (by intro b e; cases e)
  refine h _ fun _ => Fai.read (NoAl.readN _ _ _) fun _ _ => Fai.read (NoAl.readN _ _ _) fun _ _ => ?_
  split
  · split
    · exact Fai.stop NoAl.ub (by simp)
    · exact (fai_writeN _ _ _).bind fun _ _ => fai_writeN _ _ _
  · split
    · exact Fai.stop NoAl.ub (by simp)
    · exact (fai_writeN _ _ _).bind fun _ _ => fai_writeN _ _ _

theorem fai_vecRemove (a : Arr) (i : Nat) (rs : Strategy) :
    Fai E bufLen (Vec.remove E a i rs) (Call.reqs E a (.vecRemove i rs)) (bufLen a) := by
  refine Fai.read (NoAl.dassert _ _) fun _ _ => ?_
  cases rs with
  | stable => exact (fai_vtMemmove _ _ _ _).bind fun _ _ => Fai.ok rfl
  | fast => exact (fai_gswap _ _ _ _).bind fun _ _ => Fai.ok rfl

theorem fai_popBody (a : Arr) (l : Nat) (r : Out β) (g : β → γ) (h : NoAl r) :
    Fai E bufLen ((r >>= fun x => .ok (({ a with len := l } : Arr), g x)) >>= fun r => .ok r.1) [] (bufLen a) := by
  rw [bind_assoc]
  exact Fai.read h fun _ _ => Fai.okMem rfl

theorem fai_vecPopGet (a : Arr) : Fai E bufLen (Vec.popGet a >>= fun r => .ok r.1) [] (bufLen a) := by
  unfold Vec.popGet; split
  · exact fai_popBody a _ _ _ (NoAl.readN _ _ _)
  · exact Fai.ok rfl

theorem fai_vecResize (a : Arr) (n : Nat) : Fai E bufLen (Vec.resize E a n) (if n = a.cap then [] else [.own (wmul n a.elsize)]) (bufLen a) := by
  refine Fai.read (NoAl.dassert _ _) fun _ _ => ?_
  split
  · exact Fai.ok rfl
  · exact (fai_vtRealloc _ _).bind fun _ _ => Fai.ok rfl

theorem fai_vecShrink (a : Arr) : Fai E bufLen (Vec.shrink E a) (if a.len = a.cap then [] else [.own (wmul a.len a.elsize)]) (bufLen a) := by
  unfold Vec.shrink
  split
  · exact Fai.ok rfl
  · exact (fai_vtRealloc _ _).bind fun _ _ => Fai.ok rfl

/-! ### Pointer lists -/

theorem fai_plReserve (a : Arr) (n : Nat) : Fai E bufLen (Plist.reserve E a n) [.own (wmul (wadd a.cap n) a.elsize)] (bufLen a) :=
  Fai.read (NoAl.dassert _ _) fun _ _ => (fai_vtRealloc _ _).bind fun _ _ => Fai.ok rfl

theorem fai_plGrow (a : Arr) : Fai E bufLen (Plist.grow E a) (growReq a) (bufLen a) := by
  unfold Plist.grow growReq; split
  · exact fai_plReserve _ _
  · exact Fai.ok rfl

theorem fai_plPushBack (a : Arr) (q : Ptr) : Fai E bufLen (Plist.pushBack E a q) (growReq a) (bufLen a) :=
  Fai.read (NoAl.dassert _ _) fun _ _ => (fai_plGrow a).bind fun _ _ => (fai_writeN _ _ _).bind fun _ _ => Fai.ok rfl

theorem fai_plInsert (a : Arr) (q : Ptr) (i : Nat) : Fai E bufLen (Plist.insert E a q i) (growReq a) (bufLen a) :=
  Fai.read (NoAl.dassert _ _) fun _ _ => Fai.read (NoAl.dassert _ _) fun _ _ => (fai_plGrow a).bind fun _ _ =>
    (fai_vtMemmove _ _ _ _).bind fun _ _ => (fai_writeN _ _ _).bind fun _ _ => Fai.ok rfl

theorem fai_plPushFront (a : Arr) (q : Ptr) : Fai E bufLen (Plist.pushFront E a q) (growReq a) (bufLen a) := by
  refine Fai.read (NoAl.dassert _ _) fun _ _ => ?_
  split
  · exact fai_plInsert _ _ _
  · exact fai_plPushBack _ _

theorem fai_plSet (a : Arr) (q : Ptr) (i : Nat) : Fai E bufLen (Plist.set E a q i) [] (bufLen a) :=
  Fai.read (NoAl.dassert _ _) fun _ _ => Fai.read (NoAl.dassert _ _) fun _ _ => (fai_writeN _ _ _).bind fun _ _ => Fai.ok rfl

theorem fai_plRemove (a : Arr) (i : Nat) (rs : Strategy) : Fai E bufLen (Plist.remove E a i rs) [] (bufLen a) := by
  refine Fai.read (NoAl.dassert _ _) fun _ _ => ?_
  cases rs with
  | stable => exact (fai_vtMemmove _ _ _ _).bind fun _ _ => Fai.ok rfl
  | fast =>
    refine Fai.bind (len' := List.length) ?_ fun _ _ => Fai.ok rfl
    exact Fai.read (NoAl.readN _ _ _) fun _ _ => Fai.read (NoAl.readN _ _ _) fun _ _ => (fai_writeN _ _ _).bind fun _ _ => fai_writeN _ _ _

theorem fai_plRemoveElement (a : Arr) (q : Ptr) (rs : Strategy) : Fai E bufLen (Plist.removeElement E a q rs) [] (bufLen a) := by
  unfold Plist.removeElement
  first
  | refine Fai.read (NoAl.dassert _ _) fun _ _ => ?_
  | skip
  refine Fai.read ?_ fun _ _ => ?_
  · exact (NoAl.dassert _ _).bind fun _ _ => NoAl.plCanFindLoop _ _ _ _
  · split
    · exact fai_plRemove _ _ _
    · exact Fai.ok rfl

theorem fai_plPopGet (a : Arr) : Fai E bufLen (Plist.popGet a >>= fun r => .ok r.1) [] (bufLen a) := by
  unfold Plist.popGet; split
  · exact fai_popBody a _ _ _ (NoAl.loadPtr _ _)
  · exact Fai.ok rfl

theorem fai_plResize (a : Arr) (n : Nat) : Fai E bufLen (Plist.resize E a n) (if n = a.cap then [] else [.own (wmul n a.elsize)]) (bufLen a) := by
  refine Fai.read (NoAl.dassert _ _) fun _ _ => ?_
  split
  · exact Fai.ok rfl
  · exact (fai_vtRealloc _ _).bind fun _ _ => Fai.ok rfl

theorem fai_plShrink (a : Arr) : Fai E bufLen (Plist.shrink E a) (if a.len = a.cap then [] else [.own (wmul a.len a.elsize)]) (bufLen a) := by
  unfold Plist.shrink
  split
  · exact Fai.ok rfl
  · exact (fai_vtRealloc _ _).bind fun _ _ => Fai.ok rfl

/-! ### Strings -/

theorem fai_strReserve (a : Arr) (n : Nat) : Fai E bufLen (Str.reserve E a n) [.own (wmul (wadd (wadd a.cap n) 1) a.elsize)] (bufLen a) :=
  Fai.read (NoAl.dassert _ _) fun _ _ => Fai.read (NoAl.enforce _) fun _ _ => (fai_vtRealloc _ _).bind fun _ _ =>
    (fai_putc _ _ _).bind fun _ _ => Fai.ok rfl

theorem fai_strResize (a : Arr) (n : Nat) : Fai E bufLen (Str.resize E a n) [.own (wmul (wadd n 1) a.elsize)] (bufLen a) :=
  Fai.read (NoAl.dassert _ _) fun _ _ => Fai.read (NoAl.enforce _) fun _ _ => (fai_vtRealloc _ _).bind fun _ _ =>
    (fai_putc _ _ _).bind fun _ _ => Fai.ok rfl

theorem fai_strShrink (a : Arr) :
    Fai E bufLen (Str.shrink E a) (if a.len = a.cap then [] else [.own (wmul (wadd a.len 1) a.elsize)]) (bufLen a) := by
  refine Fai.read (NoAl.enforce _) fun _ _ => ?_
  split
  · exact Fai.ok rfl
  · exact (fai_vtRealloc _ _).bind fun _ _ => (fai_putc _ _ _).bind fun _ _ => Fai.ok rfl

theorem fai_strClear (a : Arr) : Fai E bufLen (Str.clear a) [] (bufLen a) := (fai_putc _ _ _).bind fun _ _ => Fai.ok rfl

theorem fai_strGrow (a : Arr) (n : Nat) : Fai E bufLen (Str.grow E a n) ((strGrowReq a n).map .own) (bufLen a) := by
  unfold Str.grow strGrowReq; split
  · exact fai_strReserve _ _
  · exact Fai.ok rfl

theorem fai_appendN (a : Arr) (z : Mem) (n : Nat) : Fai E bufLen (Str.appendN E a z n) ((strGrowReq a n).map .own) (bufLen a) :=
  Fai.read (NoAl.dassert _ _) fun _ _ => (fai_strGrow a n).bind fun _ _ => (fai_vtMemcpyIn _ _ _ _).bind fun _ _ =>
    (fai_putc _ _ _).bind fun _ _ => Fai.ok rfl

theorem fai_append (a : Arr) (z : Mem) : Fai E bufLen (Str.append E a z) (strTextReq a z) (bufLen a) :=
  Fai.readThen (NoAl.strlen _) fun _ _ => fai_appendN _ _ _

theorem fai_appendf (a : Arr) (out : List UInt8) : Fai E bufLen (Str.appendf E a out) ((strGrowReq a out.length).map .own) (bufLen a) :=
  (fai_strGrow a _).bind fun _ _ => (fai_writeN _ _ _).bind fun _ _ => (fai_putc _ _ _).bind fun _ _ => Fai.ok rfl

theorem fai_insertN (a : Arr) (z : Mem) (i n : Nat) : Fai E bufLen (Str.insertN E a z i n) ((strGrowReq a n).map .own) (bufLen a) :=
  Fai.read (NoAl.dassert _ _) fun _ _ => (fai_strGrow a n).bind fun _ _ => (fai_vtMemmove _ _ _ _).bind fun _ _ =>
    (fai_vtMemcpyIn _ _ _ _).bind fun _ _ => (fai_putc _ _ _).bind fun _ _ => Fai.ok rfl

theorem fai_insert (a : Arr) (z : Mem) (i : Nat) : Fai E bufLen (Str.insert E a z i) (strTextReq a z) (bufLen a) :=
  Fai.read (NoAl.dassert _ _) fun _ _ => Fai.readThen (NoAl.strlen _) fun _ _ => (fai_strGrow a _).bind fun _ _ =>
    (fai_vtMemmove _ _ _ _).bind fun _ _ => (fai_vtMemcpyIn _ _ _ _).bind fun _ _ => (fai_putc _ _ _).bind fun _ _ => Fai.ok rfl

theorem fai_remove (a : Arr) (i n : Nat) : Fai E bufLen (Str.remove E a i n) [] (bufLen a) :=
  Fai.read (NoAl.dassert _ _) fun _ _ => Fai.read (NoAl.dassert _ _) fun _ _ => (fai_vtMemmove _ _ _ _).bind fun _ _ =>
    (fai_putc _ _ _).bind fun _ _ => Fai.ok rfl

theorem fai_setN (a : Arr) (z : Mem) (n : Nat) : Fai E bufLen (Str.setN E a z n) [] (bufLen a) :=
  Fai.read (NoAl.dassert _ _) fun _ _ => Fai.read (NoAl.enforce _) fun _ _ => (fai_vtMemcpyIn _ _ _ _).bind fun _ _ =>
    (fai_putc _ _ _).bind fun _ _ => Fai.ok rfl

theorem fai_setAt (a : Arr) (z : Mem) (i : Nat) : Fai E bufLen (Str.setAt E a z i) (Call.reqs E a (.setAt z i)) (bufLen a) :=
  Fai.read (NoAl.dassert _ _) fun _ _ => Fai.readThen (NoAl.strlen _) fun _ _ => Fai.read (NoAl.enforce _) fun _ _ =>
    Fai.quietThen (fai_remove _ _ _) fun _ _ => fai_appendN _ _ _

theorem fai_insertBefore (a : Arr) (sub z : Mem) :
    Fai E bufLen (Str.insertBefore E a sub z) (Call.reqs E a (.insertBefore sub z)) (bufLen a) :=
  Fai.readThen (NoAl.indexFind _ _) fun _ _ => by
    split
    · exact Fai.ok rfl
    · exact fai_insert _ _ _

theorem fai_insertAfter (a : Arr) (sub z : Mem) :
    Fai E bufLen (Str.insertAfter E a sub z) (Call.reqs E a (.insertAfter sub z)) (bufLen a) :=
  Fai.readThen (NoAl.indexFind _ _) fun _ _ => by
    split
    · exact Fai.ok rfl
    · exact Fai.read (NoAl.strlen _) fun _ _ => fai_insert _ _ _

theorem fai_removeFirst (a : Arr) (z : Mem) : Fai E (fun r : Arr × Bool => bufLen r.1) (Str.removeFirst a z) [] (bufLen a) :=
  Fai.read (NoAl.strstrAt _ _ _) fun r _ => by
    cases r with
    | none => exact Fai.ok rfl
    | some i =>
      exact Fai.read (NoAl.strlen _) fun _ _ => (fai_vtMemmove _ _ _ _).bind fun _ _ => (fai_putc _ _ _).bind fun _ _ => Fai.ok rfl

theorem fai_removeLast (k : Nat) (a : Arr) (z : Mem) : Fai E (fun r : Arr × Bool => bufLen r.1) (Str.removeLast E k a z) [] (bufLen a) :=
  Fai.read (NoAl.strlen _) fun _ _ => Fai.read (NoAl.strstrAt _ _ _) fun r _ => by
    cases r with
    | none => exact Fai.stop NoAl.ub (by simp)
    | some p => exact Fai.read (NoAl.lastInstance _ _ _ _ _) fun _ _ => (fai_remove _ _ _).bind fun _ _ => Fai.ok rfl

theorem fai_removeAll (z : Mem) : ∀ (k : Nat) (a : Arr), Fai E bufLen (Str.removeAll k a z) [] (bufLen a)
  | 0, _ => Fai.stop NoAl.fuel (by intro b e; cases e)
  | k + 1, a => by
    refine (fai_removeFirst a z).bind fun r _ => ?_
    split
    · exact fai_removeAll z k _
    · exact Fai.ok rfl

theorem fai_removeCLoop (c : List UInt8) : ∀ (k : Nat) (m : Mem) (i o : Nat),
    Fai E (fun r : Mem × Nat => r.1.length) (Str.removeCLoop c k m i o) [] m.length
  | 0, _, _, _ => Fai.ok rfl
  | k + 1, m, i, o => by
    refine Fai.read (NoAl.getc _ _) fun x _ => ?_
    split
    · exact fai_removeCLoop c k m _ _
    · exact (fai_putc _ _ _).bind fun m' _ => fai_removeCLoop c k m' _ _

theorem fai_removeC (a : Arr) (c : Mem) : Fai E bufLen (Str.removeC a c) [] (bufLen a) :=
  Fai.read (NoAl.scanZ _) fun _ _ => (fai_removeCLoop _ _ _ _ _).bind fun _ _ => (fai_putc _ _ _).bind fun _ _ => Fai.ok rfl

theorem fai_replaceAt (a : Arr) (i n r : Nat) (z : Mem) : Fai E bufLen (Str.replaceAt E a i n r z) (replaceAtReq E a i n r z) (bufLen a) := by
  unfold Str.replaceAt replaceAtReq
  split
  · exact (fai_vtMemcpyIn _ _ _ _).bind fun _ _ => Fai.ok rfl
  · refine Fai.quietThen (fai_remove _ _ _) fun _ _ => ?_
    split
    · exact fai_insert _ _ _
    · exact fai_append _ _

theorem fai_replaceLoop (sub z : Mem) (n r : Nat) : ∀ (k : Nat) (a : Arr) (p : Nat),
    Fai E bufLen (Str.replaceLoop E sub z n r k a p) (replaceLoopReq E sub z n r k a p) (bufLen a)
  | 0, _, _ => Fai.stop NoAl.fuel (by intro b e; cases e)
  | k + 1, a, p => by
    refine Fai.readThen (NoAl.strstrAt _ _ _) fun q _ => ?_
    cases q with
    | none => exact Fai.ok rfl
    | some i => exact Fai.bindThen (fai_replaceAt _ _ _ _ _) fun a' _ => fai_replaceLoop sub z n r k a' _

theorem fai_replace (k : Nat) (a : Arr) (sub z : Mem) : Fai E bufLen (Str.replace E k a sub z) (Call.reqs E a (.replace k sub z)) (bufLen a) :=
  Fai.readThen (NoAl.strlen _) fun n _ => Fai.readThen (NoAl.strlen _) fun r _ => by
    split
    · exact Fai.ok rfl
    · exact fai_replaceLoop _ _ _ _ _ _ _

theorem fai_replaceFirst (a : Arr) (sub z : Mem) : Fai E bufLen (Str.replaceFirst E a sub z) (Call.reqs E a (.replaceFirst sub z)) (bufLen a) :=
  Fai.readThen (NoAl.strlen _) fun n _ => Fai.readThen (NoAl.strlen _) fun r _ => by
    split
    · exact Fai.ok rfl
    · refine Fai.readThen (NoAl.find _ _) fun q _ => ?_
      cases q with
      | none => exact Fai.ok rfl
      | some i => exact fai_replaceAt _ _ _ _ _

theorem fai_replaceLast (k : Nat) (a : Arr) (sub z : Mem) :
    Fai E bufLen (Str.replaceLast E k a sub z) (Call.reqs E a (.replaceLast k sub z)) (bufLen a) :=
  Fai.readThen (NoAl.strlen _) fun n _ => Fai.readThen (NoAl.strlen _) fun r _ => by
    split
    · exact Fai.ok rfl
    · refine Fai.readThen (NoAl.strstrAt _ _ _) fun q _ => ?_
      cases q with
      | none => exact Fai.stop NoAl.ub (by simp)
      | some i => exact Fai.readThen (NoAl.lastInstance _ _ _ _ _) fun l _ => fai_replaceAt _ _ _ _ _

theorem fai_replaceCLoop (c r : List UInt8) : ∀ (k : Nat) (m : Mem) (i : Nat), Fai E List.length (Str.replaceCLoop c r k m i) [] m.length
  | 0, _, _ => Fai.ok rfl
  | k + 1, m, i => by
    refine Fai.read (NoAl.getc _ _) fun x _ => ?_
    split
    · exact fai_replaceCLoop c r k m _
    · exact (fai_putc _ _ _).bind fun m' _ => fai_replaceCLoop c r k m' _

theorem fai_replaceC (a : Arr) (c r : Mem) : Fai E bufLen (Str.replaceC a c r) [] (bufLen a) :=
  Fai.read (NoAl.scanZ _) fun _ _ => Fai.read (NoAl.scanZ _) fun _ _ => Fai.read (NoAl.enforce _) fun _ _ => by
    split
    · exact Fai.ok rfl
    · exact (fai_replaceCLoop _ _ _ _ _).bind fun _ _ => Fai.ok rfl

theorem fai_stripBy (p : UInt8 → Bool) (k : Nat) (a : Arr) : Fai E bufLen (Str.stripBy p k a) [] (bufLen a) :=
  Fai.read (NoAl.stripFront _ _ _ _) fun _ _ => Fai.read (NoAl.stripBack _ _ _ _ _) fun _ _ => (fai_vtMemmove _ _ _ _).bind fun _ _ =>
    (fai_putc _ _ _).bind fun _ _ => Fai.ok rfl

theorem fai_stripC (k : Nat) (a : Arr) (c : Mem) : Fai E bufLen (Str.stripC k a c) [] (bufLen a) :=
  Fai.read (NoAl.scanZ _) fun _ _ => Fai.read (NoAl.stripCFront _ _ _ _) fun _ _ => Fai.read (NoAl.stripCBack _ _ _ _ _) fun _ _ =>
    (fai_vtMemmove _ _ _ _).bind fun _ _ => (fai_putc _ _ _).bind fun _ _ => Fai.ok rfl

theorem fai_mapLoop (f : UInt8 → Nat → UInt8) : ∀ (k : Nat) (m : Mem) (i : Nat), Fai E List.length (Str.mapLoop f k m i) [] m.length
  | 0, _, _ => Fai.ok rfl
  | k + 1, m, i => by
    refine Fai.read (NoAl.getc _ _) fun x _ => ?_
    exact (fai_putc _ _ _).bind fun m' _ => fai_mapLoop f k m' _

theorem fai_apply (f : UInt8 → Nat → UInt8) (a : Arr) : Fai E bufLen (Str.apply f a) [] (bufLen a) :=
  (fai_mapLoop _ _ _ _).bind fun _ _ => Fai.ok rfl

theorem fai_validateLen (a : Arr) : Fai E bufLen (Str.validateLen a >>= fun r => .ok r.1) [] (bufLen a) := by
  unfold Str.validateLen
  rw [bind_assoc]
  refine Fai.read (NoAl.strnlen _ _) fun _ _ => ?_
  rw [bind_assoc]
  exact (fai_putc _ _ _).bind fun _ _ => Fai.ok rfl

/-! ### The formatted insertion with its temporary string -/

theorem fai_map_own (l : List Nat) : reqSizes (l.map .own) = l ∧ (ReqPos E (l.map .own) ↔ ∀ x ∈ l, 0 < x) ∧ ∀ n, reqFinal n (l.map .own) = lastSize n l := by
  induction l with
  | nil => simp [reqSizes, ReqPos, reqFinal, lastSize]
  | cons x l ih =>
    obtain ⟨h1, h2, h3⟩ := ih
    refine ⟨by simp [reqSizes, h1], by simp [ReqPos, h2], fun n => ?_⟩
    simp only [List.map_cons, reqFinal, h3, lastSize]
    cases l <;> simp [List.getLast?_cons]

theorem NoAl.vtMemset (m : Mem) (o : Nat) (b : UInt8) (n : Nat) : NoAl (vtMemset m o b n) := by
  unfold Vita.vtMemset
  split
  · exact NoAl.ok _
  · exact NoAl.writeN _ _ _

theorem vtCalloc_cases (n : Nat) : (vtCalloc E n = .ok (List.replicate n (some 0)) ∧ E.allocOk n = true) ∨
    (vtCalloc E n = .exit .alloc ∧ E.allocOk n = false) ∨ (NoAl (vtCalloc E n) ∧ ∀ t, vtCalloc E n ≠ .ok t) := by
  unfold vtCalloc
  cases hc : cassert E (decide (n > 0)) with
  | ok u =>
    rw [bind_ok]
    by_cases h : E.allocOk n = true
    · rw [if_pos h]; exact Or.inl ⟨rfl, h⟩
    · rw [if_neg h]; exact Or.inr (Or.inl ⟨rfl, by simpa using h⟩)
  | exit w =>
    have := NoAl.cassert E (decide (n > 0)); rw [hc] at this
    refine Or.inr (Or.inr ⟨?_, by intro t e; cases e⟩)
    intro e; simp at e; subst e; exact this rfl
  | ub => exact Or.inr (Or.inr ⟨NoAl.ub, by intro t e; cases e⟩)
  | fuel => exact Or.inr (Or.inr ⟨NoAl.fuel, by intro t e; cases e⟩)

/-- The three outcomes of creating a string: it is there, a request was refused, or the program ends otherwise. -/
theorem createLen_cases (n : Nat) : (∃ t, Str.createLen E n = .ok t ∧ E.allocOk arrStructSize = true ∧ E.allocOk (wmul (wadd n 1) 1) = true ∧
      t.cap = n ∧ t.len = n ∧ t.elsize = 1 ∧ t.mem.length = wmul (wadd n 1) 1 ∧ n ≤ wmul (wadd n 1) 1) ∨
    (Str.createLen E n = .exit .alloc ∧ (E.allocOk arrStructSize = false ∨ E.allocOk (wmul (wadd n 1) 1) = false)) ∨
    (NoAl (Str.createLen E n) ∧ ∀ t, Str.createLen E n ≠ .ok t) := by
  unfold Str.createLen
  generalize wmul (wadd n 1) 1 = c
  cases hd : dassert E (decide (n > 0)) with
  | ub => exact Or.inr (Or.inr ⟨NoAl.ub, by intro t e; cases e⟩)
  | fuel => exact Or.inr (Or.inr ⟨NoAl.fuel, by intro t e; cases e⟩)
  | exit w =>
    have := NoAl.dassert E (decide (n > 0)); rw [hd] at this
    refine Or.inr (Or.inr ⟨?_, by intro t e; cases e⟩)
    intro e; simp at e; subst e; exact this rfl
  | ok u =>
    rw [bind_ok]
    rcases vtCalloc_cases (E := E) arrStructSize with ⟨e1, h1⟩ | ⟨e1, h1⟩ | ⟨e1, h1⟩
    · rw [e1, bind_ok]
      rcases vtCalloc_cases (E := E) c with ⟨e2, h2⟩ | ⟨e2, h2⟩ | ⟨e2, h2⟩
      · rw [e2, bind_ok]
        cases hm : vtMemset (List.replicate c (some 0)) 0 63 n with
        | ok m =>
          left
          have hl := ((fai_vtMemset (E := E) (List.replicate c (some 0)) 0 63 n).granted m hm).2.2
          simp only [reqFinal, List.length_replicate] at hl
          refine ⟨_, rfl, h1, h2, rfl, rfl, rfl, hl.symm, ?_⟩
          unfold vtMemset at hm
          split at hm
          · omega
          · unfold memset writeN at hm
            split at hm
            · rename_i hle; simp at hle; exact hle
            · cases hm
        | exit w =>
          have := NoAl.vtMemset (List.replicate c (some 0)) 0 63 n; rw [hm] at this
          refine Or.inr (Or.inr ⟨?_, by intro t e; cases e⟩)
          intro e; simp at e; subst e; exact this rfl
        | ub => exact Or.inr (Or.inr ⟨NoAl.ub, by intro t e; cases e⟩)
        | fuel => exact Or.inr (Or.inr ⟨NoAl.fuel, by intro t e; cases e⟩)
      · rw [e2, bind_exit]; exact Or.inr (Or.inl ⟨rfl, Or.inr h2⟩)
      · refine Or.inr (Or.inr ⟨NoAl.bind e2 fun t e => absurd e (h2 t), ?_⟩)
        intro t e; rw [bind_eq_ok] at e; obtain ⟨t, e, -⟩ := e; exact h2 t e
    · rw [e1, bind_exit]; exact Or.inr (Or.inl ⟨rfl, Or.inl h1⟩)
    · refine Or.inr (Or.inr ⟨NoAl.bind e1 fun t e => absurd e (h1 t), ?_⟩)
      intro t e; rw [bind_eq_ok] at e; obtain ⟨t, e, -⟩ := e; exact h1 t e

theorem fai_vfmtSet (a : Arr) (out : List UInt8) :
    Fai E bufLen (Str.vfmtSet E a out) ((strGrowReq a (wadd out.length 1)).map .own) (bufLen a) := by
  unfold Str.vfmtSet
  split
  · exact Fai.stop NoAl.ub (by simp)
  · exact (fai_strGrow a _).bind fun _ _ => (fai_writeN _ _ _).bind fun _ _ => (fai_putc _ _ _).bind fun _ _ => Fai.ok rfl

theorem wadd_zero_pos {n : Nat} (h : n ≤ wmul (wadd n 1) 1) (h0 : 0 < n) : wadd n 1 = n + 1 ∧ n + 1 < 2 ^ 64 := by
  unfold wmul wadd at h
  unfold wadd
  omega

theorem fai_insertf (a : Arr) (i : Nat) (out : List UInt8) : Fai E bufLen (Str.insertf E a i out) (insertfReq E a out) (bufLen a) := by
  unfold Str.insertf insertfReq
  split
  · exact Fai.readThen (NoAl.writeN _ _ _) fun _ _ => fai_insert _ _ _
  · rename_i hlen
    dsimp only
    have hpos : 0 < out.length := by unfold tmpBufferSize at hlen; omega
    generalize hn : out.length = n at *
    rcases createLen_cases (E := E) n with ⟨t, ht, g1, g2, g4, g5, g6, g7, g8⟩ | ⟨hx, hr⟩ | ⟨hx, hr⟩
    · rw [ht, bind_ok, bind_ok]
      obtain ⟨hw, hlt⟩ := wadd_zero_pos g8 hpos
      have hreq : strGrowReq t (wadd out.length 1) = [wmul (wadd (wadd n (wadd n 1)) 1) 1] := by
        unfold strGrowReq hasSpace
        rw [g4, g5, g6, hn]
        have h0 : wsub n n = 0 := by unfold wsub; omega
        rw [h0, if_pos (by omega), show wsub (wadd n 1) 0 = wadd n 1 by rw [hw]; unfold wsub; omega]
      have hv := fai_vfmtSet (E := E) t out
      rw [hreq] at hv
      generalize wmul (wadd (wadd n (wadd n 1)) 1) 1 = K at hv ⊢
      have hc0 : 0 < wmul (wadd n 1) 1 := by omega
      generalize wmul (wadd n 1) 1 = c at g2 hc0 ⊢
      cases hs : Str.vfmtSet E t out with
      | ok t2 =>
        obtain ⟨v1, v2, -⟩ := hv.granted t2 hs
        have hK : E.allocOk K = true := v1 K (by simp [reqSizes])
        have hK0 : 0 < K := v2.1
        rw [bind_ok, bind_ok]
        have hi := fai_insert (E := E) a t2.mem i
        unfold strTextReq at hi
        cases hl : strlen t2.mem with
        | ok l =>
          rw [hl] at hi
          unfold andThen at hi
          dsimp only at hi ⊢
          generalize strGrowReq a l = gl at hi ⊢
          obtain ⟨m1, m2, m3⟩ := fai_map_own (E := E) gl
          constructor
          · intro b e
            obtain ⟨q1, q2, q3⟩ := hi.granted b e
            rw [m1] at q1
            refine ⟨?_, ⟨hc0, hK0, m2.1 q2, trivial⟩, ?_⟩
            · intro k hk
              simp only [reqSizes, List.append_nil, List.mem_cons] at hk
              rcases hk with rfl | rfl | rfl | hk
              · exact g1
              · exact g2
              · exact hK
              · exact q1 k hk
            · rw [m3] at q3; simpa [reqFinal] using q3
          · intro e
            obtain ⟨k, hk, hk2⟩ := hi.refused e
            rw [m1] at hk
            exact ⟨k, by simp [reqSizes, hk], hk2⟩
        | exit w =>
          rw [hl] at hi
          constructor
          · intro b e
            unfold Str.insert at e
            rw [bind_eq_ok] at e; obtain ⟨_, -, e⟩ := e
            rw [hl] at e; cases e
          · intro e; obtain ⟨k, hk, -⟩ := hi.refused e; simp [andThen, reqSizes] at hk
        | ub =>
          rw [hl] at hi
          constructor
          · intro b e
            unfold Str.insert at e
            rw [bind_eq_ok] at e; obtain ⟨_, -, e⟩ := e
            rw [hl] at e; cases e
          · intro e; obtain ⟨k, hk, -⟩ := hi.refused e; simp [andThen, reqSizes] at hk
        | fuel =>
          rw [hl] at hi
          constructor
          · intro b e
            unfold Str.insert at e
            rw [bind_eq_ok] at e; obtain ⟨_, -, e⟩ := e
            rw [hl] at e; cases e
          · intro e; obtain ⟨k, hk, -⟩ := hi.refused e; simp [andThen, reqSizes] at hk
      | exit w =>
        rw [hs] at hv
        constructor
        · intro b e; cases e
        · intro e; simp at e; subst e
          obtain ⟨k, hk, hk2⟩ := hv.refused rfl
          simp [reqSizes] at hk
          subst hk
          exact ⟨k, by simp [reqSizes], hk2⟩
      | ub => exact Fai.stop (by simp [NoAl]) (by intro b e; cases e)
      | fuel => exact Fai.stop (by simp [NoAl]) (by intro b e; cases e)
    · rw [hx, bind_exit]
      refine ⟨(by intro b e; cases e), fun _ => ?_⟩
      rcases hr with hr | hr
      · exact ⟨_, by simp [reqSizes], Or.inl hr⟩
      · exact ⟨_, by simp [reqSizes], Or.inl hr⟩
    · refine Fai.stop (NoAl.bind hx fun t e => absurd e (hr t)) ?_
      intro b e
      rw [bind_eq_ok] at e
      obtain ⟨t, e, -⟩ := e
      exact hr t e

theorem call_fai (c : Call) (a : Arr) : Fai E bufLen (c.run E a) (c.reqs E a) (bufLen a) := by
  cases c with
  | vecPushBack x => exact fai_vecPushBack a x
  | vecPushFront x => exact fai_vecPushFront a x
  | vecInsert x i => exact fai_vecInsert a x i
  | vecSet x i => exact fai_vecSet a x i
  | vecRemove i rs =>
    have := fai_vecRemove (E := E) a i rs
    cases rs <;> exact this
  | vecPop => exact Fai.okMem (by unfold Vec.pop; split <;> rfl)
  | vecPopGet => exact fai_vecPopGet a
  | vecClear => exact Fai.okMem rfl
  | vecReserve n => exact fai_vecReserve a n
  | vecResize n => exact fai_vecResize a n
  | vecShrink => exact fai_vecShrink a
  | plPushBack q => exact fai_plPushBack a q
  | plPushFront q => exact fai_plPushFront a q
  | plInsert q i => exact fai_plInsert a q i
  | plSet q i => exact fai_plSet a q i
  | plRemove i rs => exact fai_plRemove a i rs
  | plRemoveElement q rs => exact fai_plRemoveElement a q rs
  | plPop => exact Fai.okMem (by unfold Plist.pop; split <;> rfl)
  | plPopGet => exact fai_plPopGet a
  | plClear => exact Fai.okMem rfl
  | plReserve n => exact fai_plReserve a n
  | plResize n => exact fai_plResize a n
  | plShrink => exact fai_plShrink a
  | plSlide =>
    show Fai E bufLen (Plist.slideFront a >>= fun r => .ok r.1) [] (bufLen a)
    unfold Plist.slideFront; split
    · rw [bind_assoc]
      exact Fai.read (NoAl.loadPtr _ _) fun _ _ => Fai.okMem (by with_reducible rfl)
    · exact Fai.okMem (by with_reducible rfl)
  | append z => exact fai_append a z
  | appendN z n => exact fai_appendN a z n
  | appendf out => exact fai_appendf a out
  | insert z i => exact fai_insert a z i
  | insertN z i n => exact fai_insertN a z i n
  | insertf i out => exact fai_insertf a i out
  | insertBefore sub z => exact fai_insertBefore a sub z
  | insertAfter sub z => exact fai_insertAfter a sub z
  | remove i n => exact fai_remove a i n
  | removeFirst z => exact (fai_removeFirst a z).bind fun _ _ => Fai.okMem rfl
  | removeLast k z => exact (fai_removeLast k a z).bind fun _ _ => Fai.okMem rfl
  | removeAll k z => exact fai_removeAll z k a
  | removeC c => exact fai_removeC a c
  | replace k sub z => exact fai_replace k a sub z
  | replaceFirst sub z => exact fai_replaceFirst a sub z
  | replaceLast k sub z => exact fai_replaceLast k a sub z
  | replaceC c r => exact fai_replaceC a c r
  | set z => exact Fai.read (NoAl.strlen _) fun _ _ => fai_setN _ _ _
  | setN z n => exact fai_setN a z n
  | setAt z i => exact fai_setAt a z i
  | setC c i => exact Fai.read (NoAl.dassert _ _) fun _ _ => (fai_putc _ _ _).bind fun _ _ => Fai.okMem rfl
  | strip k => exact fai_stripBy _ k a
  | stripPunct k => exact fai_stripBy _ k a
  | stripC k c => exact fai_stripC k a c
  | toUpper => exact fai_apply _ a
  | toLower => exact fai_apply _ a
  | validateLen => exact fai_validateLen a
  | clear => exact fai_strClear a
  | reserve n => exact fai_strReserve a n
  | resize n => exact fai_strResize a n
  | shrink => exact fai_strShrink a
  | fread d => exact (fai_writeN _ _ _).bind fun _ _ => Fai.okMem rfl

/-! ### No call turns a string into a view or back -/

/-- If the code returns, the result has the given value. -/
def Keeps (f : β → Bool) (r : Out β) (v : Bool) : Prop := ∀ b, r = .ok b → f b = v

theorem Keeps.ok {f : β → Bool} {b : β} {v : Bool} (h : f b = v) : Keeps f (.ok b) v := by
  intro b' e; injection e with e; subst e; exact h

theorem Keeps.bind {f : β → Bool} {r : Out γ} {k : γ → Out β} {v : Bool} (h : ∀ c, r = .ok c → Keeps f (k c) v) : Keeps f (r >>= k) v := by
  intro b e
  rw [bind_eq_ok] at e
  obtain ⟨c, e1, e2⟩ := e
  exact h c e1 b e2

theorem Keeps.after {f : β → Bool} {g : γ → Bool} {r : Out γ} {k : γ → Out β} {v : Bool} (hr : Keeps g r v)
    (h : ∀ c, g c = v → Keeps f (k c) v) : Keeps f (r >>= k) v := Keeps.bind fun c e => h c (hr c e)

theorem Keeps.ub {f : β → Bool} {v : Bool} : Keeps f .ub v := by intro b e; cases e
theorem Keeps.fuel {f : β → Bool} {v : Bool} : Keeps f .fuel v := by intro b e; cases e

/-- Reads, checks and changes of the buffer only. -/
macro "keeps" : tactic => `(tactic| repeat' first
  | exact Keeps.ok (by with_reducible rfl) | exact Keeps.ub | exact Keeps.fuel | (refine Keeps.bind fun _ _ => ?_) | split)

theorem keeps_vecReserve (a : Arr) (n : Nat) : Keeps Arr.isView (Vec.reserve E a n) a.isView := by unfold Vec.reserve; keeps
theorem keeps_vecGrow (a : Arr) : Keeps Arr.isView (Vec.grow E a) a.isView := by
  unfold Vec.grow; split
  · exact keeps_vecReserve _ _
  · exact Keeps.ok (by with_reducible rfl)
theorem keeps_plReserve (a : Arr) (n : Nat) : Keeps Arr.isView (Plist.reserve E a n) a.isView := by unfold Plist.reserve; keeps
theorem keeps_plGrow (a : Arr) : Keeps Arr.isView (Plist.grow E a) a.isView := by
  unfold Plist.grow; split
  · exact keeps_plReserve _ _
  · exact Keeps.ok (by with_reducible rfl)
theorem keeps_strReserve (a : Arr) (n : Nat) : Keeps Arr.isView (Str.reserve E a n) a.isView := by unfold Str.reserve; keeps
theorem keeps_strGrow (a : Arr) (n : Nat) : Keeps Arr.isView (Str.grow E a n) a.isView := by
  unfold Str.grow; split
  · exact keeps_strReserve _ _
  · exact Keeps.ok (by with_reducible rfl)

theorem keeps_vecInsert (a : Arr) (x : Mem) (i : Nat) : Keeps Arr.isView (Vec.insert E a x i) a.isView := by
  unfold Vec.insert
  refine Keeps.bind fun _ _ => ?_
  refine (keeps_vecGrow a).after fun b h => ?_
  rw [← h]
  keeps
theorem keeps_vecPushBack (a : Arr) (x : Mem) : Keeps Arr.isView (Vec.pushBack E a x) a.isView := by
  refine (keeps_vecGrow a).after fun b h => ?_
  rw [← h]
  keeps
theorem keeps_plInsert (a : Arr) (x : Ptr) (i : Nat) : Keeps Arr.isView (Plist.insert E a x i) a.isView := by
  unfold Plist.insert
  refine Keeps.bind fun _ _ => Keeps.bind fun _ _ => ?_
  refine (keeps_plGrow a).after fun b h => ?_
  rw [← h]
  keeps
theorem keeps_plPushBack (a : Arr) (x : Ptr) : Keeps Arr.isView (Plist.pushBack E a x) a.isView := by
  refine Keeps.bind fun _ _ => (keeps_plGrow a).after fun b h => ?_
  rw [← h]
  keeps
theorem keeps_plRemove (a : Arr) (i : Nat) (rs : Strategy) : Keeps Arr.isView (Plist.remove E a i rs) a.isView := by unfold Plist.remove; keeps
theorem keeps_appendN (a : Arr) (z : Mem) (n : Nat) : Keeps Arr.isView (Str.appendN E a z n) a.isView := by
  unfold Str.appendN
  refine Keeps.bind fun _ _ => ?_
  refine (keeps_strGrow a _).after fun b h => ?_
  rw [← h]
  keeps
theorem keeps_insert (a : Arr) (z : Mem) (n : Nat) : Keeps Arr.isView (Str.insert E a z n) a.isView := by
  unfold Str.insert
  refine Keeps.bind fun _ _ => Keeps.bind fun _ _ => ?_
  refine (keeps_strGrow a _).after fun b h => ?_
  rw [← h]
  keeps
theorem keeps_insertN (a : Arr) (z : Mem) (i n : Nat) : Keeps Arr.isView (Str.insertN E a z i n) a.isView := by
  unfold Str.insertN
  refine Keeps.bind fun _ _ => ?_
  refine (keeps_strGrow a _).after fun b h => ?_
  rw [← h]
  keeps
theorem keeps_remove (a : Arr) (i n : Nat) : Keeps Arr.isView (Str.remove E a i n) a.isView := by unfold Str.remove; keeps
theorem keeps_setN (a : Arr) (z : Mem) (n : Nat) : Keeps Arr.isView (Str.setN E a z n) a.isView := by unfold Str.setN; keeps
theorem keeps_append (a : Arr) (z : Mem) : Keeps Arr.isView (Str.append E a z) a.isView := Keeps.bind fun _ _ => keeps_appendN _ _ _
theorem keeps_replaceAt (a : Arr) (i n r : Nat) (z : Mem) : Keeps Arr.isView (Str.replaceAt E a i n r z) a.isView := by
  unfold Str.replaceAt
  split
  · keeps
  · refine (keeps_remove a _ _).after fun b h => ?_
    rw [← h]
    split
    · exact keeps_insert _ _ _
    · exact keeps_append _ _
theorem keeps_replaceLoop (sub z : Mem) (n r : Nat) : ∀ (k : Nat) (a : Arr) (p : Nat),
    Keeps Arr.isView (Str.replaceLoop E sub z n r k a p) a.isView
  | 0, _, _ => Keeps.fuel
  | k + 1, a, p => by
    refine Keeps.bind fun q _ => ?_
    cases q with
    | none => exact Keeps.ok (by with_reducible rfl)
    | some i =>
      refine (keeps_replaceAt a _ _ _ _).after fun b h => ?_
      rw [← h]
      exact keeps_replaceLoop sub z n r k b _
theorem keeps_removeFirst (a : Arr) (z : Mem) : Keeps (fun r : Arr × Bool => r.1.isView) (Str.removeFirst a z) a.isView := by
  unfold Str.removeFirst; keeps
theorem keeps_removeAll (z : Mem) : ∀ (k : Nat) (a : Arr), Keeps Arr.isView (Str.removeAll k a z) a.isView
  | 0, _ => Keeps.fuel
  | k + 1, a => by
    refine (keeps_removeFirst a z).after fun b h => ?_
    rw [← h]
    split
    · exact keeps_removeAll z k _
    · exact Keeps.ok (by with_reducible rfl)

theorem keeps_popBody (a : Arr) (l : Nat) (r : Out β) (g : β → γ) :
    Keeps Arr.isView ((r >>= fun x => .ok (({ a with len := l } : Arr), g x)) >>= fun r => .ok r.1) a.isView := by
  rw [bind_assoc]
  exact Keeps.bind fun _ _ => Keeps.ok rfl

theorem call_keeps (c : Call) (a : Arr) : Keeps Arr.isView (c.run E a) a.isView := by
  cases c with
  | vecPushBack x => exact keeps_vecPushBack a x
  | vecPushFront x =>
    show Keeps Arr.isView (Vec.pushFront E a x) a.isView
    unfold Vec.pushFront; split
    · exact keeps_vecInsert a x _
    · exact keeps_vecPushBack a x
  | vecInsert x i => exact keeps_vecInsert a x i
  | vecSet x i => show Keeps Arr.isView (Vec.set E a x i) a.isView; unfold Vec.set; keeps
  | vecRemove i rs => show Keeps Arr.isView (Vec.remove E a i rs) a.isView; unfold Vec.remove; keeps
  | vecPop => exact Keeps.ok (by unfold Vec.pop; split <;> with_reducible rfl)
  | vecPopGet =>
    show Keeps Arr.isView (Vec.popGet a >>= fun r => .ok r.1) a.isView
    unfold Vec.popGet; split
    · exact keeps_popBody a _ _ _
    · exact Keeps.ok (by with_reducible rfl)
  | vecClear => exact Keeps.ok (by unfold Vec.clear; with_reducible rfl)
  | vecReserve n => exact keeps_vecReserve a n
  | vecResize n => show Keeps Arr.isView (Vec.resize E a n) a.isView; unfold Vec.resize; keeps
  | vecShrink => show Keeps Arr.isView (Vec.shrink E a) a.isView; unfold Vec.shrink; keeps
  | plPushBack q => exact keeps_plPushBack a q
  | plPushFront x =>
    show Keeps Arr.isView (Plist.pushFront E a x) a.isView
    unfold Plist.pushFront; split
    · exact Keeps.bind fun _ _ => keeps_plInsert a x _
    · exact Keeps.bind fun _ _ => keeps_plPushBack a x
  | plInsert q i => exact keeps_plInsert a q i
  | plSet q i => show Keeps Arr.isView (Plist.set E a q i) a.isView; unfold Plist.set; keeps
  | plRemove i rs => exact keeps_plRemove a i rs
  | plRemoveElement q rs =>
    show Keeps Arr.isView (Plist.removeElement E a q rs) a.isView
    unfold Plist.removeElement
    refine Keeps.bind fun _ _ => Keeps.bind fun _ _ => ?_
    split
    · exact keeps_plRemove _ _ _
    · exact Keeps.ok (by with_reducible rfl)
  | plPop => exact Keeps.ok (by unfold Plist.pop; split <;> with_reducible rfl)
  | plPopGet =>
    show Keeps Arr.isView (Plist.popGet a >>= fun r => .ok r.1) a.isView
    unfold Plist.popGet; split
    · exact keeps_popBody a _ _ _
    · exact Keeps.ok (by with_reducible rfl)
  | plClear => exact Keeps.ok (by unfold Plist.clear; with_reducible rfl)
  | plReserve n => exact keeps_plReserve a n
  | plResize n => show Keeps Arr.isView (Plist.resize E a n) a.isView; unfold Plist.resize; keeps
  | plShrink => show Keeps Arr.isView (Plist.shrink E a) a.isView; unfold Plist.shrink; keeps
  | plSlide =>
    refine Keeps.after (g := fun r => r.1.isView) ?_ fun b h => Keeps.ok h
    unfold Plist.slideFront; keeps
  | append z => exact keeps_append a z
  | appendN z n => exact keeps_appendN a z n
  | appendf out =>
    refine (keeps_strGrow a _).after fun b h => ?_
    rw [← h]
    keeps
  | insert z i => exact keeps_insert a z i
  | insertN z i n => exact keeps_insertN a z i n
  | insertf i out =>
    show Keeps Arr.isView (Str.insertf E a i out) a.isView
    unfold Str.insertf; split
    · exact Keeps.bind fun _ _ => keeps_insert _ _ _
    · exact Keeps.bind fun _ _ => Keeps.bind fun _ _ => keeps_insert _ _ _
  | insertBefore sub z =>
    refine Keeps.bind fun _ _ => ?_
    split
    · exact Keeps.ok (by with_reducible rfl)
    · exact keeps_insert _ _ _
  | insertAfter sub z =>
    refine Keeps.bind fun _ _ => ?_
    split
    · exact Keeps.ok (by with_reducible rfl)
    · exact Keeps.bind fun _ _ => keeps_insert _ _ _
  | remove i n => exact keeps_remove a i n
  | removeFirst z => exact (keeps_removeFirst a z).after fun b h => Keeps.ok h
  | removeLast k z =>
    refine Keeps.after (g := fun r => r.1.isView) ?_ fun b h => Keeps.ok h
    unfold Str.removeLast
    refine Keeps.bind fun _ _ => Keeps.bind fun r _ => ?_
    cases r with
    | none => exact Keeps.ub
    | some p =>
      refine Keeps.bind fun _ _ => ?_
      exact (keeps_remove a _ _).after fun b h => Keeps.ok h
  | removeAll k z => exact keeps_removeAll z k a
  | removeC c => show Keeps Arr.isView (Str.removeC a c) a.isView; unfold Str.removeC; keeps
  | replace k sub z =>
    refine Keeps.bind fun _ _ => Keeps.bind fun _ _ => ?_
    split
    · exact Keeps.ok (by with_reducible rfl)
    · exact keeps_replaceLoop _ _ _ _ _ _ _
  | replaceFirst sub z =>
    refine Keeps.bind fun _ _ => Keeps.bind fun _ _ => ?_
    split
    · exact Keeps.ok (by with_reducible rfl)
    · refine Keeps.bind fun q _ => ?_
      cases q with
      | none => exact Keeps.ok (by with_reducible rfl)
      | some i => exact keeps_replaceAt _ _ _ _ _
  | replaceLast k sub z =>
    refine Keeps.bind fun _ _ => Keeps.bind fun _ _ => ?_
    split
    · exact Keeps.ok (by with_reducible rfl)
    · refine Keeps.bind fun q _ => ?_
      cases q with
      | none => exact Keeps.ub
      | some i => exact Keeps.bind fun _ _ => keeps_replaceAt _ _ _ _ _
  | replaceC c r => show Keeps Arr.isView (Str.replaceC a c r) a.isView; unfold Str.replaceC; keeps
  | set z => exact Keeps.bind fun _ _ => keeps_setN _ _ _
  | setN z n => exact keeps_setN a z n
  | setAt z i =>
    refine Keeps.bind fun _ _ => Keeps.bind fun _ _ => Keeps.bind fun _ _ => ?_
    refine (keeps_remove a _ _).after fun b h => ?_
    rw [← h]
    exact keeps_appendN _ _ _
  | setC c i => show Keeps Arr.isView (Str.setC E a c i) a.isView; unfold Str.setC; keeps
  | strip k => show Keeps Arr.isView (Str.stripBy _ k a) a.isView; unfold Str.stripBy; keeps
  | stripPunct k => show Keeps Arr.isView (Str.stripBy _ k a) a.isView; unfold Str.stripBy; keeps
  | stripC k c => show Keeps Arr.isView (Str.stripC k a c) a.isView; unfold Str.stripC; keeps
  | toUpper => show Keeps Arr.isView (Str.apply _ a) a.isView; unfold Str.apply; keeps
  | toLower => show Keeps Arr.isView (Str.apply _ a) a.isView; unfold Str.apply; keeps
  | validateLen =>
    refine Keeps.after (g := fun r => r.1.isView) ?_ fun b h => Keeps.ok h
    unfold Str.validateLen; keeps
  | clear => show Keeps Arr.isView (Str.clear a) a.isView; unfold Str.clear; keeps
  | reserve n => exact keeps_strReserve a n
  | resize n => show Keeps Arr.isView (Str.resize E a n) a.isView; unfold Str.resize; keeps
  | shrink => show Keeps Arr.isView (Str.shrink E a) a.isView; unfold Str.shrink; keeps
  | fread d => exact Keeps.bind fun _ _ => Keeps.ok rfl

end Vita
