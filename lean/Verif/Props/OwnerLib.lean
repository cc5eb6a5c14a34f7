import Verif.Lemmas.OwnerEnds
/-!
# Property C88: library functions hand over what they create and keep nothing
-/

namespace Vita
open Out Mal Own

seal wadd wsub wmul

/-- A state of a program: the tracking allocator was created on the heap `H₀`, then any commands and library functions were run. -/
def Reached (E : Env) (A : Allocator) (H₀ : Heap) (s : St) : Prop :=
  H₀.addrs.Nodup ∧ ∃ m H, ∃ before : Prog Unit, Mal.create E A H₀ = .ok (m, H) ∧ before.onHeap E A ⟨⟨H, m⟩, []⟩ = .ok (s, ())

/-- Running `p` in the state `s` ends like `o` (or memory is refused); if it returns, the heap consists of the blocks of the live containers, the blocks
from before the program and those of the tracking allocator (`Owned`), and the contents before and after are related by `Q`. -/
def RunsAs (E : Env) (A : Allocator) (H₀ : Heap) (s : St) (p : Prog α) (o : Out β) (Q : Contents → α → β → Prop) : Prop :=
  p.onHeap E A s = .exit .alloc ∨
  match o with
  | .ok b => ∃ s' r, p.onHeap E A s = .ok (s', r) ∧ Owned s' H₀.blocks ∧ Reached E A H₀ s' ∧ Q (contents s') r b
  | .exit w => p.onHeap E A s = .exit w
  | .ub => p.onHeap E A s = .ub
  | .fuel => p.onHeap E A s = .fuel

section
variable {E : Env} {A : Allocator} {H₀ : Heap} {s : St}

theorem onHeap_bind (p : Prog α) (f : α → Prog β) (s : St) : (p.bind f).onHeap E A s = p.onHeap E A s >>= fun r => (f r.2).onHeap E A r.1 := by
  induction p generalizing s with
  | out o => cases o <;> rfl
  | cmd c k ih =>
    show (step E A s c >>= fun s => (k.bind f).onHeap E A s) = (step E A s c >>= fun s => k.onHeap E A s) >>= _
    rw [bind_assoc]
    exact congrArg _ (funext fun s => ih s)
  | look i k ih =>
    show (s.live i >>= fun o => ((k (o.kind, o.arr)).bind f).onHeap E A s) = (s.live i >>= fun o => (k (o.kind, o.arr)).onHeap E A s) >>= _
    rw [bind_assoc]
    exact congrArg _ (funext fun o => ih _ s)
  | next k ih => exact ih _ s

theorem Reached.good (h : Reached E A H₀ s) : GoodSt s H₀.blocks := by
  obtain ⟨hd, m, H, q, hc, hq⟩ := h
  have hg := good_start hd hc
  rcases prog_follows (E := E) (A := A) q _ hg with ⟨e, -⟩ | hf
  · rw [e] at hq; cases hq
  · revert hf
    cases q.plain E (contents ⟨⟨H, m⟩, []⟩) with
    | ok x =>
      rintro ⟨s', e, -, hs⟩
      rw [e] at hq
      injection hq with hq
      injection hq with hq
      exact hq ▸ hs
    | exit w => intro e; rw [show q.onHeap E A _ = .exit w from e] at hq; cases hq
    | ub => intro e; rw [show q.onHeap E A _ = .ub from e] at hq; cases hq
    | fuel => intro e; rw [show q.onHeap E A _ = .fuel from e] at hq; cases hq

theorem Reached.after (h : Reached E A H₀ s) {p : Prog α} {s' : St} {r : α} (hp : p.onHeap E A s = .ok (s', r)) : Reached E A H₀ s' := by
  obtain ⟨hd, m, H, q, hc, hq⟩ := h
  refine ⟨hd, m, H, q.bind fun _ => p.bind fun _ => .out (.ok ()), hc, ?_⟩
  rw [onHeap_bind, hq, bind_ok, onHeap_bind, hp]
  rfl

theorem RunsAs.of (h : Reached E A H₀ s) {p : Prog α} {o : Out β} {Q : Contents → α → β → Prop} (hp : EndsLike (p.plain E (contents s)) o Q) :
    RunsAs E A H₀ s p o Q := by
  rcases prog_follows (A := A) p s h.good with ⟨e, -⟩ | hf
  · exact Or.inl e
  · rcases hp with e | hp
    · rw [e] at hf
      exact Or.inl hf
    · cases o with
      | ok b =>
        obtain ⟨c, a, e, hq⟩ := hp
        rw [e] at hf
        obtain ⟨s', e', hc, hg⟩ := hf
        exact Or.inr ⟨s', a, e', hg.owned, h.after e', hc ▸ hq⟩
      | exit w => rw [show p.plain E (contents s) = .exit w from hp] at hf; exact Or.inr hf
      | ub => rw [show p.plain E (contents s) = .ub from hp] at hf; exact Or.inr hf
      | fuel => rw [show p.plain E (contents s) = .fuel from hp] at hf; exact Or.inr hf

theorem Reached.small (h : Reached E A H₀ s) {i : Nat} {k : Tag} {a : Arr} (hi : (contents s)[i]? = some (some (k, a))) : a.mem.length < 2 ^ 56 := by
  unfold contents at hi
  rw [List.getElem?_map] at hi
  cases ho : s.objs[i]? with
  | none => rw [ho] at hi; cases hi
  | some o =>
    cases o with
    | none => rw [ho] at hi; cases hi
    | some o =>
      rw [ho] at hi
      injection hi with hi
      injection hi with hi
      injection hi with _ hi
      obtain ⟨rest, hp, -⟩ := blocksOf_live ho
      have := h.good.holds.sizes _ (hp.mem_iff.2 List.mem_cons_self)
      rw [hi] at this
      exact this

/-! ### C88 -/

/-- What a function returning a list of strings leaves: nothing if it returns NULL, otherwise a list, its strings `L`, and nothing else. -/
def NewList (c c' : Contents) (r : Option Nat) : Option (List Arr) → Prop
  | none => r = none ∧ c' = c
  | some L => r = some c.length ∧ ∃ hs, Lists false c c.length 0 [] [] c' hs L

/-- **C88, `vt_str_split`** without a destination: the pieces are those of C29, in a new list of new strings. -/
theorem C88_split (h : Reached E A H₀ s) {i : Nat} {a : Arr} (hi : (contents s)[i]? = some (some (.str ts, a))) (sep : Mem) (k : Nat) :
    RunsAs E A H₀ s (Own.split k none i sep) (Str.split E k a sep) (NewList (contents s)) := by
  refine RunsAs.of h ((split_ends hi (h.small hi)).mono ?_)
  rintro c' r (_ | L) hq <;> exact hq

/-- **C88, `vt_path_dir_list`** without a destination. -/
theorem C88_dir_list (h : Reached E A H₀ s) (w : Fs.World) (z : Mem) (ign : Bool) :
    RunsAs E A H₀ s (Own.dirList w none z ign) (Path.dirList E w z ign) (NewList (contents s)) := by
  refine RunsAs.of h (dirList_ends.mono ?_)
  rintro c' r (_ | L) hq <;> exact hq

/-- **C88, `vt_path_dir_list_recurse`** without a destination: the working string is gone, at every depth. -/
theorem C88_dir_list_recurse (h : Reached E A H₀ s) (w : Fs.World) (z : Mem) (ign : Bool) (k : Nat) :
    RunsAs E A H₀ s (Own.dirListRecurse w ign k none z) (Path.dirListRecurse E w ign k [] z) (NewList (contents s)) := by
  refine RunsAs.of h ((dirListRecurse_ends k).mono ?_)
  rintro c' r (_ | L) hq <;> exact hq

/-- What a function filling a list leaves, which held the pointers `old` (which stay in front): if it returns NULL, everything is as before, otherwise
the list got the strings `L`, made with its allocator, and nothing else has changed. -/
def Filled (c : Contents) (tr : Bool) (p sl : Nat) (old : List Nat) (c' : Contents) (r : Option Nat) : Option (List Arr) → Prop
  | none => r = none ∧ c' = c
  | some L => r = some p ∧ ∃ hs, Lists tr c p sl old [] c' hs L

/-- **C88, `vt_str_split`** into a list: it holds only the new pieces afterwards; whatever containers its pointers pointed to are as before (so they
are not released), and the slider is as before. -/
theorem C88_split_into (h : Reached E A H₀ s) {i p : Nat} {a l : Arr} {qs : List Ptr} {cap : Nat} (hi : (contents s)[i]? = some (some (.str ts, a)))
    (hp : (contents s)[p]? = some (some (.plist tr, l))) (hl : PlHolds l ⟨qs, cap⟩) (sep : Mem) (k : Nat) :
    RunsAs E A H₀ s (Own.split k (some p) i sep) (Str.split E k a sep) (Filled (contents s) tr p l.slider []) := by
  refine RunsAs.of h ((split_into_ends hi hp hl (h.small hi)).mono ?_)
  rintro c' r (_ | L) hq <;> exact hq

/-- **C88, `vt_path_dir_list`** into a list, as for `vt_str_split`. -/
theorem C88_dir_list_into (h : Reached E A H₀ s) {p : Nat} {l : Arr} {qs : List Ptr} {cap : Nat}
    (hp : (contents s)[p]? = some (some (.plist tr, l))) (hl : PlHolds l ⟨qs, cap⟩) (w : Fs.World) (z : Mem) (ign : Bool) :
    RunsAs E A H₀ s (Own.dirList w (some p) z ign) (Path.dirList E w z ign) (Filled (contents s) tr p l.slider []) := by
  refine RunsAs.of h ((dirList_into_ends hp hl).mono ?_)
  rintro c' r (_ | L) hq <;> exact hq

/-- **C88, `vt_path_dir_list_recurse`** into a list of containers: the new strings come after the old ones. -/
theorem C88_dir_list_recurse_into (h : Reached E A H₀ s) {p : Nat} {l : Arr} {old : List Nat} {cap : Nat}
    (hp : (contents s)[p]? = some (some (.plist tr, l))) (hl : PlHolds l ⟨old.map ptrOf, cap⟩) (w : Fs.World) (z : Mem) (ign : Bool) (k : Nat) :
    RunsAs E A H₀ s (Own.dirListRecurse w ign k (some p) z) (Path.dirListRecurse E w ign k [] z) (Filled (contents s) tr p l.slider old) := by
  refine RunsAs.of h ((dirListRecurse_into k _ p l old cap [] z hp hl).mono ?_)
  rintro c' r (_ | L) hq
  · exact hq
  · obtain ⟨hr, hs, L', e, hl⟩ := hq
    rw [List.nil_append] at e
    exact ⟨hr, hs, e ▸ hl⟩

/-- **C88, `vt_path_dir_free`**: destroys the list and the strings from its slider on, nothing else.  (`c` are the contents before the list was made.) -/
theorem C88_dir_free (h : Reached E A H₀ s) {c : Contents} {p sl : Nat} {hs : List Nat} {L : List Arr} (hl : Lists tr c p sl [] [] (contents s) hs L)
    {k : Nat} (hk : L.length < k) :
    RunsAs E A H₀ s (Own.dirFree k p) (.ok ()) fun c' _ _ => c'.length = (contents s).length ∧
      ∀ j, c'[j]? = if j = p ∨ j ∈ hs.drop sl then some none else (contents s)[j]? := by
  obtain ⟨c', e, h1, h2⟩ := dirFree_plain (E := E) hl (k := k) (by rw [hl.length_eq]; exact hk)
  exact RunsAs.of h (Or.inr ⟨c', (), e, h1, h2⟩)

/-- **C88.** Listing and then freeing leaves nothing behind: if `s₁` is a state a listing function left, started with the contents `c`, then after
`vt_path_dir_free` all containers are as in `c`, and everything created since is destroyed. -/
theorem C88_list_and_free {s₁ : St} (h : Reached E A H₀ s₁) {c : Contents} {p : Nat} {L : List Arr} (hl : NewList c (contents s₁) (some p) (some L))
    {k : Nat} (hk : L.length < k) : RunsAs E A H₀ s₁ (Own.dirFree k p) (.ok ()) fun c' _ _ => Clean c c' := by
  obtain ⟨hp, hs, hl⟩ := hl
  injection hp with hp
  subst hp
  obtain ⟨c', e, h1, h2⟩ := dirFree_plain (E := E) hl (k := k) (by rw [hl.length_eq]; exact hk)
  exact RunsAs.of h (Or.inr ⟨c', (), e, hl.freed h1 h2⟩)

/-- **C88, disagreement.** `vt_path_dir_free` begins at the slider of the list.  If the caller has walked over the first `sl` strings with
`vt_plist_slide_front`, these strings are still there afterwards, and the list that pointed to them is gone. -/
theorem C88_dir_free_leaks (h : Reached E A H₀ s) {c : Contents} {p sl : Nat} {hs : List Nat} {L : List Arr} (hl : Lists tr c p sl [] [] (contents s) hs L)
    {k : Nat} (hk : L.length < k) {i : Nat} (hi : i < sl) {x : Nat} (hx : hs[i]? = some x) {t : Arr} (ht : L[i]? = some t) :
    RunsAs E A H₀ s (Own.dirFree k p) (.ok ()) fun c' _ _ => c'[x]? = some (some (.str tr, t)) ∧ c'[p]? = some none := by
  obtain ⟨c', e, h1, h2⟩ := dirFree_plain (E := E) hl (k := k) (by rw [hl.length_eq]; exact hk)
  refine RunsAs.of h (Or.inr ⟨c', (), e, ?_, ?_⟩)
  · obtain ⟨y, hy, hc⟩ := hl.item ht
    rw [hx] at hy
    injection hy with hy
    subst hy
    rw [h2, if_neg, hc]
    rintro (rfl | hm)
    · exact (hl.fresh _ (List.mem_of_getElem? hx)).2.1 rfl
    · have hd := hl.nodup
      rw [← List.take_append_drop sl hs, List.nodup_append] at hd
      refine hd.2.2 x ?_ x hm rfl
      have : (hs.take sl)[i]? = some x := by rw [List.getElem?_take, if_pos hi, hx]
      exact List.mem_of_getElem? this
  · rw [h2, if_pos (Or.inl rfl)]

/-- **C88, `vt_path_mkdir_parents` and `vt_path_rmdir_recurse`**: all their temporary lists and strings are gone. -/
theorem C88_mkdir_parents (h : Reached E A H₀ s) (w : Fs.World) (z : Mem) (k : Nat) :
    RunsAs E A H₀ s (Own.mkdirParents E k w z) (Path.mkdirParents E k w z) fun c' r r' => r = r' ∧ Clean (contents s) c' :=
  RunsAs.of h mkdirParents_ends

theorem C88_rmdir_recurse (h : Reached E A H₀ s) (w : Fs.World) (z : Mem) (k : Nat) :
    RunsAs E A H₀ s (Own.rmdirRecurse E k w z) (Path.rmdirRecurse E k w z) fun c' r r' => r = r' ∧ Clean (contents s) c' :=
  RunsAs.of h rmdirRecurse_ends

/-- The string argument `j` (possibly NULL) of a function has the contents `a`, and the allocator `td`. -/
def StrArg (c : Contents) (td : Bool) (j : Option Nat) (a : Option Arr) : Prop := j.map (c[·]?) = a.map fun x => some (some (Tag.str td, x))

/-- What a function writing its text into the string `j`, or for NULL into a new one on the system heap, leaves: that string, nothing else. -/
def Written (c : Contents) (td : Bool) (j : Option Nat) (c' : Contents) (r : Nat) (t : Arr) : Prop :=
  match j with
  | none => r = c.length ∧ c' = c ++ [some (.str false, t)]
  | some j => r = j ∧ c' = c.set j (some (.str td, t))

/-- **C88, `vt_str_join`** (and `vt_path_build`). -/
theorem C88_join (h : Reached E A H₀ s) {p : Nat} {l : Arr} {qs : List Ptr} {cap : Nat} (hp : (contents s)[p]? = some (some (.plist tr, l)))
    (hl : PlHolds l ⟨qs, cap⟩) (hq : qs ≠ []) {j : Option Nat} {a : Option Arr} (hj : StrArg (contents s) td j a) (mem : Ptr → Mem) (sep : Mem) :
    RunsAs E A H₀ s (Own.join E mem j sep p) (Str.join E a sep (qs.map mem)) (Written (contents s) td j) := by
  refine RunsAs.of h ((join_ends hp hl hq hj).mono ?_)
  intro c' r st hr
  cases j <;> exact hr

/-- **C88, `vt_path_build_n`**: the list of its arguments is gone. -/
theorem C88_build_n (h : Reached E A H₀ s) {qs : List Ptr} (hq : qs ≠ []) (hq0 : ∀ q ∈ qs, q ≠ 0) (hsz : qs.length * 8 < 2 ^ 64)
    {j : Option Nat} {a : Option Arr} (hj : StrArg (contents s) td j a) (mem : Ptr → Mem) :
    RunsAs E A H₀ s (Own.buildN E mem j qs) (Path.buildN E a (qs.map mem)) fun c' r t => match j with
      | none => r = (contents s).length + 1 ∧ c' = contents s ++ [none, some (.str false, t)]
      | some j => r = j ∧ c' = (contents s).set j (some (.str td, t)) ++ [none] := by
  refine RunsAs.of h ((buildN_ends hq hq0 hsz hj).mono ?_)
  intro c' r st hr
  cases j <;> exact hr

/-- **C88, `vt_file_read`**: a string if the file was read; no string if it was not. -/
theorem C88_file_read (h : Reached E A H₀ s) (w : Fs.World) (z : Mem) (tr : Bool) :
    RunsAs E A H₀ s (Own.fileRead w z tr) (FileIo.read E w z) fun c' r o => match o with
      | none => r = none ∧ Clean (contents s) c'
      | some t => r = some (contents s).length ∧ c' = contents s ++ [some (.str tr, t)] := by
  refine RunsAs.of h (fileRead_ends.mono ?_)
  rintro c' r (_ | t) hr <;> exact hr

/-- **C88, `vt_str_pop_get_first` and `vt_str_pop_get_last`**: at most one new string, and only if there is no destination. -/
theorem C88_pop_get (h : Reached E A H₀ s) {i : Nat} {a : Arr} (hi : (contents s)[i]? = some (some (.str ts, a))) {j : Option Nat} {x : Option Arr}
    (hj : StrArg (contents s) td j x) (hne : j ≠ some i) (sep : Mem) (k : Nat) :
    RunsAs E A H₀ s (Own.popGetFirst j i sep) (Str.popGetFirst E x a sep) (Popped (contents s) ts td i j x) ∧
    RunsAs E A H₀ s (Own.popGetLast k j i sep) (Str.popGetLast E k x a sep) (Popped (contents s) ts td i j x) :=
  ⟨RunsAs.of h (popGetFirst_ends hj hi hne), RunsAs.of h (popGetLast_ends hj hi hne)⟩

/-- The sizes of the blocks of containers depend on their contents only. -/
theorem sizes_contents (objs : List (Option Obj)) : (blocksOf objs).map (·.2.2) =
    (objs.map (·.map fun o => ((⟨o.kind, o.tracked⟩ : Tag), o.arr))).flatMap fun
      | none => []
      | some o => [o.2.mem.length, 56] := by
  induction objs with
  | nil => rfl
  | cons o objs ih =>
    cases o with
    | none => exact ih
    | some o =>
      show _ :: _ :: (blocksOf objs).map (·.2.2) = _ :: _ :: _
      rw [ih]
      rfl

/-- **C88.** What a clean return means for the heap: apart from the table of the tracking allocator (which may have grown) there are as many blocks as
before, of the same sizes. -/
theorem C88_clean_heap {s' : St} (h : Reached E A H₀ s) (h' : Reached E A H₀ s') (hc : Clean (contents s) (contents s')) :
    ∃ sizes, (s.sys.heap.blocks.map (·.2)).Perm (s.sys.mal.cap * 16 :: sizes) ∧ (s'.sys.heap.blocks.map (·.2)).Perm (s'.sys.mal.cap * 16 :: sizes) := by
  have key : ∀ {s : St}, Reached E A H₀ s → (s.sys.heap.blocks.map (·.2)).Perm (s.sys.mal.cap * 16 :: ((blocksOf s.objs).map (·.2.2) ++ (H₀.blocks.map (·.2) ++ [88]))) := by
    intro s h
    have := h.good.owned.heap.map (·.2)
    simp only [List.map_append, List.map_map, List.map_cons, List.map_nil, List.append_assoc] at this
    refine this.trans ?_
    rw [← List.append_assoc, ← List.append_assoc]
    exact (List.perm_append_comm (l₁ := _) (l₂ := [s.sys.mal.cap * 16, 88])).trans (by
      refine List.Perm.cons _ ?_
      exact (List.perm_append_comm (l₁ := [88]) (l₂ := _)))
  refine ⟨_, key h, ?_⟩
  have e : (blocksOf s'.objs).map (·.2.2) = (blocksOf s.objs).map (·.2.2) := by
    obtain ⟨n, hn⟩ := hc
    rw [sizes_contents, sizes_contents]
    unfold contents at hn
    rw [hn, List.flatMap_append]
    conv => rhs; rw [← List.append_nil (List.flatMap _ _)]
    congr 1
    refine List.flatMap_eq_nil_iff.2 fun o ho => ?_
    rw [(List.mem_replicate.1 ho).2]
  have := key h'
  rwa [e] at this

end

/-- A program on an otherwise empty heap, with a tracking allocator: result and blocks. -/
def onEmpty (p : Prog α) : Out (α × List (Nat × Nat)) := do
  let (m, H) ← Mal.create malE bumpA ⟨[], 0⟩
  let (s, a) ← p.onHeap malE bumpA ⟨⟨H, m⟩, []⟩
  .ok (a, s.sys.heap.blocks)

/-- The example directory `s` with the file `f` and the directory `d` with the file `.h`. -/
def libW : Fs.World := { nodes := [([[115]], .dir), ([[115], [102]], .file [1, 2]), ([[115], [100]], .dir), ([[115], [100], [46, 104]], .file [])] }

/-- **C88, disagreement.** `vt_str_split` into the list of an earlier split loses the strings of the first: after freeing the list and the string, the
two pieces of the first call are still allocated (and the two blocks of the allocator). -/
theorem C88_split_again_leaks : onEmpty (do
      let a ← make false (.str [some 97, some 44, some 98, some 0])
      let _ ← Own.split 9 none a [some 44, some 0]
      let _ ← Own.split 9 (some 1) a [some 44, some 0]
      Own.dirFree 9 1
      discard a) = .ok ((), [(10, 2), (9, 56), (8, 2), (7, 56), (2, 256), (1, 88)]) := by
  decide +kernel

/-- Example: once is right. -/
example : onEmpty (do
      let a ← make false (.str [some 97, some 44, some 98, some 0])
      let _ ← Own.split 9 none a [some 44, some 0]
      Own.dirFree 9 1
      discard a) = .ok ((), [(2, 256), (1, 88)]) := by
  decide +kernel

/-- Example: listing a directory with its subdirectories gives three strings (eight blocks with the list); freeing them leaves nothing. -/
example : (onEmpty (Own.dirListRecurse libW false 9 none [some 115, some 0])).mapOk (fun r => (r.1, r.2.length)) = .ok (some 0, 8 + 2) ∧
    onEmpty (do
      let _ ← Own.dirListRecurse libW false 9 none [some 115, some 0]
      Own.dirFree 9 0) = .ok ((), [(2, 256), (1, 88)]) := by
  decide +kernel

/-- Example for the disagreement `C88_dir_free_leaks`: after looking at one string with `vt_plist_slide_front`, freeing the list leaves this string. -/
example : (onEmpty (do
      let _ ← Own.dirListRecurse libW false 9 none [some 115, some 0]
      let _ ← Own.slide 0
      Own.dirFree 9 0)).mapOk (fun r => r.2.map (·.2)) = .ok [4, 56, 256, 88] := by
  decide +kernel

/-- Example: removing the directory leaves no memory. -/
example : (onEmpty (Own.rmdirRecurse malE 9 libW [some 115, some 0])).mapOk (fun r => (r.1.1.nodes.length, r.1.2, r.2)) =
    .ok (0, true, [(2, 256), (1, 88)]) := by
  decide +kernel

/-- Example: creating `a/b` leaves no memory. -/
example : (onEmpty (Own.mkdirParents malE 9 libW [some 97, some 47, some 98, some 0])).mapOk (fun r => (r.1.1.nodes.length, r.1.2, r.2)) =
    .ok (6, true, [(2, 256), (1, 88)]) := by
  decide +kernel

/-- Example: reading a file into a tracked string: two more blocks; `vt_path_build_n` with two arguments leaves one string. -/
example : (onEmpty (Own.fileRead libW [some 115, some 47, some 102, some 0] true)).mapOk (fun r => (r.1, r.2.map (·.2))) = .ok (some 0, [3, 56, 256, 88]) ∧
    (onEmpty (Own.buildN malE (fun q => [some (UInt8.ofNat q.toNat), some 0]) none [97, 98])).mapOk (fun r => (r.1, r.2.length)) = .ok (1, 4) := by
  decide +kernel

/-- Example: the hypotheses can be met: the state after these programs is `Reached`. -/
example : ∃ s, Reached malE bumpA ⟨[(7, 3)], 0⟩ s ∧ ∃ a, (contents s)[0]? = some (some (.str true, a)) := by
  have hd : (do
      let r ← Mal.create malE bumpA ⟨[(7, 3)], 0⟩
      let x ← (Prog.cmd (.make true (.str [some 97, some 0])) (.out (.ok ()))).onHeap malE bumpA ⟨⟨r.2, r.1⟩, []⟩
      .ok ((contents x.1)[0]?)) = .ok (some (some (Tag.str true, (⟨1, 1, 1, 0, false, [some 97, some 0]⟩ : Arr)))) := by decide +kernel
  obtain ⟨r, h1, hd⟩ := bind_eq_ok.1 hd
  obtain ⟨x, h2, hd⟩ := bind_eq_ok.1 hd
  injection hd with hd
  exact ⟨x.1, ⟨by decide, r.1, r.2, _, h1, h2⟩, _, hd⟩

end Vita
