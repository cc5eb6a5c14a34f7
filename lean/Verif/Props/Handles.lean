import Verif.Model.Handles
import Verif.Props.RmdirAny
/-!
# Files and directories that are opened are closed again (C136)
-/

namespace Vita
open Out Spec Fs
seal wadd wsub wmul

open Handles (Fds acquire use close fresh)

/-! ### Handles -/

theorem acquire_room {f : Fds} (h : f.open_.length < f.limit) : acquire f = some (fresh f, { f with open_ := fresh f :: f.open_ }) := if_pos h

theorem acquire_full {f : Fds} (h : f.limit ≤ f.open_.length) : acquire f = none := if_neg (by omega)

theorem use_new (f : Fds) (h : Nat) : use { f with open_ := h :: f.open_ } h = .ok () := by simp [use]

theorem close_new (f : Fds) (h : Nat) : close { f with open_ := h :: f.open_ } h = .ok f := by simp [close]

/-! ### Single files and directories -/

theorem handles_listLoop (E : Env) (ign : Bool) (f : Fds) (h : Nat) : ∀ (ns : List Name) (pl : List Arr),
    Handles.listLoop E ign { f with open_ := h :: f.open_ } h ns pl = Path.listLoop E ign ns pl
  | [], pl => by rw [Handles.listLoop, use_new, bind_ok, Path.listLoop]
  | n :: ns, pl => by
    rw [Handles.listLoop, use_new, bind_ok, Path.listLoop]
    congr 1
    funext b
    split
    · exact handles_listLoop E ign f h ns pl
    · congr 1
      funext d
      exact handles_listLoop E ign f h ns _

/-- **C136.** As long as one more handle can be had, reading a file, writing to one and listing a directory do what they do without a limit; what they open they use only until they
close it, and afterwards the handles are those from before: nothing is left open, and nothing else is closed.  This holds for whatever is read or written, and for failures too. -/
theorem C136_closed {f : Fds} (hf : f.open_.length < f.limit) (E : Env) (w : World) (z : Mem) :
    Handles.read E w z f = (FileIo.read E w z).mapOk (·, f) ∧
    (∀ buf n, Handles.readToBuffer E w z buf n f = (FileIo.readToBuffer E w z buf n).mapOk (·, f)) ∧
    (∀ append ln s, Handles.writefc w z append ln s f = (FileIo.writefc w z append ln s).mapOk (·, f)) ∧
    (∀ ign, Handles.dirList E w z ign f = (Path.dirList E w z ign).mapOk (·, f)) := by
  refine ⟨?_, fun buf n => ?_, fun append ln s => ?_, fun ign => ?_⟩
  · unfold Handles.read FileIo.read
    cases hz : scanZ z with
    | ok t =>
      simp only [bind_ok, acquire_room hf]
      cases openR w t with
      | none => rfl
      | some d =>
        simp only
        split
        · simp only [close_new, bind_ok, mapOk]
        · cases Str.createLen E (Path.fileSize w t).toNat with
          | ok s =>
            simp only [bind_ok, use_new]
            cases FileIo.fread s.mem s.len d with
            | ok r =>
              simp only [bind_ok, close_new]
              split <;> rfl
            | _ => rfl
          | _ => rfl
    | _ => rfl
  · unfold Handles.readToBuffer FileIo.readToBuffer
    cases hz : scanZ z with
    | ok t =>
      simp only [bind_ok, acquire_room hf]
      cases dassert E (n > 0) with
      | ok _ =>
        simp only [bind_ok]
        cases openR w t with
        | none => rfl
        | some d =>
          simp only
          split
          · simp only [close_new, bind_ok, mapOk]
          · simp only [use_new, bind_ok]
            generalize (if n ≤ (Path.fileSize w t).toNat then n else (Path.fileSize w t).toNat) = k
            cases FileIo.fread buf k d with
            | ok r =>
              simp only [bind_ok, close_new]
              split <;> rfl
            | _ => rfl
      | _ => rfl
    | _ => rfl
  · unfold Handles.writefc FileIo.writefc
    cases hz : scanZ z with
    | ok t =>
      simp only [bind_ok, acquire_room hf]
      cases openW w append t with
      | none => rfl
      | some x =>
        obtain ⟨w', p⟩ := x
        simp only [use_new, close_new, bind_ok]
        cases ln <;> rfl
    | _ => rfl
  · unfold Handles.dirList Path.dirList
    cases hz : scanZ z with
    | ok t =>
      simp only [bind_ok, acquire_room hf]
      split
      · rfl
      · cases readdir w t with
        | none => rfl
        | some ns =>
          simp only [handles_listLoop]
          cases Path.listLoop E ign ns [] with
          | ok r => simp only [bind_ok, close_new, mapOk]
          | _ => rfl
    | _ => rfl

/-- **C136.** If no handle can be had, these calls fail like those for what does not exist: NULL or false is returned, and neither the handles nor the files have changed; no file is
created or made empty. -/
theorem C136_no_handle {f : Fds} (hf : f.limit ≤ f.open_.length) (E : Env) (w : World) {z : Mem} {t : Text} (hz : CStr z t) :
    Handles.read E w z f = .ok (none, f) ∧ (∀ buf n, 0 < n → Handles.readToBuffer E w z buf n f = .ok ((false, buf), f)) ∧
    (∀ append ln s, Handles.writefc w z append ln s f = .ok ((w, false), f)) ∧ (∀ ign, Handles.dirList E w z ign f = .ok (none, f)) := by
  refine ⟨?_, fun buf n hn => ?_, fun append ln s => ?_, fun ign => ?_⟩
  · unfold Handles.read
    simp only [hz.text, bind_ok, acquire_full hf]
    cases openR w t <;> rfl
  · unfold Handles.readToBuffer
    simp only [hz.text, bind_ok, acquire_full hf, decide_eq_true (show n > 0 from hn), dassert_true]
    cases openR w t <;> rfl
  · unfold Handles.writefc
    simp only [hz.text, bind_ok, acquire_full hf]
  · unfold Handles.dirList
    simp only [hz.text, bind_ok, acquire_full hf]
    split
    · rfl
    · cases readdir w t <;> rfl

/-- **C136.** `vt_log` (in a release build, or if the file can be opened, see `C66_history_debug`) closes the file that it opens and nothing else; `stderr` stays open. -/
theorem C136_log {f : Fds} (hf : f.open_.length < f.limit) (he : Handles.stderr ∈ f.open_) (s : Log.St) (z : Option Mem) (l : Log.Level) (expr : Bool) (m : Log.Msg) :
    Handles.log s z l expr m f = (Log.log false s z l expr m).mapOk (·, f) := by
  unfold Handles.log Log.log
  cases expr with
  | true => rfl
  | false =>
    simp only [Bool.not_false, if_true]
    cases scanZ (z.getD (s.names l)) with
    | ok t =>
      simp only [bind_ok, acquire_room hf]
      split
      · rw [use, if_pos he]
        rfl
      · cases openW s.world true t with
        | none => rfl
        | some x =>
          obtain ⟨w', p⟩ := x
          simp only [use_new, close_new, bind_ok]
          rfl
    | _ => rfl

/-- **C136**, debug messages (partial: the file can be opened): the message is written, and the handles are those from before. -/
theorem C136_debug_partial {f : Fds} (he : Handles.stderr ∈ f.open_) (w : World) (t : List UInt8) :
    Handles.emit false none w t f = .ok ((w, []), f) ∧ (∀ name, Handles.emit false name w t f = .ok ((w, []), f)) ∧ Handles.emit true none w t f = .ok ((w, t), f) ∧
    ∀ (z : Mem) (n : Text), CStr z n → ∀ w' p, openW w true n = some (w', p) → f.open_.length < f.limit → Handles.emit true (some z) w t f = .ok ((put w' p t, []), f) := by
  refine ⟨rfl, fun _ => rfl, ?_, fun z n hz w' p hp hf => ?_⟩
  · simp [Handles.emit, use, he]
  · simp only [Handles.emit, if_true, hz.text, bind_ok, acquire_room hf, hp, use_new, close_new]

/-- **C136** (counterexample) If the file for debug messages cannot be opened, be it only for lack of handles, the message goes to `stderr`, and `stderr`, which the caller has
opened, is closed; the next message that goes there is undefined. -/
theorem C136_stderr_closed {f : Fds} (he : Handles.stderr ∈ f.open_) (hd : f.open_.Nodup) {w : World} {z : Mem} {n : Text} (hz : CStr z n)
    (ho : openW w true n = none ∨ f.limit ≤ f.open_.length) (t : List UInt8) :
    ∃ f', Handles.emit true (some z) w t f = .ok ((w, t), f') ∧ Handles.stderr ∉ f'.open_ ∧ (∀ h, h ≠ Handles.stderr → (h ∈ f'.open_ ↔ h ∈ f.open_)) ∧
      ∀ w2 t2, Handles.emit true none w2 t2 f' = .ub := by
  refine ⟨{ f with open_ := f.open_.erase Handles.stderr }, ?_, ?_, fun h hh => ?_, fun w2 t2 => ?_⟩
  · simp only [Handles.emit, if_true, hz.text, bind_ok]
    have : (do
        use f Handles.stderr
        let f ← close f Handles.stderr
        ok ((w, t), f)) = ok ((w, t), { f with open_ := f.open_.erase Handles.stderr }) := by
      simp [use, close, he]
    rcases ho with ho | ho
    · rw [ho]
      cases acquire f <;> exact this
    · rw [acquire_full ho]
      exact this
  · exact fun h => (hd.mem_erase_iff.1 h).1 rfl
  · simp only
    rw [hd.mem_erase_iff]
    exact ⟨fun x => x.2, fun x => ⟨hh, x⟩⟩
  · have : Handles.stderr ∉ f.open_.erase Handles.stderr := fun h => (hd.mem_erase_iff.1 h).1 rfl
    simp [Handles.emit, use, this]

/-! ### Directories within directories -/

namespace Spec

/-- An entry of `t` that does not end the listing if `k` more directories can be opened: it is no directory, or one that can be opened. -/
def opensIn (w : World) (k : Nat) (t : Text) (n : Name) : Bool := !decide (stat w (t ++ 47 :: n) = some .dir) || ((readdir w (t ++ 47 :: n)).isSome && decide (0 < k))

/-- As `reached`, if `k` more directories can be opened. -/
def reachedIn (w : World) (ign : Bool) (k : Nat) (t : Text) : List Name := (((readdir w t).getD []).filter (shown ign)).takeWhile (opensIn w k t)

/-- As `Listing`, if `k` directories can be open besides `t`. -/
inductive ListingIn (w : World) (ign : Bool) : Nat → Text → List Name → List Text → Prop
  | nil {k : Nat} {t : Text} : ListingIn w ign k t [] []
  | cons {k : Nat} {t : Text} {n : Name} {ns : List Name} {S L : List Text} : ListingIn w ign (k - 1) (t ++ 47 :: n) (reachedIn w ign (k - 1) (t ++ 47 :: n)) S →
      ListingIn w ign k t ns L → ListingIn w ign k t (n :: ns) (S ++ (t ++ 47 :: n) :: L)

/-- The text `v` is reached from the directory `t` (see `Listed`) over `k` names. -/
inductive ListedAt (w : World) (ign : Bool) : Nat → Text → Text → Prop
  | entry {t : Text} {n : Name} : n ∈ reached w ign t → ListedAt w ign 1 t (t ++ 47 :: n)
  | inside {k : Nat} {t v : Text} {n : Name} : n ∈ reached w ign t → ListedAt w ign k (t ++ 47 :: n) v → ListedAt w ign (k + 1) t v

end Spec

/-- The specification of the recursive call. -/
def RecIn (E : Env) (w : World) (ign : Bool) (rec : List Arr → Mem → Fds → Out (Option (List Arr) × Fds)) (u : Text) : Prop :=
  ∀ z, CStr z u → ∀ pl f, OkOr E (maxPath + 312) (rec pl z f) fun r => r.2 = f ∧ ((r.1 = none ∧ (readdir w u = none ∨ f.limit ≤ f.open_.length)) ∨
    (readdir w u ≠ none ∧ ∃ k, f.limit = f.open_.length + 1 + k ∧ ∃ l L, r.1 = some (pl ++ l) ∧ List.Forall₂ IsStr l L ∧ ListingIn w ign k u (reachedIn w ign k u) L))

theorem handles_recurseLoop {E : Env} {w : World} (hw : Wf w) {ign : Bool} {z : Mem} {t : Text} (hz : CStr z t) {d : Fs.Path}
    (hr : resolve w true t = some d) {f : Fds} {h k : Nat} (hf : f.limit = f.open_.length + 1 + k)
    {rec : List Arr → Mem → Fds → Out (Option (List Arr) × Fds)} (hrec : ∀ n e, n ≠ [] → resolve w true (t ++ 47 :: n) = some e → RecIn E w ign rec (t ++ 47 :: n)) :
    ∀ (ns : List Name), (∀ n ∈ ns, kind w (d ++ [n]) ≠ none) → ∀ (st : Arr) (pl : List Arr), IsStr st [] →
      OkOr E (maxPath + 312) (Handles.recurseLoop E w ign z h rec ns st pl { f with open_ := h :: f.open_ }) fun r => r.2 = { f with open_ := h :: f.open_ } ∧
        ∃ l L, r.1 = pl ++ l ∧ List.Forall₂ IsStr l L ∧ ListingIn w ign k t ((ns.filter fun n => !(ign && decide (n.head? = some 46))).takeWhile (opensIn w k t)) L := by
  obtain ⟨ht0, hlen0, -⟩ := resolve_some hr
  intro ns
  induction ns with
  | nil =>
    intro _ st pl _
    rw [Handles.recurseLoop, use_new, bind_ok]
    exact OkOr.ok ⟨rfl, [], [], by simp, by simp, .nil⟩
  | cons n ns ih =>
    intro hk st pl hst
    have ih := ih (fun m hm => hk m (by simp [hm]))
    have hkn := hk n (by simp)
    have hn := (parent_dir hw hkn).2
    have hnl := hn.len
    rw [Handles.recurseLoop, use_new, bind_ok, skip_ok hn, bind_ok]
    by_cases hc : ign = true ∧ n.head? = some 46
    · rw [if_pos (by simpa using hc), List.filter_cons_of_neg (by simpa using hc)]
      exact ih st pl hst
    · rw [if_neg (by simpa using hc), List.filter_cons_of_pos (by rcases Bool.eq_false_or_eq_true ign with h | h <;> simp_all)]
      refine (append_okOr hst hz ht0).bind ?_
      rintro s1 ⟨h1, -, -⟩
      refine (append_okOr h1 sepZ_cstr (by simp)).bind ?_
      rintro s2 ⟨h2, -, -⟩
      refine (append_okOr h2 (nameMem_cstr hn) hn.ne).bind ?_
      rintro s3 ⟨h3, -, -⟩
      have h3 : IsStr s3 (t ++ 47 :: n) := by simpa using h3
      rw [show Str.z s3 = .ok (t ++ 47 :: n) from h3.text, bind_ok]
      have fin : ∀ (l : List Arr) (L : List Text), List.Forall₂ IsStr l L → opensIn w k t n = true →
          ListingIn w ign (k - 1) (t ++ 47 :: n) (reachedIn w ign (k - 1) (t ++ 47 :: n)) L →
          OkOr E (maxPath + 312) (do
            let d ← Str.dup E s3
            let st ← Str.clear s3
            Handles.recurseLoop E w ign z h rec ns st (pl ++ l ++ [d]) { f with open_ := h :: f.open_ }) fun r => r.2 = { f with open_ := h :: f.open_ } ∧
            ∃ l L, r.1 = pl ++ l ∧ List.Forall₂ IsStr l L ∧
              ListingIn w ign k t ((n :: ns.filter fun n => !(ign && decide (n.head? = some 46))).takeWhile (opensIn w k t)) L := by
        intro l L hl ho hL
        refine (create_text_okOr h3.cstr (by simp)).bind fun dn hdn => ?_
        obtain ⟨s4, e4, h4, -, -⟩ := clear_ok h3
        rw [e4, bind_ok]
        refine (ih s4 (pl ++ l ++ [dn]) h4).mono ?_ (Nat.le_refl _)
        rintro r ⟨hr2, l', L', hr1, hl', hP'⟩
        refine ⟨hr2, l ++ dn :: l', L ++ (t ++ 47 :: n) :: L', by simp [hr1], List.rel_append hl (.cons hdn hl'), ?_⟩
        rw [List.takeWhile_cons_of_pos ho]
        exact .cons hL hP'
      by_cases hdir : Path.isDir w (t ++ 47 :: n) = true
      · rw [if_pos hdir]
        have hst : stat w (t ++ 47 :: n) = some .dir := by simpa [Path.isDir] using hdir
        obtain ⟨e, he, hke⟩ := isDir_resolve hdir
        refine (hrec n e hn.ne he s3.mem h3.cstr pl _).bind ?_ (Nat.le_refl _)
        rintro ⟨r, f'⟩ ⟨rfl, ⟨rfl, hnone⟩ | ⟨hsome, k', hk', l, L, rfl, hl, hL⟩⟩
        · refine OkOr.ok ⟨rfl, [], [], by simp, by simp, ?_⟩
          have hno : opensIn w k t n = false := by
            rcases hnone with hnone | hnone
            · simp [opensIn, hst, hnone]
            · have : k = 0 := by simp only [List.length_cons] at hnone; omega
              simp [opensIn, hst, this]
          rw [List.takeWhile_cons_of_neg (by simp [hno])]
          exact .nil
        · have hk1 : k = k' + 1 := by simp only [List.length_cons] at hk'; omega
          subst hk1
          exact fin l L hl (by simp [opensIn, Option.isSome_iff_ne_none.2 hsome]) hL
      · rw [if_neg hdir, bind_ok]
        have hst : stat w (t ++ 47 :: n) ≠ some .dir := by simpa [Path.isDir] using hdir
        have hnone : readdir w (t ++ 47 :: n) = none := by
          cases h : readdir w (t ++ 47 :: n) with
          | none => rfl
          | some ns =>
            obtain ⟨e, h1, h2, -⟩ := readdir_some h
            exact absurd (stat_dir h1 h2) hst
        have := fin [] [] (by simp) (by simp [opensIn, hst]) (by simpa [reachedIn, hnone] using ListingIn.nil)
        simpa using this

theorem handles_dirListRecurse {E : Env} {w : World} (hw : Wf w) {ign : Bool} :
    ∀ (j : Nat) {t : Text}, 0 < j → maxPath ≤ t.length + j → RecIn E w ign (Handles.dirListRecurse E w ign j) t := by
  intro j
  induction j with
  | zero => intro t h; omega
  | succ j ih =>
    intro t _ hj z hz pl f
    rw [Handles.dirListRecurse, hz.text, bind_ok]
    cases hex : Path.exists_ w t with
    | false => exact OkOr.ok ⟨rfl, Or.inl ⟨rfl, .inl (readdir_none hex)⟩⟩
    | true =>
      simp only [Bool.not_true, Bool.false_eq_true, if_false]
      by_cases hf : f.limit ≤ f.open_.length
      · rw [acquire_full hf]
        cases hrd : readdir w t <;> exact OkOr.ok ⟨rfl, Or.inl ⟨rfl, .inr hf⟩⟩
      · obtain ⟨k, hk⟩ := Nat.exists_eq_add_of_lt (Nat.lt_of_not_le hf)
        have hk : f.limit = f.open_.length + 1 + k := by omega
        rw [acquire_room (Nat.lt_of_not_le hf)]
        cases hrd : readdir w t with
        | none => exact OkOr.ok ⟨rfl, Or.inl ⟨rfl, .inl rfl⟩⟩
        | some ns =>
          obtain ⟨d, hr, hd, rfl⟩ := readdir_some hrd
          simp only
          refine (createCapacity_okOr (by decide) (by decide)).bind ?_ (by unfold maxPath defaultInit; omega)
          intro st hst
          rw [Handles.recurseLoop, use_new, bind_ok, (skip_dots ign).1, bind_ok, if_pos rfl, Handles.recurseLoop, use_new, bind_ok, (skip_dots ign).2, bind_ok, if_pos rfl]
          have hrec : ∀ n e, n ≠ [] → resolve w true (t ++ 47 :: n) = some e → RecIn E w ign (Handles.dirListRecurse E w ign j) (t ++ 47 :: n) := by
            intro n e hn he
            have h1 := (resolve_some he).2.1
            have h2 := List.length_pos_iff.2 hn
            simp only [List.length_append, List.length_cons] at h1
            exact ih (by omega) (by simp only [List.length_append, List.length_cons]; omega)
          refine (handles_recurseLoop hw hz hr hk hrec (names w d) (fun n hn => mem_names.1 hn) st pl hst.1).bind ?_ (Nat.le_refl _)
          rintro ⟨r, f'⟩ ⟨rfl, l, L, rfl, hl, hP⟩
          simp only [close_new, bind_ok]
          refine OkOr.ok ⟨rfl, Or.inr ⟨by simp, k, hk, l, L, rfl, hl, ?_⟩⟩
          rw [reachedIn, hrd, Option.getD_some, shown_names (names_good hw)]
          exact hP

/-! ### Few and many handles -/

theorem reachedIn_dir {w : World} {ign : Bool} {k : Nat} {t : Text} {n : Name} (h : n ∈ reachedIn w ign k t) (hd : stat w (t ++ 47 :: n) = some .dir) : 0 < k := by
  have := List.mem_takeWhile_imp h
  simp only [opensIn, hd, decide_true, Bool.not_true, Bool.false_or, Bool.and_eq_true, decide_eq_true_eq] at this
  exact this.2

theorem reachedIn_no_dir {w : World} {ign : Bool} {k : Nat} {t : Text} (h : stat w t ≠ some .dir) : reachedIn w ign k t = [] := by
  have : readdir w t = none := by
    cases hr : readdir w t with
    | none => rfl
    | some ns =>
      obtain ⟨e, h1, h2, -⟩ := readdir_some hr
      exact absurd (stat_dir h1 h2) h
  simp [reachedIn, this]

theorem mem_reachedIn {w : World} (hw : Wf w) {ign : Bool} {k : Nat} {t : Text} {n : Name} (h : n ∈ reachedIn w ign k t) : 47 ∉ n := by
  unfold reachedIn at h
  cases hr : readdir w t with
  | none => simp [hr] at h
  | some ns =>
    obtain ⟨d, -, -, rfl⟩ := readdir_some hr
    rw [hr, Option.getD_some, shown_names (names_good hw)] at h
    exact (names_good hw n (List.mem_of_mem_filter ((List.takeWhile_sublist _).subset h))).sep

/-- Every directory that is listed lies at most `k` levels down. -/
theorem listingIn_level {w : World} (hw : Wf w) {ign : Bool} {k : Nat} {t : Text} {ns : List Name} {L : List Text} (h : ListingIn w ign k t ns L) :
    (∀ n ∈ ns, n ∈ reachedIn w ign k t) → ∀ v ∈ L, stat w v = some .dir → v.count 47 ≤ t.count 47 + k := by
  induction h with
  | nil => intro _ v hv; cases hv
  | @cons k t n ns S L h1 h2 ih1 ih2 =>
    intro hns v hv hd
    have hn := hns n (by simp)
    have hcn : n.count 47 = 0 := List.count_eq_zero.2 (mem_reachedIn hw hn)
    rcases List.mem_append.1 hv with hv | hv
    · have hdn : stat w (t ++ 47 :: n) = some .dir := by
        by_contra hc
        rw [reachedIn_no_dir hc] at h1
        cases h1
        cases hv
      have := reachedIn_dir hn hdn
      have := ih1 (fun m hm => hm) v hv hd
      simp only [List.count_append, List.count_cons_self] at this
      omega
    · rcases List.mem_cons.1 hv with rfl | hv
      · have := reachedIn_dir hn hd
        simp only [List.count_append, List.count_cons_self]
        omega
      · exact ih2 (fun m hm => hns m (by simp [hm])) v hv hd

theorem listedAt_level {w : World} (hw : Wf w) {ign : Bool} {k : Nat} {t v : Text} (h : ListedAt w ign k t v) : v.count 47 = t.count 47 + k ∧ 0 < k ∧ Listed w ign t v := by
  induction h with
  | @entry t n hn =>
    have hcn : n.count 47 = 0 := List.count_eq_zero.2 ((reached_props hw ign t).2 n hn)
    simp only [List.count_append, List.count_cons_self]
    exact ⟨by omega, by decide, .entry hn⟩
  | @inside k t v n hn _ ih =>
    have hcn : n.count 47 = 0 := List.count_eq_zero.2 ((reached_props hw ign t).2 n hn)
    simp only [List.count_append, List.count_cons_self] at ih
    exact ⟨by omega, by omega, .inside hn ih.2.2⟩

/-- No directory lies more than `k` levels below `t`. -/
def Spec.Shallow (w : World) (ign : Bool) (k : Nat) (t : Text) : Prop := ∀ j v, k < j → ListedAt w ign j t v → stat w v ≠ some .dir

theorem takeWhile_congr_mem {α : Type} {p q : α → Bool} : ∀ {l : List α}, (∀ x ∈ l.takeWhile p, q x = true) → (∀ x, q x = true → p x = true) → l.takeWhile q = l.takeWhile p
  | [], _, _ => rfl
  | x :: l, h, h2 => by
    by_cases hp : p x = true
    · rw [List.takeWhile_cons_of_pos hp] at h ⊢
      rw [List.takeWhile_cons_of_pos (h x (by simp)), takeWhile_congr_mem (fun y hy => h y (by simp [hy])) h2]
    · rw [List.takeWhile_cons_of_neg hp, List.takeWhile_cons_of_neg (fun hq => hp (h2 x hq))]

theorem shallow_reached {w : World} {ign : Bool} {k : Nat} {t : Text} (h : Shallow w ign k t) : reachedIn w ign k t = reached w ign t := by
  unfold reachedIn reached
  refine takeWhile_congr_mem (fun n hn => ?_) (fun n hn => ?_)
  · have ho := List.mem_takeWhile_imp hn
    simp only [opens, opensIn, Bool.or_eq_true, Bool.and_eq_true, Bool.not_eq_true', decide_eq_false_iff_not, decide_eq_true_eq] at ho ⊢
    refine ho.imp id fun x => ⟨x, ?_⟩
    by_contra hk
    have hd : stat w (t ++ 47 :: n) = some .dir := by
      cases hr : readdir w (t ++ 47 :: n) with
      | none => simp [hr] at x
      | some ns =>
        obtain ⟨e, h1, h2, -⟩ := readdir_some hr
        exact stat_dir h1 h2
    exact h 1 _ (by omega) (.entry hn) hd
  · simp only [opens, opensIn, Bool.or_eq_true, Bool.and_eq_true] at hn ⊢
    exact hn.imp id fun x => x.1

theorem shallow_sub {w : World} {ign : Bool} {k : Nat} {t : Text} (h : Shallow w ign k t) {n : Name} (hn : n ∈ reached w ign t) : Shallow w ign (k - 1) (t ++ 47 :: n) :=
  fun j v hj hv => h (j + 1) v (by omega) (.inside hn hv)

theorem shallow_listing {w : World} {ign : Bool} {k : Nat} {t : Text} {ns : List Name} {L : List Text} (h : ListingIn w ign k t ns L) :
    Shallow w ign k t → (∀ n ∈ ns, n ∈ reached w ign t) → Listing w ign t ns L := by
  induction h with
  | nil => intro _ _; exact .nil
  | @cons k t n ns S L h1 h2 ih1 ih2 =>
    intro hs hns
    have hn := hns n (by simp)
    have hs1 := shallow_sub hs hn
    rw [shallow_reached hs1] at ih1
    exact .cons (ih1 hs1 fun m hm => hm) (ih2 hs fun m hm => hns m (by simp [hm]))

theorem listed_listedAt {w : World} {ign : Bool} {t v : Text} (h : Listed w ign t v) : ∃ k, ListedAt w ign k t v := by
  induction h with
  | entry hn => exact ⟨1, .entry hn⟩
  | inside hn _ ih =>
    obtain ⟨k, hk⟩ := ih
    exact ⟨k + 1, .inside hn hk⟩

/-- **C136**, recursive listings, whatever the number of handles: those that are opened are closed again.  If `k` more can be had besides the one for the directory itself, the list
is that of `C62_exact` except that a directory `k + 1` levels down counts as one that cannot be opened. -/
theorem C136_recurse {E : Env} {w : World} (hw : Wf w) {z : Mem} {t : Text} (hz : CStr z t) (ign : Bool) (pl : List Arr) (f : Fds) :
    OkOr E (maxPath + 312) (Handles.dirListRecurse E w ign maxPath pl z f) fun r => r.2 = f ∧
      ((r.1 = none ∧ (readdir w t = none ∨ f.limit ≤ f.open_.length)) ∨
       (readdir w t ≠ none ∧ ∃ k, f.limit = f.open_.length + 1 + k ∧ ∃ l L, r.1 = some (pl ++ l) ∧ List.Forall₂ IsStr l L ∧ ListingIn w ign k t (reachedIn w ign k t) L)) :=
  handles_dirListRecurse hw maxPath (by decide) (by omega) z hz pl f

/-- **C136.** With `k` handles to spare the list is the complete one, that of `C62_exact`, if and only if no directory lies more than `k` levels down; and if one does,
neither it nor anything in it is in the list, although NULL is not returned. -/
theorem C136_deep {E : Env} {w : World} (hw : Wf w) {z : Mem} {t : Text} (hz : CStr z t) (hd : readdir w t ≠ none) (ign : Bool) (pl : List Arr) {f : Fds} {k : Nat}
    (hf : f.limit = f.open_.length + 1 + k) :
    OkOr E (maxPath + 312) (Handles.dirListRecurse E w ign maxPath pl z f) fun r => ∃ l L, r = (some (pl ++ l), f) ∧ List.Forall₂ IsStr l L ∧
      (Listing w ign t (reached w ign t) L ↔ ∀ j v, k < j → ListedAt w ign j t v → stat w v ≠ some .dir) ∧
      ∀ v ∈ L, stat w v = some .dir → v.count 47 ≤ t.count 47 + k := by
  refine (C136_recurse hw hz ign pl f).mono ?_ (Nat.le_refl _)
  rintro ⟨r, f'⟩ ⟨rfl, ⟨-, h | h⟩ | ⟨-, k', hk', l, L, rfl, hl, hL⟩⟩
  · exact absurd h hd
  · omega
  · have : k' = k := by omega
    subst this
    refine ⟨l, L, rfl, hl, ⟨fun h j v hj hv hdir => ?_, fun h => ?_⟩, listingIn_level hw hL fun n hn => hn⟩
    · obtain ⟨g1, -, g3⟩ := listedAt_level hw hv
      have := listingIn_level hw hL (fun n hn => hn) v ((listing_listed h v).2 g3) hdir
      omega
    · have hs : Shallow w ign k' t := h
      rw [shallow_reached hs] at hL
      exact shallow_listing hL hs fun n hn => hn

theorem listedAt_length {w : World} (hw : Wf w) {ign : Bool} {k : Nat} {t v : Text} (h : ListedAt w ign k t v) : t.length + 2 * k ≤ v.length := by
  have ne : ∀ {t : Text} {n : Name}, n ∈ reached w ign t → 0 < n.length := by
    intro t n hn
    rw [reached] at hn
    cases hr : readdir w t with
    | none => simp [hr] at hn
    | some ns =>
      obtain ⟨d, -, -, rfl⟩ := readdir_some hr
      rw [hr, Option.getD_some, shown_names (names_good hw)] at hn
      exact List.length_pos_iff.2 (names_good hw n (List.mem_of_mem_filter ((List.takeWhile_sublist _).subset hn))).ne
  induction h with
  | @entry t n hn =>
    have := ne hn
    simp only [List.length_append, List.length_cons]
    omega
  | @inside k t v n hn _ ih =>
    have := ne hn
    simp only [List.length_append, List.length_cons] at ih
    omega

/-- **C136.** Since no path is longer than 4095 characters, 2048 handles are always enough: the list is the complete one. -/
theorem C136_enough {E : Env} {w : World} (hw : Wf w) {z : Mem} {t : Text} (hz : CStr z t) (hd : readdir w t ≠ none) (ign : Bool) (pl : List Arr) {f : Fds}
    (hf : f.open_.length + 2048 ≤ f.limit) :
    OkOr E (maxPath + 312) (Handles.dirListRecurse E w ign maxPath pl z f) fun r => ∃ l L, r = (some (pl ++ l), f) ∧ List.Forall₂ IsStr l L ∧
      Listing w ign t (reached w ign t) L := by
  obtain ⟨k, hk⟩ := Nat.exists_eq_add_of_le (show f.open_.length + 1 ≤ f.limit by omega)
  refine (C136_deep hw hz hd ign pl hk).mono ?_ (Nat.le_refl _)
  rintro r ⟨l, L, h1, h2, h3, -⟩
  refine ⟨l, L, h1, h2, h3.2 fun j v hj hv hs => ?_⟩
  have hlen := listedAt_length hw hv
  have ht : t ≠ [] := by
    rintro rfl
    apply hd
    cases hr : readdir w [] with
    | none => rfl
    | some ns =>
      obtain ⟨d, h1, -, -⟩ := readdir_some hr
      exact absurd rfl (resolve_some h1).1
  have ht := List.length_pos_iff.2 ht
  obtain ⟨e, he, -⟩ := isDir_resolve (w := w) (u := v) (by simp [Path.isDir, hs])
  have := (resolve_some he).2.1
  unfold maxPath at this
  omega

theorem reachedIn_reached {w : World} {ign : Bool} {k : Nat} {t : Text} : ∀ n ∈ reachedIn w ign k t, n ∈ reached w ign t := by
  have key : ∀ {p q : Name → Bool}, (∀ x, q x = true → p x = true) → ∀ (l : List Name), ∀ x ∈ l.takeWhile q, x ∈ l.takeWhile p := by
    intro p q h l
    induction l with
    | nil => intro x hx; exact hx
    | cons y l ih =>
      intro x hx
      by_cases hq : q y = true
      · rw [List.takeWhile_cons_of_pos hq] at hx
        rw [List.takeWhile_cons_of_pos (h y hq)]
        rcases List.mem_cons.1 hx with rfl | hx
        · simp
        · exact List.mem_cons_of_mem _ (ih x hx)
      · rw [List.takeWhile_cons_of_neg hq] at hx
        cases hx
  refine key (fun n hn => ?_) _
  simp only [opens, opensIn, Bool.or_eq_true, Bool.and_eq_true] at hn ⊢
  exact hn.imp id fun x => x.1

theorem listingIn_listed {w : World} {ign : Bool} {k : Nat} {t : Text} {ns : List Name} {L : List Text} (h : ListingIn w ign k t ns L) :
    (∀ n ∈ ns, n ∈ reached w ign t) → ∀ v ∈ L, Listed w ign t v := by
  induction h with
  | nil => intro _ v hv; cases hv
  | @cons k t n ns S L h1 h2 ih1 ih2 =>
    intro hns v hv
    rcases List.mem_append.1 hv with hv | hv
    · exact .inside (hns n (by simp)) (ih1 reachedIn_reached v hv)
    · rcases List.mem_cons.1 hv with rfl | hv
      · exact .entry (hns n (by simp))
      · exact ih2 (fun m hm => hns m (by simp [hm])) v hv

/-- **C136**, recursive removal: the handles are those from before; what is removed and returned is as in `C63_exact`, with the listing that the handles allow. -/
theorem C136_rmdir {E : Env} {w : World} (hw : Wf w) {z : Mem} {t : Text} (hz : CStr z t) {f : Fds} {k : Nat} (hf : f.limit = f.open_.length + 1 + k) :
    OkOr E (maxPath + 312) (Handles.rmdirRecurse E maxPath w z f) fun x => x.2 = f ∧ (fun r =>
      (stat w t = none ∧ r = (w, false)) ∨
      (stat w t ≠ none ∧ reachedIn w false k t = [] ∧ Dropped w t r.1 r.2) ∨
      (reachedIn w false k t ≠ [] ∧ ∃ L w1, ListingIn w false k t (reachedIn w false k t) L ∧ ((TakenDown w L w1 false ∧ r = (w1, false)) ∨
        (TakenDown w L w1 true ∧ r.2 = true ∧ ∃ b, Dropped w1 t r.1 b)))) x.1 := by
  unfold Handles.rmdirRecurse
  rw [hz.text, bind_ok]
  by_cases hs : stat w t = none
  · rw [if_pos (by simp [Path.exists_, hs])]
    exact OkOr.ok ⟨rfl, .inl ⟨hs, rfl⟩⟩
  · rw [if_neg (by simp [Path.exists_, Option.isSome_iff_ne_none.2 hs])]
    refine (C136_recurse hw hz false [] f).bind ?_ (Nat.le_refl _)
    rintro ⟨o, f'⟩ ⟨rfl, ⟨rfl, hn | hn⟩ | ⟨-, k', hk', l, L, rfl, hl, hL⟩⟩
    · exact OkOr.ok ⟨rfl, .inr (.inl ⟨hs, by simp [reachedIn, hn], rmdir_dropped w t⟩)⟩
    · omega
    · have : k' = k := by omega
      subst this
      cases l with
      | nil =>
        cases hl
        have : reachedIn w false k' t = [] := by
          generalize hns : reachedIn w false k' t = ns at hL
          cases ns with
          | nil => rfl
          | cons n ns => generalize hL' : ([] : List Text) = L' at hL; cases hL; simp at hL'
        exact OkOr.ok ⟨rfl, .inr (.inl ⟨hs, this, rmdir_dropped w t⟩)⟩
      | cons a l =>
        have hne : reachedIn w false k' t ≠ [] := by
          intro h0
          rw [h0] at hL
          cases hL
          cases hl
        obtain ⟨r, e, w1, h⟩ := rmdirLoop_down (t := t) (a :: l) L hl (fun v hv => listed_entryText hw (listingIn_listed hL reachedIn_reached v hv)) w
        simp only [List.nil_append]
        rw [e]
        exact OkOr.ok ⟨rfl, .inr (.inr ⟨hne, L, w1, hL, h⟩)⟩

/-- Example: `/a/b/c/f`, three directories and a file. -/
def exDeep : World := { nodes := [([[97]], .dir), ([[97], [98]], .dir), ([[97], [98], [99]], .dir), ([[97], [98], [99], [102]], .file [1]), ([[97], [98], [120]], .file [])] }

/-- Example: the three standard streams are open, and `n` more handles can be had. -/
def exFds (n : Nat) : Fds := { limit := 3 + n, open_ := [0, 1, 2] }

-- With three handles everything is listed, with two `c` and what is beside it are missing, with none NULL is returned.
example : (Handles.dirListRecurse exE exDeep false 9 [] (zstr (chars' "/a")) (exFds 3)).mapOk (fun o => ((o.1.getD []).map fun s => s.mem.take s.len, o.2)) =
    .ok ([(chars' "/a/b/c/f").map some, (chars' "/a/b/c").map some, (chars' "/a/b/x").map some, (chars' "/a/b").map some], exFds 3) := by decide +kernel

example : (Handles.dirListRecurse exE exDeep false 9 [] (zstr (chars' "/a")) (exFds 2)).mapOk (fun o => ((o.1.getD []).map fun s => s.mem.take s.len, o.2)) =
    .ok ([(chars' "/a/b").map some], exFds 2) := by decide +kernel

example : (Handles.dirListRecurse exE exDeep false 9 [] (zstr (chars' "/a")) (exFds 0)).mapOk (fun o => (o.1.isSome, o.2)) = .ok (false, exFds 0) := by decide +kernel

example : ListedAt exDeep false 2 (chars' "/a") (chars' "/a/b/c") :=
  .inside (n := [98]) (by decide +kernel) (.entry (t := chars' "/a/b") (n := [99]) (by decide +kernel))

-- A file that is read, one that is written, and the file for debug messages that cannot be opened.
example : (Handles.read exE exDeep (zstr (chars' "/a/b/c/f")) (exFds 1)).mapOk (fun o => (o.1.map fun s => s.mem.take 1, o.2)) = .ok (some [some 1], exFds 1) ∧
    (Handles.writefc exDeep (zstr (chars' "/a/n")) false true [65] (exFds 1)).mapOk (fun o => (kind o.1.1 [[97], [110]], o.1.2, o.2)) = .ok (some (.file [65, 10]), true, exFds 1) ∧
    (Handles.emit true (some (zstr (chars' "/q/n"))) exDeep [65] (exFds 1)).mapOk (fun o => (o.1.2, o.2)) = .ok ([65], { limit := 4, open_ := [0, 1] }) := by
  decide +kernel

end Vita
