import Verif.Model.FileIo
import Verif.Props.PathFs
/-!
# Reading and writing files (C64, C65)
-/

namespace Vita
open Out Spec Fs
seal wadd wsub wmul

/-! ### Resolution does not depend on the data of files -/

/-- `w'` differs from `w` at most in the data of files, and in files that have been added. -/
structure Rewritten (w w' : World) : Prop where
  cwd : w'.cwd = w.cwd
  kind : ∀ q, kind w' q = kind w q ∨ (kind w q = none ∨ ∃ d, kind w q = some (.file d)) ∧ ∃ d, Fs.kind w' q = some (.file d)

theorem Rewritten.dir {w w' : World} (h : Rewritten w w') (q : Fs.Path) : Fs.kind w' q = some .dir ↔ Fs.kind w q = some .dir := by
  rcases h.kind q with e | ⟨e1 | ⟨d, e1⟩, ⟨d', e2⟩⟩
  · rw [e]
  · simp [e1, e2]
  · simp [e1, e2]

theorem walk1_rewritten {w w' : World} (h : Rewritten w w') {f : Bool} {r r' : Fs.Path → List Name → Option Fs.Path} (hr : ∀ a b, r' a b = r a b) :
    ∀ (cs : List Name) (cur : Fs.Path), walk1 w' f r' cur cs = walk1 w f r cur cs := by
  intro cs
  induction cs with
  | nil => intro cur; rfl
  | cons c cs ih =>
    intro cur
    rw [walk1, walk1]
    by_cases hd : kind w cur = some .dir
    · have hd' := (h.dir cur).2 hd
      rw [if_neg (show ¬ kind w' cur ≠ some .dir by simp [hd']), if_neg (show ¬ kind w cur ≠ some .dir by simp [hd])]
      simp only [ih]
      congr 2
      rcases h.kind (cur ++ [c]) with e | ⟨e1 | ⟨d, e1⟩, ⟨d', e2⟩⟩
      · rw [e]; cases kind w (cur ++ [c]) with
        | none => rfl
        | some k => cases k <;> simp [hr]
      · rw [e1, e2]
        cases cs with
        | nil => rfl
        | cons c' cs =>
          simp only [walk1]
          rw [if_pos (by simp [e1])]
          simp
      · rw [e1, e2]
    · rw [if_pos (fun hc => hd ((h.dir cur).1 hc)), if_pos hd]

theorem walk_rewritten {w w' : World} (h : Rewritten w w') {f : Bool} : ∀ (l : Nat) (cur : Fs.Path) (cs : List Name), walk w' f l cur cs = walk w f l cur cs
  | 0, cur, cs => walk1_rewritten h (fun _ _ => rfl) cs cur
  | l + 1, cur, cs => walk1_rewritten h (fun a b => walk_rewritten h l a b) cs cur

theorem resolve_rewritten {w w' : World} (h : Rewritten w w') (f : Bool) (t : Text) : resolve w' f t = resolve w f t := by
  unfold resolve
  rw [walk_rewritten h, h.cwd]

/-! ### One call -/

theorem kind_setData {w : World} {p : Fs.Path} (hp : kind w p ≠ none) (hp0 : p ≠ []) (d : List UInt8) (q : Fs.Path) :
    kind (setData w p d) q = if q = p then some (.file d) else kind w q := by
  by_cases hq : q = []
  · subst hq; rw [if_neg (Ne.symm hp0)]; simp [kind]
  · rw [kind_ne hq, kind_ne hq, setData]
    simp only [List.find?_map]
    have hf : ((fun q' : Fs.Path × Kind => decide (q'.1 = q)) ∘ fun q => if q.1 = p then (p, Kind.file d) else q) =
        fun q' => decide (q'.1 = q) := by
      funext x
      simp only [Function.comp]
      by_cases hx : x.1 = p <;> simp [hx]
    rw [hf]
    by_cases h : q = p
    · subst h
      rw [kind_ne hq] at hp
      rw [if_pos rfl]
      cases hx : w.nodes.find? fun q' => decide (q'.1 = q) with
      | none => rw [hx] at hp; simp at hp
      | some x =>
        have := List.find?_some hx
        simp only [decide_eq_true_eq] at this
        simp [this]
    · rw [if_neg h]
      cases hx : w.nodes.find? fun q' => decide (q'.1 = q) with
      | none => rfl
      | some x =>
        have := List.find?_some hx
        simp only [decide_eq_true_eq] at this
        simp only [Option.map_some]
        rw [if_neg (by rw [this]; exact h)]

/-- The data of a file, none if there is no file. -/
def dataOf : Option Kind → List UInt8
  | some (.file d) => d
  | _ => []

theorem dataAt_eq (w : World) (p : Fs.Path) : dataAt w p = dataOf (kind w p) := by
  unfold dataAt dataOf
  split <;> simp_all

/-- What one write leaves in the file. -/
def dataAfter (append : Bool) (k : Option Kind) (bs : List UInt8) : List UInt8 := (if append then dataOf k else []) ++ bs

/-- The world after a write to the file at `p`. -/
structure Wrote (w w' : World) (p : Fs.Path) (d : List UInt8) : Prop where
  cwd : w'.cwd = w.cwd
  readable : w'.readable = w.readable
  mayCreate : w'.mayCreate = w.mayCreate
  mayRemove : w'.mayRemove = w.mayRemove
  mayWrite : w'.mayWrite = w.mayWrite
  room : w'.room = w.room
  kind : ∀ q, kind w' q = if q = p then some (.file d) else Fs.kind w q

/-- What is in a file that held `d` and can become `room` bytes long, after the bytes `bs` have been written at its end. -/
def kept (room : Option Nat) (d bs : List UInt8) : List UInt8 :=
  match room with
  | none => d ++ bs
  | some n => d ++ bs.take (n - d.length)

theorem kept_kept (room : Option Nat) (d a b : List UInt8) : kept room (kept room d a) b = kept room d (a ++ b) := by
  cases room with
  | none => simp [kept]
  | some n =>
    simp only [kept, List.append_assoc, List.length_append, List.length_take]
    by_cases h : n - d.length ≤ a.length
    · rw [show n - (d.length + min (n - d.length) a.length) = 0 by omega, List.take_zero, List.append_nil, List.take_append_of_le_length h]
    · rw [List.take_of_length_le (show a.length ≤ n - d.length by omega), List.take_append,
        List.take_of_length_le (show a.length ≤ n - d.length by omega)]
      congr 3; omega

theorem put_kept {w w0 : World} {p : Fs.Path} {d : List UInt8} (h : Wrote w w0 p d) (hp : p ≠ []) (bs : List UInt8) :
    Wrote w (put w0 p bs) p (kept (w.room p) d bs) := by
  have hk : kind w0 p = some (.file d) := by rw [h.kind, if_pos rfl]
  have hput : put w0 p bs = setData w0 p (kept (w.room p) d bs) := by
    unfold put kept
    rw [h.room, dataAt_eq, hk]
    cases w.room p <;> rfl
  rw [hput]
  refine ⟨h.cwd, h.readable, h.mayCreate, h.mayRemove, h.mayWrite, h.room, fun q => ?_⟩
  rw [kind_setData (by rw [hk]; simp) hp, h.kind]
  split <;> rfl

theorem put_wrote {w w0 : World} {p : Fs.Path} {d : List UInt8} (h : Wrote w w0 p d) (hp : p ≠ []) (hroom : w.room p = none) (bs : List UInt8) :
    Wrote w (put w0 p bs) p (d ++ bs) := by
  have := put_kept h hp bs
  rwa [hroom] at this

theorem openW_wrote {w w1 : World} {app : Bool} {t : Text} {p : Fs.Path} (h : openW w app t = some (w1, p)) :
    resolve w true t = some p ∧ p ≠ [] ∧ Wrote w w1 p (dataAfter app (kind w p) []) ∧ (kind w p = none ∨ ∃ d, kind w p = some (.file d)) := by
  unfold openW at h
  cases hr : resolve w true t with
  | none => rw [hr] at h; cases h
  | some p' =>
    rw [hr] at h
    simp only [Option.bind_eq_bind, Option.bind_some] at h
    by_cases hl : t.getLast? = some 47
    · rw [if_pos hl] at h; cases h
    · rw [if_neg hl] at h
      cases hk : kind w p' with
      | none =>
        rw [hk] at h
        simp only at h
        split at h
        · injection h with h
          injection h with h1 h2
          subst h1; subst h2
          have hp0 : p' ≠ [] := by intro hc; rw [hc, kind_nil] at hk; cases hk
          refine ⟨rfl, hp0, ⟨rfl, rfl, rfl, rfl, rfl, rfl, fun q => ?_⟩, Or.inl hk⟩
          rw [kind_added hk]
          cases app <;> simp [dataAfter, dataOf, hk]
        · cases h
      | some k =>
        rw [hk] at h
        cases k with
        | file d =>
          simp only at h
          split at h
          · injection h with h
            injection h with h1 h2
            subst h1; subst h2
            have hp0 : p' ≠ [] := by intro hc; rw [hc, kind_nil] at hk; cases hk
            refine ⟨rfl, hp0, ?_, Or.inr ⟨d, hk⟩⟩
            cases app with
            | true =>
              refine ⟨rfl, rfl, rfl, rfl, rfl, rfl, fun q => ?_⟩
              by_cases hq : q = p' <;> simp [hq, hk, dataAfter, dataOf]
            | false =>
              refine ⟨rfl, rfl, rfl, rfl, rfl, rfl, fun q => ?_⟩
              simp only [Bool.false_eq_true, if_false]
              rw [kind_setData (by rw [hk]; simp) hp0]
              simp [dataAfter]
          · cases h
        | dir => cases h
        | link x => cases h

/-- The name of the file, whether the call appends, and the bytes it writes. -/
structure Does (c : FileIo.Call) (t : Text) (app : Bool) (bs : List UInt8) : Prop where
  is : ∃ z b s, scanZ z = .ok t ∧ scanZ b = .ok s ∧
    (c = .write z b ∧ app = false ∧ bs = s ∨ c = .writeln z b ∧ app = false ∧ bs = s ++ [10] ∨
      c = .append z b ∧ app = true ∧ bs = s ∨ c = .appendln z b ∧ app = true ∧ bs = s ++ [10])

theorem writefc_ok {w : World} {z : Mem} {t : Text} (hz : scanZ z = .ok t) (app ln : Bool) (s : List UInt8) :
    ∃ r, FileIo.writefc w z app ln s = .ok r ∧ (r.2 = false → r.1 = w ∧ openW w app t = none) ∧
      (r.2 = true → ∃ p, resolve w true t = some p ∧ p ≠ [] ∧ (kind w p = none ∨ ∃ d, kind w p = some (.file d)) ∧
        Wrote w r.1 p (kept (w.room p) (dataAfter app (kind w p) []) (s ++ if ln then [10] else []))) := by
  unfold FileIo.writefc
  rw [hz, bind_ok]
  cases ho : openW w app t with
  | none => exact ⟨_, rfl, fun _ => ⟨rfl, rfl⟩, by simp⟩
  | some x =>
    obtain ⟨w1, p⟩ := x
    obtain ⟨h1, h2, h3, h4⟩ := openW_wrote ho
    refine ⟨_, rfl, by simp, fun _ => ⟨p, h1, h2, h4, ?_⟩⟩
    have h5 := put_kept h3 h2 s
    cases ln with
    | false => simpa using h5
    | true =>
      have := put_kept h5 h2 [10]
      rw [kept_kept] at this
      simpa using this

theorem run_ok {w : World} {c : FileIo.Call} {t : Text} {app : Bool} {bs : List UInt8} (h : Does c t app bs) :
    ∃ r, FileIo.run w c = .ok r ∧ (r.2 = false → r.1 = w ∧ openW w app t = none) ∧
      (r.2 = true → ∃ p, resolve w true t = some p ∧ p ≠ [] ∧ (kind w p = none ∨ ∃ d, kind w p = some (.file d)) ∧
        Wrote w r.1 p (kept (w.room p) (dataAfter app (kind w p) []) bs)) := by
  obtain ⟨z, b, s, hz, hb, h⟩ := h.is
  rcases h with ⟨rfl, rfl, rfl⟩ | ⟨rfl, rfl, rfl⟩ | ⟨rfl, rfl, rfl⟩ | ⟨rfl, rfl, rfl⟩
  · simpa [FileIo.run, FileIo.write, hb] using writefc_ok (w := w) hz false false bs
  · simpa [FileIo.run, FileIo.writeln, hb] using writefc_ok (w := w) hz false true s
  · simpa [FileIo.run, FileIo.append, hb] using writefc_ok (w := w) hz true false bs
  · simpa [FileIo.run, FileIo.appendln, hb] using writefc_ok (w := w) hz true true s

/-! ### C64 -/

/-- What is at the path `p`, where `k` was, after the writes listed: each with its path, whether it appends, and the bytes. -/
def fileAfter (p : Fs.Path) : (k : Option Kind) → List (Fs.Path × Bool × List UInt8) → Option Kind
  | k, [] => k
  | k, (q, app, bs) :: h => fileAfter p (if q = p then some (.file ((if app then dataOf k else []) ++ bs)) else k) h

/-- The call `c` is one of writing functions, called with a file name that leads to the path of `x` and the text to be written. -/
def Means (w : World) (c : FileIo.Call) (x : Fs.Path × Bool × List UInt8) : Prop :=
  ∃ t, Does c t x.2.1 x.2.2 ∧ resolve w true t = some x.1

theorem Wrote.rewritten {w w' : World} {p : Fs.Path} {d : List UInt8} (h : Wrote w w' p d) (hk : Fs.kind w p = none ∨ ∃ d, Fs.kind w p = some (.file d)) :
    Rewritten w w' := by
  refine ⟨h.cwd, fun q => ?_⟩
  rw [h.kind]
  by_cases hq : q = p
  · rw [if_pos hq, hq]; exact Or.inr ⟨hk, d, rfl⟩
  · rw [if_neg hq]; exact Or.inl rfl

/-- **C64**, all histories (partial: no file is limited in size, see `C64_full_disk`).  After any calls that have all returned true, each file holds the texts
written since and including the last call that did not append, on top of what was there if there is no such call; everything else is as before. -/
theorem C64_history_partial {w : World} (hroom : ∀ p, w.room p = none) : ∀ {cs : List FileIo.Call} {h : List (Fs.Path × Bool × List UInt8)},
    List.Forall₂ (Means w) cs h → ∃ w' rs, FileIo.runs w cs = .ok (w', rs) ∧ rs.length = cs.length ∧
      ((∀ r ∈ rs, r = true) → (∀ p, kind w' p = fileAfter p (kind w p) h) ∧ (∀ f t, resolve w' f t = resolve w f t) ∧ w'.readable = w.readable) := by
  intro cs
  induction cs generalizing w with
  | nil =>
    intro h hm
    cases hm
    exact ⟨w, [], rfl, rfl, fun _ => ⟨fun p => rfl, fun _ _ => rfl, rfl⟩⟩
  | cons c cs ih =>
    intro h hm
    cases hm with
    | @cons _ x _ h hc hm =>
    obtain ⟨t, hd, hx⟩ := hc
    obtain ⟨⟨w1, b⟩, he, hf, ht⟩ := run_ok (w := w) hd
    cases b with
    | false =>
      obtain ⟨rfl, -⟩ := hf rfl
      obtain ⟨w', rs, e, hl, -⟩ := ih hroom hm
      refine ⟨w', false :: rs, ?_, by simp [hl], fun hall => absurd (hall false (by simp)) (by simp)⟩
      simp only [FileIo.runs, he, bind_ok, e]
    | true =>
      obtain ⟨p, hp, hp0, hk, hw⟩ := ht rfl
      have hw : Wrote w w1 p (dataAfter x.2.1 (kind w p) x.2.2) := by
        rw [hroom p, kept, dataAfter, List.append_nil] at hw; exact hw
      have hpx : p = x.1 := by rw [hx] at hp; injection hp with hp; exact hp.symm
      have hrw := hw.rewritten hk
      have hm' : List.Forall₂ (Means w1) cs h := by
        refine hm.imp ?_
        rintro a y ⟨t, h1, h2⟩
        exact ⟨t, h1, by rw [resolve_rewritten hrw]; exact h2⟩
      obtain ⟨w', rs, e, hl, hgood⟩ := ih (w := w1) (fun q => by have := hw.room; rw [this]; exact hroom q) hm'
      refine ⟨w', true :: rs, ?_, by simp [hl], fun hall => ?_⟩
      · simp only [FileIo.runs, he, bind_ok, e]
      · obtain ⟨g1, g2, g3⟩ := hgood fun r hr => hall r (by simp [hr])
        refine ⟨fun q => ?_, fun f t => ?_, ?_⟩
        · rw [g1, hw.kind, fileAfter]
          congr 1
          by_cases hq : q = p
          · subst hq
            rw [if_pos rfl, if_pos hpx.symm]
            rfl
          · rw [if_neg hq, if_neg (by rw [← hpx]; exact fun h => hq h.symm)]
        · rw [g2, resolve_rewritten hrw]
        · rw [g3]; exact hw.readable

/-- What is at the path `p`, where `k` was, after calls on files named by texts: each with its file name, whether it appends, the bytes, and whether
it returned true.  A file that cannot become longer loses what does not fit. -/
def fileHistory (w : World) (p : Fs.Path) : (k : Option Kind) → List (Text × Bool × List UInt8) → List Bool → Option Kind
  | k, (t, app, bs) :: h, r :: rs =>
    fileHistory w p (if r = true ∧ resolve w true t = some p then some (.file (kept (w.room p) (if app then dataOf k else []) bs)) else k) h rs
  | k, _, _ => k

/-- **C64**, all histories, whatever the calls return and whatever the limits on the sizes of the files: a call that returned false changed nothing; one
that returned true has replaced the contents of its file by the text, or put the text behind them, as far as there was room; everything else is as before. -/
theorem C64_history {w : World} {cs : List FileIo.Call} {h : List (Text × Bool × List UInt8)}
    (hd : List.Forall₂ (fun c x => Does c x.1 x.2.1 x.2.2) cs h) :
    ∃ w' rs, FileIo.runs w cs = .ok (w', rs) ∧ rs.length = cs.length ∧ (∀ p, kind w' p = fileHistory w p (kind w p) h rs) ∧
      (∀ f t, resolve w' f t = resolve w f t) ∧ w'.readable = w.readable ∧ w'.room = w.room := by
  induction hd generalizing w with
  | nil => exact ⟨w, [], rfl, rfl, fun p => rfl, fun _ _ => rfl, rfl, rfl⟩
  | @cons c x cs h hc hd ih =>
    obtain ⟨t, app, bs⟩ := x
    obtain ⟨⟨w1, b⟩, he, hf, ht⟩ := run_ok (w := w) hc
    cases b with
    | false =>
      obtain ⟨rfl, -⟩ := hf rfl
      obtain ⟨w', rs, e, hl, g1, g2, g3, g4⟩ := ih (w := w1)
      refine ⟨w', false :: rs, by simp only [FileIo.runs, he, bind_ok, e], by simp [hl], fun p => ?_, g2, g3, g4⟩
      rw [g1, fileHistory, if_neg (by simp)]
    | true =>
      obtain ⟨p, hp, hp0, hk, hw⟩ := ht rfl
      have hrw := hw.rewritten hk
      obtain ⟨w', rs, e, hl, g1, g2, g3, g4⟩ := ih (w := w1)
      have hro : w1.room = w.room := hw.room
      have hsame : ∀ q k h rs, fileHistory w1 q k h rs = fileHistory w q k h rs := by
        intro q k h
        induction h generalizing k with
        | nil => intro rs; simp [fileHistory]
        | cons y h ihh =>
          intro rs
          obtain ⟨t', app', bs'⟩ := y
          cases rs with
          | nil => rfl
          | cons r rs => simp only [fileHistory, ihh, resolve_rewritten hrw, hro]
      refine ⟨w', true :: rs, by simp only [FileIo.runs, he, bind_ok, e], by simp [hl], fun q => ?_, fun f t => ?_, ?_, ?_⟩
      · rw [g1, hsame, hw.kind, fileHistory]
        congr 1
        by_cases hq : q = p
        · subst hq
          rw [if_pos rfl, if_pos ⟨rfl, hp⟩, dataAfter, List.append_nil]
        · rw [if_neg hq, if_neg]
          rintro ⟨-, h2⟩
          simp only at hp
          rw [hp] at h2
          injection h2 with h2
          exact hq h2.symm
      · rw [g2, resolve_rewritten hrw]
      · rw [g3]; exact hw.readable
      · rw [g4]; exact hw.room

/-- **C64** A call that returns false has changed nothing, and it does so only if the file could not be opened. -/
theorem C64_failure {w : World} {c : FileIo.Call} {t : Text} {app : Bool} {bs : List UInt8} (h : Does c t app bs) :
    ∃ r, FileIo.run w c = .ok r ∧ (r.2 = false ↔ openW w app t = none) ∧ (r.2 = false → r.1 = w) := by
  obtain ⟨r, e, hf, ht⟩ := run_ok (w := w) h
  refine ⟨r, e, ⟨fun h => (hf h).2, fun ho => ?_⟩, fun h => (hf h).1⟩
  by_contra hc
  obtain ⟨z, b, s, hz, hb, h⟩ := h.is
  have key : ∀ ln s, FileIo.writefc w z app ln s = .ok (w, false) := by
    intro ln s
    unfold FileIo.writefc
    rw [hz, bind_ok, ho]
  rcases h with ⟨rfl, rfl, rfl⟩ | ⟨rfl, rfl, rfl⟩ | ⟨rfl, rfl, rfl⟩ | ⟨rfl, rfl, rfl⟩ <;>
    simp only [FileIo.run, FileIo.write, FileIo.writeln, FileIo.append, FileIo.appendln, hb, bind_ok, key] at e <;>
    injection e with e <;> exact hc (by rw [← e])

/-- The string object `v` holds the bytes `d` (with a terminator behind them). -/
structure HoldsBytes (v : Arr) (d : List UInt8) : Prop where
  es : v.elsize = 1
  len : v.len = d.length
  cap : v.cap = d.length
  mem : v.mem = d.map some ++ [some 0]

theorem createLen_okOr' {E : Env} {n : Nat} (h1 : 0 < n ∨ E.debug = false) (hn : n < 2 ^ 63) :
    OkOr E (n + 56) (Str.createLen E n) fun v => IsStr v (List.replicate n 63) ∧ v.cap = n := by
  by_cases h0 : 0 < n
  · exact (createLen_okOr h0 hn).mono fun _ h => ⟨h.1, h.2.1⟩
  · have hdb := h1.resolve_left h0
    have h00 : n = 0 := by omega
    subst h00
    have hw : wmul (wadd 0 1) 1 = 0 + 1 := by decide +kernel
    cases ha : E.allocOk arrStructSize with
    | false =>
      refine Or.inr ⟨?_, _, by simp [arrStructSize], ha⟩
      simp [Str.createLen, dassert_release hdb, vtCalloc_fail (by decide : 0 < arrStructSize) ha]
    | true =>
      cases hb : E.allocOk (0 + 1) with
      | false =>
        refine Or.inr ⟨?_, _, by omega, hb⟩
        simp only [Str.createLen, dassert_release hdb, bind_ok, vtCalloc_ok (by decide : 0 < arrStructSize) ha, hw,
          vtCalloc_fail (by decide : 0 < 0 + 1) hb, bind_exit]
      | true =>
        obtain ⟨v, e, h2, h3, -⟩ := createLen_ok (Or.inr hdb) hn ha hb
        exact Or.inl ⟨v, e, h2, h3⟩

/-- **C64**, reading (partial: in a debug build the file is not empty, see `C64_empty_file_exits`): the string returned holds exactly the bytes of the file. -/
theorem C64_read_partial {E : Env} {w : World} {z : Mem} {t : Text} (hz : CStr z t) {p : Fs.Path} (hr : resolve w true t = some p) {d : List UInt8}
    (hk : kind w p = some (.file d)) (hl : t.getLast? ≠ some 47) (hrd : w.readable p = true) (hd : d ≠ [] ∨ E.debug = false) (hlen : d.length < 2 ^ 63) :
    OkOr E (d.length + 56) (FileIo.read E w z) fun r => ∃ v, r = some v ∧ HoldsBytes v d ∧ (0 ∉ d → IsStr v d) := by
  have hst : stat w t = some (.file d) := by rw [stat_of hr hl, hk]
  have ho : openR w t = some d := by simp [openR, hr, hst, hrd, dataAt_eq, hk, dataOf]
  have hsz : Path.fileSize w t = d.length := by rw [Path.fileSize, hst]
  unfold FileIo.read
  rw [hz.text, bind_ok, ho]
  simp only [hsz]
  rw [if_neg (by omega)]
  rw [show ((d.length : Int)).toNat = d.length by simp]
  refine (createLen_okOr' (hd.imp_left List.length_pos_iff.2) hlen).bind ?_
  rintro s ⟨hs, hcap⟩
  have hslen : s.len = d.length := by rw [hs.len, List.length_replicate]
  have hmem : ∃ c : Mem, s.mem = [] ++ c ++ [some 0] ∧ c.length = d.length := by
    obtain ⟨⟨rest, e⟩, -⟩ := scanZ_eq_ok.1 hs.text
    have := hs.size
    rw [e, hcap] at this
    simp at this
    have : rest = [] := this
    subst this
    exact ⟨_, by rw [e, List.nil_append], by simp⟩
  obtain ⟨c, hc, hcl⟩ := hmem
  have hf : FileIo.fread s.mem s.len d = .ok (d.length, d.map some ++ [some 0]) := by
    unfold FileIo.fread
    rw [hslen, hc, List.take_length, writeN_mid [] c [some 0] (d.map some) (off := 0) rfl (by simp [hcl]), bind_ok]
    simp
  rw [hf, bind_ok, if_neg (by simp [hslen])]
  refine OkOr.ok ⟨_, rfl, ⟨hs.es, hslen, hcap, rfl⟩, fun h0 => ?_⟩
  refine ⟨hs.es, hs.view, ?_, hslen, ?_, hs.lim⟩
  · exact scanZ_append h0
  · simp [hcap]

/-- **C64** The two parts together (partial as `C64_read_partial`): reading after any calls gives the texts of the history. -/
theorem C64_read_after_partial {E : Env} {w : World} {cs : List FileIo.Call} {h : List (Text × Bool × List UInt8)}
    (hm : List.Forall₂ (fun c x => Does c x.1 x.2.1 x.2.2) cs h) {w' : World} {rs : List Bool} (he : FileIo.runs w cs = .ok (w', rs))
    {z : Mem} {t : Text} (hz : CStr z t) {p : Fs.Path} (hr : resolve w true t = some p) (hl : t.getLast? ≠ some 47) (hrd : w.readable p = true)
    {d : List UInt8} (hd : fileHistory w p (kind w p) h rs = some (.file d)) (hd0 : d ≠ [] ∨ E.debug = false) (hlen : d.length < 2 ^ 63) :
    OkOr E (d.length + 56) (FileIo.read E w' z) fun r => ∃ v, r = some v ∧ HoldsBytes v d ∧ (0 ∉ d → IsStr v d) := by
  obtain ⟨w1, rs1, e, -, g1, g2, g3, -⟩ := C64_history (w := w) hm
  rw [he] at e
  injection e with e
  injection e with e1 e2
  subst e1; subst e2
  exact C64_read_partial hz (by rw [g2]; exact hr) (by rw [g1]; exact hd) hl (by rw [g3]; exact hrd) hd0 hlen

/-- **C64** What cannot be opened is reported as NULL. -/
theorem C64_read_missing {E : Env} {w : World} {z : Mem} {t : Text} (hz : CStr z t) (h : stat w t = none) : FileIo.read E w z = .ok none := by
  unfold FileIo.read
  rw [hz.text, bind_ok]
  have : openR w t = none := by
    unfold openR
    cases resolve w true t with
    | none => rfl
    | some p => simp [h]
  rw [this]

/-- **C64** (counterexample) In a debug build reading an empty file, which `vt_file_write(f, "")` leaves, terminates the program. -/
theorem C64_empty_file_exits {E : Env} (hE : E.debug = true) {w : World} {z : Mem} {t : Text} (hz : CStr z t) {p : Fs.Path}
    (hr : resolve w true t = some p) (hk : kind w p = some (.file [])) (hl : t.getLast? ≠ some 47) (hrd : w.readable p = true) :
    FileIo.read E w z = .exit .dbgAssert := by
  have hst : stat w t = some (.file []) := by rw [stat_of hr hl, hk]
  have ho : openR w t = some [] := by simp [openR, hr, hst, hrd, dataAt_eq, hk, dataOf]
  unfold FileIo.read
  rw [hz.text, bind_ok, ho]
  simp [Path.fileSize, hst, Str.createLen, dassert, hE]

/-- **C64** (refutation) What the writing functions of the C library return is not looked at: whenever the file can be opened but there is not enough
room for the text, `vt_file_write` returns true and the file holds only a beginning of the text. -/
theorem C64_full_disk {w : World} {z b : Mem} {t s : Text} (hz : scanZ z = .ok t) (hb : scanZ b = .ok s) {p : Fs.Path} (hr : resolve w true t = some p)
    (ho : openW w false t ≠ none) {n : Nat} (hn : w.room p = some n) (hs : n < s.length) :
    ∃ w', FileIo.write w z b = .ok (w', true) ∧ kind w' p = some (.file (s.take n)) ∧ s.take n ≠ s := by
  obtain ⟨⟨w', r⟩, he, hf, ht⟩ := run_ok (w := w) (c := .write z b) ⟨⟨z, b, s, hz, hb, Or.inl ⟨rfl, rfl, rfl⟩⟩⟩
  cases r with
  | false => exact absurd (hf rfl).2 ho
  | true =>
    obtain ⟨p', hp', -, -, hw⟩ := ht rfl
    rw [hr] at hp'
    injection hp' with hp'
    subst hp'
    refine ⟨w', he, ?_, fun h => ?_⟩
    · rw [hw.kind, if_pos rfl, hn]
      simp [kept, dataAfter]
    · have := congrArg List.length h
      rw [List.length_take] at this
      omega

example : (FileIo.write { nodes := [], room := fun _ => some 2 } (zstr (chars' "/f")) (zstr (chars' "abc"))).mapOk (fun r => (r.1.nodes, r.2)) =
      .ok ([([[102]], .file (chars' "ab"))], true) := by decide +kernel
example : openW { nodes := [], room := fun _ => some 2 } false (chars' "/f") ≠ none := by decide +kernel

example : (FileIo.runs exW [.append (zstr (chars' "/s/f")) (zstr (chars' "x")), .write (zstr (chars' "/n")) (zstr (chars' "y")),
    .appendln (zstr (chars' "/s/../s/f")) (zstr (chars' "z"))]).mapOk (fun r => (kind r.1 [[115], [102]], kind r.1 [[110]], r.2)) =
    .ok (some (.file [1, 120, 122, 10]), some (.file [121]), [true, true, true]) := by decide +kernel
example : Means exW (.append (zstr (chars' "/s/f")) (zstr (chars' "x"))) ([[115], [102]], true, [120]) :=
  ⟨chars' "/s/f", ⟨_, _, [120], by decide +kernel, by decide +kernel, Or.inr (Or.inr (Or.inl ⟨rfl, rfl, rfl⟩))⟩, by decide +kernel⟩

/-- **C64** `vt_file_writef` and `vt_file_writefln` replace the contents like `vt_file_write` and `vt_file_writeln`. -/
theorem C64_writef {w : World} {z : Mem} (s : List UInt8) :
    FileIo.writef w z s = FileIo.writefc w z false false s ∧ FileIo.writefln w z s = FileIo.writefc w z false true s := by
  constructor <;> (first | unfold FileIo.writef | unfold FileIo.writefln) <;> unfold FileIo.writefc <;> cases scanZ z <;> rfl

/-! ### C65 -/

theorem dassert_pos {E : Env} {n : Nat} (h : 0 < n ∨ E.debug = false) : dassert E (decide (n > 0)) = .ok () := by
  rcases h with h | h
  · simp [h]
  · exact dassert_release h _

/-- **C65** The first `min n size` bytes of the buffer are those of the file, all others are as before; so the buffer is never overrun. -/
theorem C65_read_to_buffer {E : Env} {w : World} {z : Mem} {t : Text} (hz : CStr z t) {p : Fs.Path} (hr : resolve w true t = some p) {d : List UInt8}
    (hk : kind w p = some (.file d)) (hl : t.getLast? ≠ some 47) (hrd : w.readable p = true) {buf : Mem} {n : Nat} (hn : 0 < n ∨ E.debug = false) (hb : n ≤ buf.length) :
    FileIo.readToBuffer E w z buf n = .ok (true, (d.take n).map some ++ buf.drop (min n d.length)) := by
  have hst : stat w t = some (.file d) := by rw [stat_of hr hl, hk]
  have ho : openR w t = some d := by simp [openR, hr, hst, hrd, dataAt_eq, hk, dataOf]
  have hsz : Path.fileSize w t = d.length := by rw [Path.fileSize, hst]
  unfold FileIo.readToBuffer
  rw [hz.text, bind_ok, dassert_pos hn, bind_ok, ho]
  simp only [hsz]
  rw [if_neg (by omega), show ((d.length : Int)).toNat = d.length by simp]
  have hk : (if n ≤ d.length then n else d.length) = min n d.length := by
    by_cases h : n ≤ d.length
    · rw [if_pos h, Nat.min_eq_left h]
    · rw [if_neg h, Nat.min_eq_right (by omega)]
  rw [hk]
  have ht : d.take (min n d.length) = d.take n := by
    rw [← List.take_take]; simp
  have hf : FileIo.fread buf (min n d.length) d = .ok (min n d.length, (d.take n).map some ++ buf.drop (min n d.length)) := by
    unfold FileIo.fread
    rw [ht, writeN_ok (by simp; omega), bind_ok]
    simp
  rw [hf, bind_ok]
  simp

/-- **C65** Whatever the file name means, nothing behind the buffer is touched (there is no undefined access) and the buffer stays as it is if NULL is
returned. -/
theorem C65_safe {E : Env} {w : World} {z : Mem} {t : Text} (hz : CStr z t) {buf : Mem} {n : Nat} (hn : 0 < n ∨ E.debug = false) (hb : n ≤ buf.length) :
    ∃ r, FileIo.readToBuffer E w z buf n = .ok r ∧ r.2.length = buf.length ∧ r.2.drop n = buf.drop n ∧ (r.1 = false → r.2 = buf) := by
  unfold FileIo.readToBuffer
  rw [hz.text, bind_ok, dassert_pos hn, bind_ok]
  cases ho : openR w t with
  | none => exact ⟨_, rfl, rfl, rfl, fun _ => rfl⟩
  | some d =>
    simp only
    by_cases hs : Path.fileSize w t < 0
    · rw [if_pos hs]; exact ⟨_, rfl, rfl, rfl, fun _ => rfl⟩
    · rw [if_neg hs]
      have hkn : (if n ≤ (Path.fileSize w t).toNat then n else (Path.fileSize w t).toNat) ≤ n := by split <;> omega
      have hd : (if n ≤ (Path.fileSize w t).toNat then n else (Path.fileSize w t).toNat) ≤ d.length ∨ d = [] := by
        unfold openR at ho
        cases hr : resolve w true t with
        | none => rw [hr] at ho; cases ho
        | some p =>
          rw [hr] at ho
          simp only [Option.bind_eq_bind, Option.bind_some] at ho
          cases hst : stat w t with
          | none => rw [hst] at ho; cases ho
          | some k =>
            rw [hst] at ho
            simp only [Option.bind_some] at ho
            split at ho
            · injection ho with ho
              have hkk : kind w p = some k := by
                unfold stat at hst
                rw [hr] at hst
                simp only [Option.bind_eq_bind, Option.bind_some] at hst
                cases hkp : kind w p with
                | none => rw [hkp] at hst; cases hst
                | some k' =>
                  rw [hkp] at hst
                  simp only [Option.bind_some] at hst
                  split at hst
                  · cases hst
                  · exact hst
              rw [dataAt_eq, hkk] at ho
              rw [Path.fileSize, hst]
              cases k with
              | file x => left; simp only [dataOf] at ho; subst ho; simp only [Int.toNat_natCast]; split <;> omega
              | dir => right; exact ho.symm
              | link x => right; exact ho.symm
            · cases ho
      generalize (if n ≤ (Path.fileSize w t).toNat then n else (Path.fileSize w t).toNat) = k at hkn hd
      have hle : (d.take k).length ≤ n := by simp; omega
      have hf : FileIo.fread buf k d = .ok (min k d.length, (d.take k).map some ++ buf.drop (d.take k).length) := by
        unfold FileIo.fread
        rw [writeN_ok (by simp at hle ⊢; omega), bind_ok]
        simp
      rw [hf, bind_ok]
      have hlen : ((d.take k).map some ++ buf.drop (d.take k).length).length = buf.length := by
        simp only [List.length_append, List.length_map, List.length_drop]; omega
      have hdrop : ((d.take k).map some ++ buf.drop (d.take k).length).drop n = buf.drop n := by
        rw [List.drop_append, List.drop_eq_nil_of_le (by simpa using hle), List.nil_append, List.drop_drop]
        congr 1
        simp only [List.length_map]; omega
      by_cases hc : min k d.length ≠ k
      · rw [if_pos hc]
        refine ⟨_, rfl, hlen, hdrop, fun _ => ?_⟩
        rcases hd with hd | hd
        · exact absurd (Nat.min_eq_left hd) hc
        · simp [hd]
      · rw [if_neg hc]
        exact ⟨_, rfl, hlen, hdrop, by simp⟩

example : FileIo.readToBuffer exE exW (zstr (chars' "/s/f")) [none, some 7, some 8] 2 = .ok (true, [some 1, some 7, some 8]) := by decide +kernel

end Vita
