import Verif.Props.FileIo
import Verif.Props.Occurrences
/-!
# C138: lines written to files come back by reading and splitting
-/

namespace Vita
open Out Spec Fs

namespace Spec

/-- The lines that went to the file at `p`: those of the calls whose file name leads there, in order. -/
def linesAt (w : World) (p : Fs.Path) (h : List (Text × Text)) : List Text :=
  (h.filter fun x => resolve w true x.1 == some p).map (·.2)

end Spec

/-- The call `vt_file_appendln(t, s)`. -/
def AppendsLine (c : FileIo.Call) (x : Text × Text) : Prop := ∃ z b, CStr z x.1 ∧ CStr b x.2 ∧ c = .appendln z b

theorem linesText_eq (ls : List Text) : joinWith [10] (ls ++ [[]]) = ls.flatMap (· ++ [10]) := by
  induction ls with
  | nil => rfl
  | cons a l ih =>
    cases l with
    | nil => simp [joinWith]
    | cons b l =>
      rw [List.flatMap_cons, ← ih]
      rfl

theorem history_lines {w : World} {p : Fs.Path} (hro : w.room p = none) : ∀ (h : List (Text × Text)) (rs : List Bool) (k : Option Kind),
    rs.length = h.length → (∀ r ∈ rs, r = true) → linesAt w p h ≠ [] →
    fileHistory w p k (h.map fun x => (x.1, true, x.2 ++ [10])) rs = some (.file (dataOf k ++ (linesAt w p h).flatMap (· ++ [10]))) := by
  intro h
  induction h with
  | nil => intro rs k _ _ h0; exact absurd rfl h0
  | cons x h ih =>
    intro rs k hl hr h0
    cases rs with
    | nil => simp at hl
    | cons r rs =>
      have hr1 : r = true := hr r (by simp)
      subst hr1
      have hl' : rs.length = h.length := by simpa using hl
      have hr' : ∀ r ∈ rs, r = true := fun r h => hr r (List.mem_cons_of_mem _ h)
      simp only [List.map_cons, fileHistory, true_and]
      by_cases hx : resolve w true x.1 = some p
      · have e : linesAt w p (x :: h) = x.2 :: linesAt w p h := by simp [linesAt, hx]
        rw [if_pos hx, e, hro]
        by_cases h1 : linesAt w p h = []
        · have : ∀ (h : List (Text × Text)) (rs : List Bool) (k : Option Kind), linesAt w p h = [] →
              fileHistory w p k (h.map fun x => (x.1, true, x.2 ++ [10])) rs = k := by
            intro h
            induction h with
            | nil => intro rs k _; simp [fileHistory]
            | cons y h ihh =>
              intro rs k he
              cases rs with
              | nil => simp [fileHistory]
              | cons r rs =>
                have hy : resolve w true y.1 ≠ some p := fun hh => by simp [linesAt, hh] at he
                have he' : linesAt w p h = [] := by simpa [linesAt, hy] using he
                simp only [List.map_cons, fileHistory, hy, and_false, if_false]
                exact ihh rs k he'
          rw [this _ _ _ h1, h1]
          simp [kept]
        · rw [ih rs _ hl' hr' h1]
          simp [kept, dataOf]
      · have e : linesAt w p (x :: h) = linesAt w p h := by simp [linesAt, hx]
        rw [if_neg hx, e]
        exact ih rs k hl' hr' (by rwa [e] at h0)

theorem appendsLine_of_mem {cs : List FileIo.Call} {h : List (Text × Text)} (hc : List.Forall₂ AppendsLine cs h) {x : Text × Text} (hx : x ∈ h) :
    ∃ c, AppendsLine c x := by
  induction hc with
  | nil => cases hx
  | cons ha _ ih =>
    rcases List.mem_cons.1 hx with rfl | hx
    · exact ⟨_, ha⟩
    · exact ih hx

/-- The lines of a file, read and split at the ends of the lines (what a program does with `vt_file_read` and `vt_str_split`). -/
def readLines (E : Env) (k : Nat) (w : World) (z : Mem) : Out (Option (List Arr)) := do
  match ← FileIo.read E w z with
  | none => .ok none
  | some v => Str.split E k v (zstr [10])

theorem lines_read {E : Env} {w w' : World} {cs : List FileIo.Call} {h : List (Text × Text)} {rs : List Bool} (hc : List.Forall₂ AppendsLine cs h)
    (he : FileIo.runs w cs = .ok (w', rs)) (hr : ∀ r ∈ rs, r = true) {z : Mem} {t : Text} (hz : CStr z t) {p : Fs.Path}
    (hp : resolve w true t = some p) (hl : t.getLast? ≠ some 47) (hrd : w.readable p = true) (hro : w.room p = none) (h0 : dataOf (kind w p) = [])
    (hne : linesAt w p h ≠ []) (hlen : ((linesAt w p h).flatMap (· ++ [10])).length < 2 ^ 63) :
    OkOr E (((linesAt w p h).flatMap (· ++ [10])).length + 56) (FileIo.read E w' z) fun r => ∃ v, r = some v ∧
      IsStr v ((linesAt w p h).flatMap (· ++ [10])) ∧ v.cap = ((linesAt w p h).flatMap (· ++ [10])).length := by
  have hd : List.Forall₂ (fun c x => Does c x.1 x.2.1 x.2.2) cs (h.map fun x => (x.1, true, x.2 ++ [10])) := by
    rw [List.forall₂_map_right_iff]
    refine hc.imp ?_
    rintro c x ⟨z, b, h1, h2, rfl⟩
    exact ⟨z, b, x.2, h1.text, h2.text, Or.inr (Or.inr (Or.inr ⟨rfl, rfl, rfl⟩))⟩
  have hlen' : rs.length = h.length := by
    obtain ⟨w1, rs1, e, hl1, -⟩ := C64_history (w := w) hd
    rw [he] at e
    injection e with e
    injection e with e1 e2
    subst e2
    rw [hl1, hc.length_eq]
  have hz0 : 0 ∉ (linesAt w p h).flatMap (· ++ [10]) := by
    intro hm
    obtain ⟨s, hs, hm⟩ := List.mem_flatMap.1 hm
    obtain ⟨x, hx, rfl⟩ := List.mem_map.1 hs
    have hx' := List.mem_of_mem_filter hx
    obtain ⟨c, z1, b1, -, h2, -⟩ := appendsLine_of_mem hc hx'
    rcases List.mem_append.1 hm with hm | hm
    · exact (scanZ_eq_ok.1 h2.text).2 hm
    · simp at hm
  have hh := history_lines hro h rs (kind w p) hlen' hr hne
  rw [h0, List.nil_append] at hh
  refine (C64_read_after_partial (E := E) hd he hz hp hl hrd hh (Or.inl ?_) hlen).mono ?_
  · cases hx : linesAt w p h with
    | nil => exact absurd hx hne
    | cons a l => simp
  · rintro r ⟨v, rfl, h1, h2⟩
    exact ⟨v, rfl, h2 hz0, h1.cap⟩

theorem newline_occurs {ls : List Text} (h : ls ≠ []) : Occurs (ls.flatMap (· ++ [10])) [10] := by
  cases ls with
  | nil => exact absurd rfl h
  | cons a l =>
    refine ⟨a.length, ?_⟩
    rw [occursAt_iff]
    refine ⟨by simp, ?_⟩
    simp

theorem lines_pieces {ls : List Text} (h : ∀ s ∈ ls, 10 ∉ s) : pieces (ls.flatMap (· ++ [10])) [10] = ls ++ [[]] := by
  rw [← linesText_eq, pieces_joinWith (by simp) _ (by simp)]
  intro q hq x hx
  rcases List.mem_append.1 hq with hq | hq
  · intro hh
    rw [List.mem_singleton.1 hh] at hx
    exact h q hq hx
  · rw [List.mem_singleton.1 hq] at hx
    cases hx

/-- **C138** (partial: the last line is not empty, see `C138_last_line_empty`, and empty lines are not reported, as C29 says.)  Lines are written to any
files by any number of calls of `vt_file_appendln` that all return true, in any order.  Then for every one of these files that was missing or empty
before, reading it and splitting at the ends of the lines yields the non-empty lines that were written to this file, in order. -/
theorem C138_lines_partial {E : Env} {w w' : World} {cs : List FileIo.Call} {h : List (Text × Text)} {rs : List Bool}
    (hc : List.Forall₂ AppendsLine cs h) (he : FileIo.runs w cs = .ok (w', rs)) (hr : ∀ r ∈ rs, r = true) (hnl : ∀ x ∈ h, 10 ∉ x.2)
    {z : Mem} {t : Text} (hz : CStr z t) {p : Fs.Path} (hp : resolve w true t = some p) (hl : t.getLast? ≠ some 47) (hrd : w.readable p = true)
    (hro : w.room p = none) (h0 : dataOf (kind w p) = []) (hne : linesAt w p h ≠ []) (hlast : (linesAt w p h).getLast hne ≠ [])
    (hlen : ((linesAt w p h).flatMap (· ++ [10])).length < 2 ^ 63) {k : Nat} (hk : ((linesAt w p h).flatMap (· ++ [10])).length < k) :
    OkOr E (((linesAt w p h).flatMap (· ++ [10])).length + 56) (readLines E k w' z) fun o =>
      ∃ l, o = some l ∧ List.Forall₂ IsStr l ((linesAt w p h).filter (· ≠ [])) := by
  refine (lines_read hc he hr hz hp hl hrd hro h0 hne hlen).bind ?_
  rintro r ⟨v, rfl, hv, -⟩
  have hpc : pieces ((linesAt w p h).flatMap (· ++ [10])) [10] = linesAt w p h ++ [[]] := by
    refine lines_pieces fun s hs => ?_
    obtain ⟨x, hx, rfl⟩ := List.mem_map.1 hs
    exact hnl x (List.mem_of_mem_filter hx)
  have hsp := C29_split_partial (E := E) hv (sep := zstr [10]) (ss := [10]) ⟨by decide +kernel, by decide +kernel⟩ (by simp) (newline_occurs hne) (by
    rw [hpc]
    rintro ⟨l, e⟩
    rw [show l ++ [[], []] = (l ++ [[]]) ++ [[]] by simp] at e
    have e2 := List.append_cancel_right e
    refine hlast ?_
    simp [← e2]) hk
  refine hsp.mono ?_
  rintro o ⟨l, rfl, hl⟩
  refine ⟨l, rfl, ?_⟩
  rw [hpc] at hl
  simpa using hl

/-- **C138** (refutation) If the last line written to the file is empty, splitting the contents reads memory behind the buffer, unless the program
ends before because memory is refused. -/
theorem C138_last_line_empty {E : Env} {w w' : World} {cs : List FileIo.Call} {h : List (Text × Text)} {rs : List Bool}
    (hc : List.Forall₂ AppendsLine cs h) (he : FileIo.runs w cs = .ok (w', rs)) (hr : ∀ r ∈ rs, r = true) (hnl : ∀ x ∈ h, 10 ∉ x.2)
    {z : Mem} {t : Text} (hz : CStr z t) {p : Fs.Path} (hp : resolve w true t = some p) (hl : t.getLast? ≠ some 47) (hrd : w.readable p = true)
    (hro : w.room p = none) (h0 : dataOf (kind w p) = []) (hne : linesAt w p h ≠ []) (hlast : (linesAt w p h).getLast hne = [])
    (hlen : ((linesAt w p h).flatMap (· ++ [10])).length < 2 ^ 63) {k : Nat} (hk : ((linesAt w p h).flatMap (· ++ [10])).length + 1 < k) :
    readLines E k w' z = .ub ∨
      (readLines E k w' z = .exit .alloc ∧ E.Refuses (((linesAt w p h).flatMap (· ++ [10])).length + 56)) := by
  have hpc : pieces ((linesAt w p h).flatMap (· ++ [10])) [10] = linesAt w p h ++ [[]] := by
    refine lines_pieces fun s hs => ?_
    obtain ⟨x, hx, rfl⟩ := List.mem_map.1 hs
    exact hnl x (List.mem_of_mem_filter hx)
  rcases lines_read (E := E) hc he hr hz hp hl hrd hro h0 hne hlen with ⟨r, e, v, rfl, hv, hcap⟩ | ⟨e, hR⟩
  · simp only [readLines, e, bind_ok]
    refine C29_trailing_separators_undefined hv hcap (sep := zstr [10]) (ss := [10]) ⟨by decide +kernel, by decide +kernel⟩ (by simp)
      (newline_occurs hne) ?_ hk
    rw [hpc]
    refine ⟨(linesAt w p h).dropLast, ?_⟩
    conv_rhs => rw [← List.dropLast_append_getLast hne, hlast]
    simp
  · right
    exact ⟨by simp only [readLines, e, bind_exit], hR⟩

/-! Two files, three lines, one of them empty. -/

example : (do
    let r ← FileIo.runs { nodes := [] } [.appendln (zstr (chars' "/a")) (zstr (chars' "x y")), .appendln (zstr (chars' "/b")) (zstr (chars' "p")),
      .appendln (zstr (chars' "/a")) (zstr []), .appendln (zstr (chars' "/a")) (zstr (chars' "z"))]
    readLines exE 100 r.1 (zstr (chars' "/a"))).mapOk (Option.map (List.map Arr.mem)) =
    .ok (some [zstr (chars' "x y"), zstr (chars' "z")]) := by decide +kernel
example : linesAt { nodes := [] } [[97]] [(chars' "/a", chars' "x y"), (chars' "/b", chars' "p"), (chars' "/a", []), (chars' "/a", chars' "z")] =
    [chars' "x y", [], chars' "z"] := by decide +kernel
example : (do
    let r ← FileIo.runs { nodes := [] } [.appendln (zstr (chars' "/a")) (zstr (chars' "x")), .appendln (zstr (chars' "/a")) (zstr [])]
    readLines exE 100 r.1 (zstr (chars' "/a"))) = .ub := by decide +kernel

end Vita
