import Verif.Model.FormatCalls
import Verif.Props.StrFormat
/-!
# Formatting that succeeds at one call and fails at the next (C116)
-/

namespace Vita
open Out Spec

/-- **C116** If all calls of the formatter agree on the text, the functions are those of `C116_failure`, `C116_append_success` and `C116_insert_success_partial`. -/
theorem C116_calls_agree (E : Env) (v : Arr) (i : Nat) (out : Text) (hl : out.length < 2 ^ 31) (bs1 bs2 : List UInt8) (r2 : Int) {r : Int} (hr : r < 0) :
    Str.appendfCalls E v out.length (out ++ [0]) = Str.appendfStatus E v (some out) ∧ Str.appendfCalls E v r bs1 = Str.appendfStatus E v none ∧
    Str.insertfCalls E v i out.length (out ++ [0]) out.length (out ++ [0]) = Str.insertfStatus E v i (some out) ∧
    Str.insertfCalls E v i r bs1 r2 bs2 = Str.insertfStatus E v i none := by
  have hn : ¬ ((out.length : Nat) : Int) < 0 := by omega
  have ht : (out ++ [0]).take (out.length + 1) = out ++ [0] := List.take_of_length_le (by simp)
  refine ⟨?_, ?_, ?_, ?_⟩
  · rw [Str.appendfCalls, if_neg hn, Str.appendfStatus, printed_some hl]
    simp only [Str.appendf, Int.toNat_natCast, ht, List.map_append, List.map_cons, List.map_nil]
    cases Str.grow E v out.length with
    | ok s =>
      simp only [bind_ok]
      cases writeN s.mem (wmul s.len s.elsize) (out.map some ++ [some 0]) with
      | ok m =>
        simp only [bind_ok]
        cases putc m (wadd s.len out.length) 0 <;> rfl
      | _ => rfl
    | _ => rfl
  · rw [Str.appendfCalls, if_pos hr]
    rfl
  · rw [Str.insertfCalls, if_neg hn, Str.insertfStatus, printed_some hl]
    simp only [Str.insertf]
    have ht2 : (out ++ [0]).take (out.length + 1 + 1) = out ++ [0] := List.take_of_length_le (by simp)
    by_cases hs : out.length < tmpBufferSize - 1
    · rw [if_pos (by unfold tmpBufferSize at *; omega), if_pos hs]
      simp only [List.map_append, List.map_cons, List.map_nil]
      cases writeN (List.replicate tmpBufferSize (some 0)) 0 (out.map some ++ [some 0]) <;> rfl
    · rw [if_neg (by unfold tmpBufferSize at *; omega), if_neg hs]
      simp only [Int.toNat_natCast]
      cases Str.createLen E out.length with
      | ok t =>
        simp only [bind_ok]
        rw [Str.vfmtSetCalls, Str.vfmtSet]
        by_cases hb : 2 ^ 31 ≤ out.length + 1
        · rw [if_pos (by omega), if_pos hb]
          rfl
        · rw [if_neg (by omega), if_neg (by omega), if_neg hb]
          have e : ((out.length : Int) + 1).toNat = out.length + 1 := by omega
          have e2 : wadd out.length 1 = out.length + 1 := wadd_eq (by omega)
          simp only [e, e2, ht2, List.map_append, List.map_cons, List.map_nil]
          cases Str.grow E t (out.length + 1) with
          | ok s =>
            simp only [bind_ok]
            cases writeN s.mem 0 (out.map some ++ [some 0]) with
            | ok m =>
              simp only [bind_ok]
              cases putc m (out.length + 1) 0 <;> rfl
            | _ => rfl
          | _ => rfl
      | _ => rfl
  · rw [Str.insertfCalls, if_pos hr]
    rfl

/-- **C116** (counterexample) If the text of `vt_str_appendf` can be measured but not written, success is reported: the text is as before, but the length counts the characters
that are missing. -/
theorem C116_append_unwritten {E : Env} {v : Arr} {t : Text} (h : IsStr v t) {n : Nat} (hn : 0 < n) (hl : n < 2 ^ 31)
    (ha : t.length + n ≤ v.cap ∨ E.allocOk (t.length + n + 1) = true) :
    ∃ v', Str.appendfCalls E v n [] = .ok (v', true) ∧ Str.z v' = .ok t ∧ v'.len = t.length + n ∧ ∀ u, ¬ IsStr v' u := by
  obtain ⟨g, hg, gs, gc, -⟩ := str_grow_ok (E := E) h (n := n) (by omega) ha
  obtain ⟨rest, hm, hr⟩ := gs.split
  have hlim := gs.lim
  have hn0 : 0 ∉ t := (scanZ_eq_ok.1 gs.text).2
  have e1 : wadd g.len n = t.length + n := by rw [gs.len]; exact wadd_eq (by omega)
  obtain ⟨a, x, c, hrest, ha'⟩ : ∃ (a : Mem) (x : Byte) (c : Mem), rest = a ++ x :: c ∧ a.length = n - 1 := by
    have hlen : n - 1 < rest.length := by omega
    exact ⟨rest.take (n - 1), rest[n - 1], rest.drop (n - 1 + 1), by rw [← List.drop_eq_getElem_cons hlen, List.take_append_drop], by rw [List.length_take]; omega⟩
  have hput : putc g.mem (t.length + n) 0 = .ok (t.map some ++ some 0 :: (a ++ some 0 :: c)) := by
    rw [hm, hrest]
    have := putc_mid (t.map some ++ some 0 :: a) c x 0 (i := t.length + n) (by simp [ha']; omega)
    simpa using this
  refine ⟨{ g with mem := t.map some ++ some 0 :: (a ++ some 0 :: c), len := t.length + n }, ?_, ?_, rfl, ?_⟩
  · have hw : writeN g.mem (wmul g.len g.elsize) [] = .ok g.mem := by
      rw [writeN_ok (by have := gs.size; rw [gs.es, gs.len, wmul_one (by omega)]; simp; omega)]
      simp
    rw [Str.appendfCalls, if_neg (by omega)]
    simp only [Int.toNat_natCast, hg, bind_ok, List.take_nil, List.map_nil, hw, e1, hput]
  · exact scanZ_eq_ok.2 ⟨⟨_, rfl⟩, hn0⟩
  · intro u hu
    have h1 := hu.text
    rw [show scanZ _ = .ok t from scanZ_eq_ok.2 ⟨⟨_, rfl⟩, hn0⟩] at h1
    cases h1
    have := hu.len
    simp only at this
    omega

/-- **C116** If the text of `vt_str_appendf` has become longer since it was measured (arguments that change in between), it is cut to the length measured: nothing is written behind
the string. -/
theorem C116_append_longer {E : Env} {v : Arr} {t : Text} (h : IsStr v t) {n : Nat} (hl : n < 2 ^ 31) {bs : Text} (hb : n ≤ bs.length) (hz : 0 ∉ bs)
    (ha : t.length + n ≤ v.cap ∨ E.allocOk (t.length + n + 1) = true) : ∃ v', Str.appendfCalls E v n bs = .ok (v', true) ∧ IsStr v' (t ++ bs.take n) := by
  obtain ⟨g, hg, gs, gc, -⟩ := str_grow_ok (E := E) h (n := n) (by omega) ha
  obtain ⟨rest, hm, hr⟩ := gs.split
  have hlim := gs.lim
  have hsz := gs.size
  have hn0 : 0 ∉ t := (scanZ_eq_ok.1 gs.text).2
  have e1 : wadd g.len n = t.length + n := by rw [gs.len]; exact wadd_eq (by omega)
  have e2 : wmul g.len g.elsize = t.length := by rw [gs.es, gs.len]; exact wmul_one (by omega)
  have htl : (bs.take (n + 1)).length ≤ n + 1 := by rw [List.length_take]; omega
  have hw : writeN g.mem t.length ((bs.take (n + 1)).map some) =
      .ok (t.map some ++ (bs.take (n + 1)).map some ++ g.mem.drop (t.length + (bs.take (n + 1)).length)) := by
    rw [writeN_ok (by rw [List.length_map]; omega), List.length_map]
    congr 3
    rw [hm, List.take_left' (by simp)]
  have hlen : (t.map some ++ (bs.take (n + 1)).map some ++ g.mem.drop (t.length + (bs.take (n + 1)).length)).length = g.cap + 1 := by
    simp only [List.length_append, List.length_map, List.length_drop]
    omega
  obtain ⟨m, em⟩ : ∃ m, m = (t.map some ++ (bs.take (n + 1)).map some ++ g.mem.drop (t.length + (bs.take (n + 1)).length)).set (t.length + n) (some 0) := ⟨_, rfl⟩
  refine ⟨{ g with mem := m, len := t.length + n }, ?_, gs.es, gs.view, ?_, ?_, ?_, hlim⟩
  · rw [Str.appendfCalls, if_neg (by omega)]
    simp only [Int.toNat_natCast, hg, bind_ok, e1, e2, hw]
    rw [putc_ok (by rw [hlen]; omega), bind_ok, em]
  · refine scanZ_eq_ok.2 ⟨⟨((t.map some ++ (bs.take (n + 1)).map some ++ g.mem.drop (t.length + (bs.take (n + 1)).length))).drop (t.length + n + 1), ?_⟩, ?_⟩
    · rw [em, List.set_eq_take_append_cons_drop, if_pos (by rw [hlen]; omega)]
      rw [List.append_assoc, List.take_append, List.take_of_length_le (by simp), List.length_map, Nat.add_sub_cancel_left,
        List.take_append_of_le_length (by rw [List.length_map, List.length_take]; omega), ← List.map_take, List.take_take, List.map_append, Nat.min_eq_left (by omega)]
    · intro hc
      rcases List.mem_append.1 hc with hc | hc
      · exact hn0 hc
      · exact hz (List.mem_of_mem_take hc)
  · simp [Nat.min_eq_left hb]
  · rw [em, List.length_set]; exact hlen

/-- **C116** (counterexamples) If the text of `vt_str_insertf` can be measured but not written, success is reported although nothing is inserted.  For a long text this is so because the
number -1, by which the second measuring reports failure, has become 0 when it is tested; only with other negative numbers failure is reported. -/
theorem C116_insert_unwritten {E : Env} {v : Arr} {t : Text} (h : IsStr v t) {i : Nat} (hi : i < t.length) {n : Nat} (hl : n < 2 ^ 31) (bs : List UInt8) (r : Int) :
    (n < 1023 → OkOr E (t.length + 1) (Str.insertfCalls E v i n [] r bs) fun x => x.2 = true ∧ IsStr x.1 t) ∧
    (1023 ≤ n → OkOr E (t.length + n + 56) (Str.insertfCalls E v i n bs (-1) []) fun x => x.2 = true ∧ IsStr x.1 t) ∧
    (1023 ≤ n → r < -1 → OkOr E (n + 56) (Str.insertfCalls E v i n bs r []) fun x => x = (v, false)) := by
  have hn : ¬ ((n : Nat) : Int) < 0 := by omega
  refine ⟨fun hs => ?_, fun hs => ?_, fun hs hr => ?_⟩
  · rw [Str.insertfCalls, if_neg hn, if_pos (by unfold tmpBufferSize; omega)]
    have hw : writeN (List.replicate tmpBufferSize (some 0)) 0 (([] : List UInt8).map some) = .ok (List.replicate tmpBufferSize (some 0)) := by
      rw [writeN_ok (by simp)]
      simp
    rw [hw, bind_ok]
    have hz : CStr (List.replicate tmpBufferSize (some 0)) [] := ⟨scanZ_eq_ok.2 ⟨⟨List.replicate 1023 (some 0), rfl⟩, by simp⟩, by decide⟩
    refine (insert_okOr h hz hi).bind ?_ (by simp)
    rintro x ⟨hx, -, -⟩
    exact OkOr.ok ⟨rfl, by simpa using hx⟩
  · rw [Str.insertfCalls, if_neg hn, if_neg (by unfold tmpBufferSize; omega)]
    simp only [Int.toNat_natCast]
    refine (createLen_okOr (by omega) (by omega)).bind ?_ (by omega)
    rintro g ⟨hg, gc, -⟩
    rw [Str.vfmtSetCalls, if_neg (by decide), if_neg (by decide)]
    obtain ⟨g', e, gs, -, -⟩ := str_grow_ok (E := E) hg (n := 0) (by decide) (.inl hg.le)
    obtain ⟨c, e4, hc, -, -⟩ := clear_ok gs
    have hp : ∃ m, putc g'.mem 0 0 = .ok m ∧ c.mem = m := by
      unfold Str.clear at e4
      obtain ⟨m, h1, h2⟩ := bind_eq_ok.1 e4
      exact ⟨m, h1, by cases h2; rfl⟩
    obtain ⟨m, hp, rfl⟩ := hp
    have hw : writeN g'.mem 0 [] = .ok g'.mem := by
      rw [writeN_ok (by simp)]
      simp
    simp only [show ((-1 : Int) + 1).toNat = 0 from rfl, e, bind_ok, List.take_nil, List.map_nil, hw, hp]
    refine (insert_okOr h hc.cstr hi).bind ?_ (by simp; omega)
    rintro x ⟨hx, -, -⟩
    exact OkOr.ok ⟨rfl, by simpa using hx⟩
  · rw [Str.insertfCalls, if_neg hn, if_neg (by unfold tmpBufferSize; omega)]
    simp only [Int.toNat_natCast]
    refine (createLen_okOr (by omega) (by omega)).bind ?_ (by omega)
    intro g _
    rw [Str.vfmtSetCalls, if_neg (by omega), if_pos (by omega), bind_ok]
    exact OkOr.ok rfl

-- Three characters are announced and not written; then 2000.
example : ((Str.create exE (zstr [65, 66])).bind fun s => Str.appendfCalls exE s 3 []).mapOk (fun r => (Str.z r.1, r.1.len, r.2)) = .ok (.ok [65, 66], 5, true) ∧
    ((Str.create exE (zstr [65, 66])).bind fun s => Str.insertfCalls exE s 1 3 [] 0 []).mapOk (fun r => (Str.z r.1, r.1.len, r.2)) = .ok (.ok [65, 66], 2, true) := by
  decide +kernel

example : ((Str.create exE (zstr [65, 66])).bind fun s => Str.insertfCalls exE s 1 2000 [] (-1) []).mapOk (fun r => (Str.z r.1, r.1.len, r.2)) = .ok (.ok [65, 66], 2, true) := by
  decide +kernel

/-- Example: "xyz" instead of the two characters measured. -/
example : ((Str.create exE (zstr [65, 66])).bind fun s => Str.appendfCalls exE s 2 [120, 121, 122]).mapOk (fun r => (Str.z r.1, r.1.len, r.1.mem.length, r.2)) =
    .ok (.ok [65, 66, 120, 121], 4, 5, true) := by decide +kernel

end Vita
