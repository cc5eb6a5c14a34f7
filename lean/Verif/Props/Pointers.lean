import Verif.Props.OwnerMem
import Verif.Lemmas.Text
import Verif.Lemmas.OwnerEnds
/-!
# Property C121: how long pointers into a container stay valid
-/

namespace Vita
open Out Mal Own

seal wadd wsub wmul

variable {E : Env} {A : Allocator} {S : Sys} {own : List (Bool × Nat × Nat)} {base : List (Nat × Nat)} {σ₀ : Store}

/-! ### The rule -/

/-- There is room for `n` more elements. -/
def Room (a : Arr) (n : Nat) : Prop := a.len + n ≤ a.cap ∧ a.cap < 2 ^ 64

/-- A string buffer of the right size. -/
structure SoundStr (a : Arr) : Prop where
  es : a.elsize = 1
  len : a.len ≤ a.cap
  size : a.mem.length = a.cap + 1
  lim : a.cap + 1 < 2 ^ 56

/-- The calls after which pointers into the container are still good: all calls except those that set the capacity to another value and those that put in
more than there is room for. -/
def Stays (a : Arr) : Call → Prop
  | .vecPushBack _ | .vecPushFront _ | .vecInsert _ _ | .plPushBack _ | .plPushFront _ | .plInsert _ _ => Room a 1
  | .vecReserve _ | .plReserve _ | .reserve _ | .resize _ => False
  | .vecResize n | .plResize n => n = a.cap
  | .vecShrink | .plShrink | .shrink => a.len = a.cap
  | .append z | .insert z _ | .insertBefore _ z | .insertAfter _ z => ∀ n, strlen z = .ok n → Room a n
  | .appendN _ n | .insertN _ _ n => Room a n
  | .appendf out | .insertf _ out => Room a out.length
  | .setAt _ i => i ≤ a.len ∧ Room a 0
  | .replace _ sub rsub | .replaceFirst sub rsub | .replaceLast _ sub rsub =>
    ∀ n r, strlen sub = .ok n → strlen rsub = .ok r → n = r ∨ (r ≤ n ∧ SoundStr a)
  | _ => True

/-- The same for calls one after the other. -/
def StaysAll (E : Env) : Arr → List Call → Prop
  | _, [] => True
  | a, f :: fs => Stays a f ∧ ∀ a', f.run E a = .ok a' → StaysAll E a' fs

/-! ### Lemmas -/

/-- Requests that leave the buffer alone. -/
def Quiet (rs : List Req) : Prop := ∀ r ∈ rs, match r with
  | .own _ => False
  | .tmp _ => True
  | .tmpStr _ _ inner => inner = []

theorem quiet_nil : Quiet [] := fun _ h => by cases h

theorem quiet_append {a b : List Req} (ha : Quiet a) (hb : Quiet b) : Quiet (a ++ b) := fun r h =>
  (List.mem_append.1 h).elim (ha r) (hb r)

theorem quiet_andThen {α : Type} {r : Out α} {f : α → List Req} (h : ∀ a, r = .ok a → Quiet (f a)) : Quiet (andThen r f) := by
  cases r with
  | ok a => exact h a rfl
  | _ => exact quiet_nil

theorem performM_quiet (tr : Bool) : ∀ (rs : List Req) (M N : Sys × Store) (p q : Nat), Quiet rs → performM E A tr M p rs = .ok (N, q) → q = p
  | [], _, _, _, _, _, h => by injection h with h; injection h with _ h; exact h.symm
  | .own n :: rs, _, _, _, _, hq, _ => (hq (.own n) (List.mem_cons_self ..)).elim
  | .tmp n :: rs, _, _, p, q, hq, h => by
    unfold performM at h
    obtain ⟨⟨_, _⟩, -, h⟩ := bind_eq_ok.1 h
    obtain ⟨_, -, h⟩ := bind_eq_ok.1 h
    exact performM_quiet tr rs _ _ _ _ (fun r hr => hq r (List.mem_cons_of_mem _ hr)) h
  | .tmpStr n k inner :: rs, _, _, p, q, hq, h => by
    have hi : inner = [] := hq _ (List.mem_cons_self ..)
    subst hi
    unfold performM at h
    obtain ⟨⟨_, _⟩, -, h⟩ := bind_eq_ok.1 h
    obtain ⟨⟨_, _⟩, -, h⟩ := bind_eq_ok.1 h
    obtain ⟨⟨_, _⟩, -, h⟩ := bind_eq_ok.1 h
    obtain ⟨⟨_, p'⟩, e, h⟩ := bind_eq_ok.1 h
    obtain ⟨_, -, h⟩ := bind_eq_ok.1 h
    obtain ⟨_, -, h⟩ := bind_eq_ok.1 h
    unfold reallocsM at e
    injection e with e
    injection e with _ e
    rw [e]
    exact performM_quiet tr rs _ _ _ _ (fun r hr => hq r (List.mem_cons_of_mem _ hr)) h

theorem room_space {a : Arr} {n : Nat} (h : Room a n) : n ≤ hasSpace a := by
  unfold hasSpace
  rw [wsub_eq (by have := h.1; omega) h.2]
  have := h.1
  omega

theorem quiet_grow {a : Arr} (h : Room a 1) : Quiet (growReq a) := by
  have := room_space h
  unfold growReq
  rw [if_neg (by omega)]
  exact quiet_nil

theorem strGrowReq_nil {a : Arr} {n : Nat} (h : n ≤ hasSpace a) : strGrowReq a n = [] := by
  unfold strGrowReq
  rw [if_neg (by omega)]

theorem quiet_text {a : Arr} {z : Mem} (h : ∀ n, strlen z = .ok n → n ≤ hasSpace a) : Quiet (strTextReq a z) :=
  quiet_andThen fun n hn => by rw [strGrowReq_nil (h n hn)]; exact quiet_nil

theorem quiet_strGrow {a : Arr} {n : Nat} (h : Room a n) : Quiet ((strGrowReq a n).map .own) := by
  rw [strGrowReq_nil (room_space h)]; exact quiet_nil

theorem scanZ_printed_le : ∀ (out : List UInt8) (rest : Mem), ∃ t, scanZ (out.map some ++ some 0 :: rest) = .ok t ∧ t.length ≤ out.length
  | [], rest => ⟨[], by simp [scanZ], by simp⟩
  | c :: out, rest => by
    obtain ⟨t, e, h⟩ := scanZ_printed_le out rest
    by_cases hc : c = 0
    · subst hc
      exact ⟨[], by simp [scanZ], by simp⟩
    · exact ⟨c :: t, by simp [scanZ, hc, e], by simpa using h⟩

theorem strlen_printed {out : List UInt8} {rest : Mem} {n : Nat} (h : strlen (out.map some ++ some 0 :: rest) = .ok n) : n ≤ out.length := by
  obtain ⟨t, e, ht⟩ := scanZ_printed_le out rest
  rw [strlen_ok e] at h
  injection h with h
  omega

theorem writeN_front {m m' : Mem} {bs : List Byte} (h : writeN m 0 bs = .ok m') : ∃ rest, m' = bs ++ rest := by
  unfold writeN at h
  split at h
  · injection h with h
    exact ⟨_, by rw [← h, List.take_zero, List.nil_append]⟩
  · cases h

theorem putc_front {m m' : Mem} {i : Nat} {c : UInt8} {bs rest : List Byte} (hm : m = bs ++ rest) (hi : i = bs.length) (h : putc m i c = .ok m') :
    ∃ rest', m' = bs ++ rest' := by
  subst hm hi
  unfold putc writeN at h
  split at h
  · injection h with h
    refine ⟨some c :: (rest.drop 1), ?_⟩
    rw [← h, List.take_left]
    simp [List.drop_append]
  · cases h

theorem quiet_insertf {a : Arr} {out : List UInt8} (h : Room a out.length) : Quiet (insertfReq E a out) := by
  unfold insertfReq
  have hs := room_space h
  split
  · refine quiet_andThen fun buf hb => quiet_text fun n hn => ?_
    obtain ⟨rest, rfl⟩ := writeN_front hb
    rw [List.append_assoc] at hn
    have := strlen_printed (rest := rest) hn
    omega
  · intro r hr
    rw [List.mem_singleton] at hr
    subst hr
    dsimp only
    split
    · rename_i l hl
      refine strGrowReq_nil (Nat.le_trans ?_ hs)
      obtain ⟨t, -, hl⟩ := bind_eq_ok.1 hl
      obtain ⟨u, hu, hl⟩ := bind_eq_ok.1 hl
      unfold Str.vfmtSet at hu
      split at hu
      · cases hu
      · rename_i h31
        dsimp only at hu
        obtain ⟨g, -, hu⟩ := bind_eq_ok.1 hu
        obtain ⟨m, hm, hu⟩ := bind_eq_ok.1 hu
        obtain ⟨m2, hm2, hu⟩ := bind_eq_ok.1 hu
        injection hu with hu
        subst hu
        obtain ⟨rest, rfl⟩ := writeN_front hm
        obtain ⟨rest', rfl⟩ := putc_front rfl (by rw [wadd_eq (by omega)]; simp) hm2
        dsimp only at hl
        rw [List.append_assoc] at hl
        exact strlen_printed (rest := rest') hl
    · rfl

/-! Replacing by something that is not longer. -/

theorem remove_sound {a b : Arr} {i n : Nat} (h : SoundStr a) (hi : i + n ≤ a.cap) (e : Str.remove E a i n = .ok b) :
    SoundStr b ∧ b.cap = a.cap ∧ b.len + n ≤ a.cap ∧ b.len ≤ a.len := by
  have h1 := h.len
  have h2 := h.lim
  have hsz := ((fai_remove (E := E) a i n).granted b e).2.2
  unfold Str.remove at e
  obtain ⟨_, -, e⟩ := bind_eq_ok.1 e
  obtain ⟨_, -, e⟩ := bind_eq_ok.1 e
  dsimp only at e
  obtain ⟨m, hm, e⟩ := bind_eq_ok.1 e
  obtain ⟨m2, -, e⟩ := bind_eq_ok.1 e
  injection e with e
  have key : ∀ l, l = wsub a.len (if n > wsub a.len i then wsub a.len i else n) → l ≤ a.len ∧ l + n ≤ a.cap := by
    rintro l rfl
    by_cases hle : i ≤ a.len
    · have e1 : wsub a.len i = a.len - i := wsub_eq hle (by omega)
      rw [e1]
      split
      · rw [wsub_eq (by omega) (by omega)]; omega
      · rw [wsub_eq (by omega) (by omega)]; omega
    · exfalso
      have e1 : wsub a.len i = 2 ^ 64 - (i - a.len) := by unfold wsub; omega
      rw [e1, if_neg (by omega), h.es] at hm
      have e2 : wsub a.len (wadd i n) = 2 ^ 64 - (i + n - a.len) := by
        rw [wadd_eq (by omega)]; unfold wsub; omega
      have e3 : wmul (2 ^ 64 - (i + n - a.len)) 1 = 2 ^ 64 - (i + n - a.len) := by rw [wmul_eq (by omega), Nat.mul_one]
      rw [e2, e3] at hm
      unfold vtMemmove at hm
      rw [if_neg (by omega)] at hm
      unfold memmove at hm
      obtain ⟨bs, hb, -⟩ := bind_eq_ok.1 hm
      unfold readN at hb
      rw [if_neg (by have := h.size; omega)] at hb
      cases hb
  have k := key b.len (by rw [← e])
  have hc : b.cap = a.cap := by rw [← e]
  have hes : b.elsize = a.elsize := by rw [← e]
  have hsz' : a.mem.length = b.mem.length := hsz
  exact ⟨⟨hes.trans h.es, by omega, by rw [← hsz', hc]; exact h.size, by rw [hc]; exact h.lim⟩, hc, k.2, k.1⟩

theorem strGrow_same {a b : Arr} {n : Nat} (h : n ≤ hasSpace a) (e : Str.grow E a n = .ok b) : b = a := by
  unfold Str.grow at e
  rw [if_neg (by omega)] at e
  injection e with e
  exact e.symm

theorem insert_sound {a b : Arr} {z : Mem} {i n : Nat} (h : SoundStr a) (hn : strlen z = .ok n) (hr : a.len + n ≤ a.cap)
    (e : Str.insert E a z i = .ok b) : SoundStr b ∧ b.cap = a.cap := by
  have h2 := h.lim
  have hs : n ≤ hasSpace a := room_space ⟨hr, by omega⟩
  have hsz := ((fai_insert (E := E) a z i).granted b e).2.2
  have hq : strTextReq a z = [] := by unfold strTextReq andThen; rw [hn]; dsimp only; rw [strGrowReq_nil hs]; rfl
  rw [hq] at hsz
  unfold Str.insert at e
  obtain ⟨_, -, e⟩ := bind_eq_ok.1 e
  rw [hn, bind_ok] at e
  obtain ⟨g, hg, e⟩ := bind_eq_ok.1 e
  rw [strGrow_same hs hg] at e
  obtain ⟨m, -, e⟩ := bind_eq_ok.1 e
  obtain ⟨m2, -, e⟩ := bind_eq_ok.1 e
  obtain ⟨m3, -, e⟩ := bind_eq_ok.1 e
  injection e with e
  have hc : b.cap = a.cap := by rw [← e]
  have hes : b.elsize = a.elsize := by rw [← e]
  have hl : b.len = a.len + n := by rw [← e]; exact wadd_eq (by omega)
  have hsz' : a.mem.length = b.mem.length := hsz
  exact ⟨⟨hes.trans h.es, by omega, by rw [← hsz', hc]; exact h.size, by rw [hc]; exact h2⟩, hc⟩

theorem append_sound {a b : Arr} {z : Mem} {n : Nat} (h : SoundStr a) (hn : strlen z = .ok n) (hr : a.len + n ≤ a.cap)
    (e : Str.append E a z = .ok b) : SoundStr b ∧ b.cap = a.cap := by
  have h2 := h.lim
  have hs : n ≤ hasSpace a := room_space ⟨hr, by omega⟩
  have hsz := ((fai_append (E := E) a z).granted b e).2.2
  have hq : strTextReq a z = [] := by unfold strTextReq andThen; rw [hn]; dsimp only; rw [strGrowReq_nil hs]; rfl
  rw [hq] at hsz
  unfold Str.append at e
  rw [hn, bind_ok] at e
  unfold Str.appendN at e
  obtain ⟨_, -, e⟩ := bind_eq_ok.1 e
  obtain ⟨g, hg, e⟩ := bind_eq_ok.1 e
  rw [strGrow_same hs hg] at e
  obtain ⟨m, -, e⟩ := bind_eq_ok.1 e
  obtain ⟨m2, -, e⟩ := bind_eq_ok.1 e
  injection e with e
  have hc : b.cap = a.cap := by rw [← e]
  have hes : b.elsize = a.elsize := by rw [← e]
  have hl : b.len = a.len + n := by rw [← e]; exact wadd_eq (by omega)
  have hsz' : a.mem.length = b.mem.length := hsz
  exact ⟨⟨hes.trans h.es, by omega, by rw [← hsz', hc]; exact h.size, by rw [hc]; exact h2⟩, hc⟩

/-- One replacement by something that is not longer. -/
theorem replaceAt_sound {a : Arr} {z : Mem} {i n r : Nat} (hz : strlen z = .ok r) (h : n = r ∨ (r ≤ n ∧ SoundStr a ∧ i + n ≤ a.cap)) :
    Quiet (replaceAtReq E a i n r z) ∧ ∀ b, Str.replaceAt E a i n r z = .ok b → SoundStr a → SoundStr b ∧ b.cap = a.cap := by
  unfold replaceAtReq Str.replaceAt
  by_cases he : n = r
  · rw [if_pos he, if_pos he]
    refine ⟨quiet_nil, fun b hb hs => ?_⟩
    obtain ⟨m, hm, hb⟩ := bind_eq_ok.1 hb
    injection hb with hb
    have hlen : a.mem.length = m.length := ((fai_vtMemcpyIn (E := E) a.mem i z r).granted m hm).2.2
    subst hb
    exact ⟨⟨hs.es, hs.len, hlen.symm.trans hs.size, hs.lim⟩, rfl⟩
  · rw [if_neg he, if_neg he]
    obtain ⟨hrn, hs, hi⟩ := h.resolve_left he
    constructor
    · refine quiet_andThen fun b hb => quiet_text fun k hk => ?_
      rw [hz] at hk
      injection hk with hk
      subst hk
      obtain ⟨s1, s2, s3, -⟩ := remove_sound hs hi hb
      have := hs.lim
      exact room_space ⟨by omega, by omega⟩
    · intro b hb _
      obtain ⟨c, hc, hb⟩ := bind_eq_ok.1 hb
      obtain ⟨s1, s2, s3, -⟩ := remove_sound hs hi hc
      split at hb
      · obtain ⟨t1, t2⟩ := insert_sound s1 hz (by omega) hb
        exact ⟨t1, t2.trans s2⟩
      · obtain ⟨t1, t2⟩ := append_sound s1 hz (by omega) hb
        exact ⟨t1, t2.trans s2⟩

theorem quiet_replaceLoop {sub z : Mem} {n r : Nat} (hn : strlen sub = .ok n) (hz : strlen z = .ok r) : ∀ (k : Nat) (a : Arr) (p : Nat),
    (n = r ∨ (r ≤ n ∧ SoundStr a)) → Quiet (replaceLoopReq E sub z n r k a p)
  | 0, _, _, _ => quiet_nil
  | k + 1, a, p, h => by
    unfold replaceLoopReq
    refine quiet_andThen fun q hq => ?_
    cases q with
    | none => exact quiet_nil
    | some i =>
      have hb := (strstrAt_bounds hn hq).2
      obtain ⟨q1, q2⟩ := replaceAt_sound (E := E) (a := a) (i := i) hz (h.imp id fun h => ⟨h.1, h.2, by have := h.2.size; omega⟩)
      refine quiet_append q1 (quiet_andThen fun b hb => quiet_replaceLoop hn hz k b _ ?_)
      exact h.imp id fun h => ⟨h.1, (q2 b hb h.2).1⟩

theorem lastInstance_bound {m sub : Mem} {n : Nat} (hn : strlen sub = .ok n) : ∀ (k p l : Nat), p + n < m.length →
    Str.lastInstance m sub n k p = .ok l → l + n < m.length
  | 0, _, _, _, h => by cases h
  | k + 1, p, l, hp, h => by
    unfold Str.lastInstance at h
    obtain ⟨q, hq, h⟩ := bind_eq_ok.1 h
    cases q with
    | none => injection h with h; rw [← h]; exact hp
    | some q => exact lastInstance_bound hn k q l (strstrAt_bounds hn hq).2 h

/-- The calls of the rule do not reallocate the buffer. -/
theorem quiet_stays {a b : Arr} {f : Call} (hs : Stays a f) (hr : f.run E a = .ok b) : Quiet (f.reqs E a) := by
  cases f with
  | vecPushBack x => exact quiet_grow hs
  | vecPushFront x => exact quiet_grow hs
  | vecInsert x i => exact quiet_grow hs
  | plPushBack x => exact quiet_grow hs
  | plPushFront x => exact quiet_grow hs
  | plInsert x i => exact quiet_grow hs
  | vecReserve n => exact hs.elim
  | plReserve n => exact hs.elim
  | reserve n => exact hs.elim
  | resize n => exact hs.elim
  | vecResize n => unfold Call.reqs; dsimp only; rw [if_pos (show n = a.cap from hs)]; exact quiet_nil
  | plResize n => unfold Call.reqs; dsimp only; rw [if_pos (show n = a.cap from hs)]; exact quiet_nil
  | vecShrink => unfold Call.reqs; dsimp only; rw [if_pos (show a.len = a.cap from hs)]; exact quiet_nil
  | plShrink => unfold Call.reqs; dsimp only; rw [if_pos (show a.len = a.cap from hs)]; exact quiet_nil
  | shrink => unfold Call.reqs; dsimp only; rw [if_pos (show a.len = a.cap from hs)]; exact quiet_nil
  | append z => exact quiet_text fun n hn => room_space (hs n hn)
  | insert z i => exact quiet_text fun n hn => room_space (hs n hn)
  | insertBefore sub z =>
    refine quiet_andThen fun i _ => ?_
    split
    · exact quiet_nil
    · exact quiet_text fun n hn => room_space (hs n hn)
  | insertAfter sub z =>
    refine quiet_andThen fun i _ => ?_
    split
    · exact quiet_nil
    · exact quiet_text fun n hn => room_space (hs n hn)
  | appendN z n => exact quiet_strGrow hs
  | insertN z i n => exact quiet_strGrow hs
  | appendf out => exact quiet_strGrow hs
  | insertf i out => exact quiet_insertf hs
  | setAt z i =>
    obtain ⟨h1, h2, h3⟩ := hs
    refine quiet_andThen fun n hn => quiet_andThen fun s he => ?_
    have hle : n ≤ a.len - i := by
      unfold Call.run Str.setAt at hr
      dsimp only at hr
      obtain ⟨_, -, hr⟩ := bind_eq_ok.1 hr
      rw [hn, bind_ok] at hr
      obtain ⟨_, hx, -⟩ := bind_eq_ok.1 hr
      unfold enforce at hx
      split at hx
      · cases hx
      · rename_i hc
        rw [wsub_eq h1 (by omega)] at hc
        simpa using hc
    have hl : s.len = i ∧ s.cap = a.cap := by
      unfold Str.remove at he
      obtain ⟨_, -, he⟩ := bind_eq_ok.1 he
      obtain ⟨_, -, he⟩ := bind_eq_ok.1 he
      dsimp only at he
      obtain ⟨_, -, he⟩ := bind_eq_ok.1 he
      obtain ⟨_, -, he⟩ := bind_eq_ok.1 he
      injection he with he
      rw [← he]
      refine ⟨?_, rfl⟩
      show wsub a.len (if wsub a.len i > wsub a.len i then wsub a.len i else wsub a.len i) = i
      rw [ite_self, wsub_eq h1 (by omega), wsub_eq (by omega) (by omega)]
      omega
    exact quiet_strGrow ⟨by omega, by omega⟩
  | replace k sub z =>
    refine quiet_andThen fun n hn => quiet_andThen fun r hz => ?_
    split
    · exact quiet_nil
    · exact quiet_replaceLoop hn hz k a 0 (hs n r hn hz)
  | replaceFirst sub z =>
    refine quiet_andThen fun n hn => quiet_andThen fun r hz => ?_
    split
    · exact quiet_nil
    · refine quiet_andThen fun q hq => ?_
      cases q with
      | none => exact quiet_nil
      | some i =>
        unfold Str.find at hq
        rw [hn, bind_ok] at hq
        obtain ⟨_, -, hq⟩ := bind_eq_ok.1 hq
        have hb := (strstrAt_bounds hn hq).2
        exact (replaceAt_sound (E := E) hz ((hs n r hn hz).imp id fun h => ⟨h.1, h.2, by have := h.2.size; omega⟩)).1
  | replaceLast k sub z =>
    refine quiet_andThen fun n hn => quiet_andThen fun r hz => ?_
    split
    · exact quiet_nil
    · refine quiet_andThen fun q hq => ?_
      cases q with
      | none => exact quiet_nil
      | some p =>
        refine quiet_andThen fun l hl => ?_
        have hb := lastInstance_bound hn k p l (strstrAt_bounds hn hq).2 hl
        exact (replaceAt_sound (E := E) hz ((hs n r hn hz).imp id fun h => ⟨h.1, h.2, by have := h.2.size; omega⟩)).1
  | vecRemove i rs =>
    cases rs with
    | stable => exact quiet_nil
    | fast =>
      intro r hr
      rw [show Call.reqs E a (.vecRemove i .fast) = [.tmp a.elsize] from rfl, List.mem_singleton] at hr
      subst hr
      trivial
  | _ => exact quiet_nil

/-- A command on other containers, or a call of the rule on this one, leaves the buffer where it is. -/
theorem stepM_buf {M M' : Machine} {s : St} (h : GoodSt s base) (hs : Stored M s base σ₀) {k : Cmd} {c : Contents}
    (hp : plainStep E (contents s) k = .ok c) (hr : stepM E A M k = .ok M') {j : Nat} {o : Obj} (ho : s.objs[j]? = some (some o))
    (hd : k ≠ .destroy j) (hst : ∀ f, k = .call j f → Stays o.arr f) :
    ∃ s' o', contents s' = c ∧ GoodSt s' base ∧ Stored M' s' base σ₀ ∧ s'.objs[j]? = some (some o') ∧ o'.buf = o.buf ∧
      ∀ f, k = .call j f → f.run E o.arr = .ok o'.arr := by
  by_cases hk : ∃ f, k = .call j f
  · obtain ⟨f, rfl⟩ := hk
    have hst := hst f rfl
    obtain ⟨s', rfl, g, t, -⟩ := stepM_ok h hs hp hr
    unfold plainStep at hp
    dsimp only at hp
    obtain ⟨x, hx, hp⟩ := bind_eq_ok.1 hp
    have hx' : x = (⟨o.kind, o.tracked⟩, o.arr) := by
      unfold Contents.live at hx
      rw [live_contents ho] at hx
      injection hx with hx
      exact hx.symm
    subst hx'
    split at hp
    · cases hp
    rename_i hkind
    obtain ⟨b, hb, hp⟩ := bind_eq_ok.1 hp
    injection hp with hp
    have hlt : j < (contents s).length := (List.getElem?_eq_some_iff.1 (live_contents ho)).1
    have hj : (contents s')[j]? = some (some (⟨o.kind, o.tracked⟩, b)) := by rw [← hp, List.getElem?_set_self hlt]
    obtain ⟨o', ho', hy⟩ := contents_live hj
    injection hy with hy1 hy2
    refine ⟨s', o', rfl, g, t, ho', ?_, ?_⟩
    · unfold stepM at hr
      dsimp only at hr
      rw [hs.load ho, bind_ok, if_neg hkind, hb, bind_ok] at hr
      obtain ⟨⟨N, p⟩, hN, hr⟩ := bind_eq_ok.1 hr
      have hpq := performM_quiet _ _ _ _ _ _ (quiet_stays hst hb) hN
      subst hpq
      injection hr with hr
      have hl := t.live j o' ho'
      rw [← hr] at hl
      obtain ⟨l1, l2, l3⟩ := hl
      have l1' : M.ptrs[j]? = some o'.hdr := l1
      rw [(hs.live j o ho).1] at l1'
      injection l1' with l1'
      rw [← l1'] at l2
      have l2' : (save N.2 { o with buf := o.buf, arr := b }) o.hdr = some (headerOf o') := l2
      unfold save at l2'
      rw [put_same] at l2'
      injection l2' with l2'
      unfold headerOf at l2'
      injection l2' with _ _ l2'
      exact l2'.symm
    · intro f' hf
      injection hf with _ hf
      subst hf
      rw [hb, hy2]
  · obtain ⟨s', rfl, g, t, kp⟩ := stepM_ok h hs hp hr
    exact ⟨s', o, rfl, g, t, kp j o ho (fun f hf => hk ⟨f, hf⟩) hd, rfl, fun f hf => absurd ⟨f, hf⟩ hk⟩

theorem runM_buf {j : Nat} : ∀ (cs : List Cmd) (M M' : Machine) (s : St) (c : Contents) (o : Obj), GoodSt s base → Stored M s base σ₀ →
    plainRun E (contents s) cs = .ok c → runM E A M cs = .ok M' → s.objs[j]? = some (some o) → .destroy j ∉ cs → StaysAll E o.arr (callsOn j cs) →
    ∃ s' o', Stored M' s' base σ₀ ∧ s'.objs[j]? = some (some o') ∧ o'.buf = o.buf
  | [], M, M', s, c, o, _, hs, _, hr, ho, _, _ => by
    injection hr with hr
    exact ⟨s, o, hr ▸ hs, ho, rfl⟩
  | k :: cs, M, M', s, c, o, h, hs, hp, hr, ho, hd, hst => by
    obtain ⟨c1, hp1, hp2⟩ := bind_eq_ok.1 hp
    obtain ⟨M1, hr1, hr2⟩ := bind_eq_ok.1 hr
    have hk : ∀ f, k = .call j f → callsOn j (k :: cs) = f :: callsOn j cs := by
      rintro f rfl
      rw [callsOn, if_pos rfl]
    obtain ⟨s1, o1, rfl, g1, t1, ho1, hb, hrun⟩ := stepM_buf h hs hp1 hr1 ho (fun hx => hd (by rw [hx]; exact List.mem_cons_self ..))
      (fun f hf => by rw [hk f hf] at hst; exact hst.1)
    have hst1 : StaysAll E o1.arr (callsOn j cs) := by
      by_cases hx : ∃ f, k = .call j f
      · obtain ⟨f, hf⟩ := hx
        rw [hk f hf] at hst
        exact hst.2 _ (hrun f hf)
      · have e1 : callsOn j (k :: cs) = callsOn j cs := by
          cases k with
          | call i f => exact by rw [callsOn, if_neg (fun hij => hx ⟨f, by rw [hij]⟩)]
          | _ => rfl
        rw [e1] at hst
        have e2 : o1 = o := by
          obtain ⟨s2, -, -, t2, kp⟩ := stepM_ok h hs hp1 hr1
          have l1 := t1.load ho1
          rw [t2.load (kp j o ho (fun f hf => hx ⟨f, hf⟩) (fun hx => hd (by rw [hx]; exact List.mem_cons_self ..)))] at l1
          injection l1 with l1
          exact l1.symm
        rw [e2]; exact hst
    obtain ⟨s2, o2, t2, ho2, hb2⟩ := runM_buf cs M1 M' s1 c o1 g1 t1 hp2 hr2 ho1 (fun hx => hd (List.mem_cons_of_mem _ hx)) hst1
    exact ⟨s2, o2, t2, ho2, hb2.trans hb⟩

/-! What is left at an address when the buffer has moved away. -/

theorem reallocM_gone {M N : Sys × Store} {tr : Bool} {p n q x : Nat} (h : reallocM E A M tr p n = .ok (N, q)) (hx : M.2 x = none ∨ x = p) :
    N.2 x = none ∨ x = q := by
  unfold reallocM at h
  obtain ⟨⟨S', q'⟩, -, h⟩ := bind_eq_ok.1 h
  injection h with h
  injection h with h1 h2
  subst h1 h2
  dsimp only
  by_cases e : x = q'
  · exact Or.inr e
  · left
    rw [put_other _ _ e]
    by_cases e2 : x = p
    · rw [e2, put_same]
    · rw [put_other _ _ e2]
      exact hx.resolve_right e2

theorem reallocM_rest {M N : Sys × Store} {tr : Bool} {p n q x : Nat} (h : reallocM E A M tr p n = .ok (N, q)) (e : x ≠ q) (e2 : x ≠ p) :
    N.2 x = M.2 x := by
  unfold reallocM at h
  obtain ⟨⟨S', q'⟩, -, h⟩ := bind_eq_ok.1 h
  injection h with h
  injection h with h1 h2
  subst h1 h2
  dsimp only
  rw [put_other _ _ e, put_other _ _ e2]

theorem reallocsM_gone {tr : Bool} {x : Nat} : ∀ (l : List Nat) (M N : Sys × Store) (p q : Nat), reallocsM E A tr M p l = .ok (N, q) →
    M.2 x = none ∨ x = p → N.2 x = none ∨ x = q
  | [], M, N, p, q, h, hx => by
    injection h with h
    injection h with h1 h2
    subst h1 h2
    exact hx
  | n :: l, M, N, p, q, h, hx => by
    unfold reallocsM at h
    obtain ⟨⟨N1, p1⟩, h1, h⟩ := bind_eq_ok.1 h
    exact reallocsM_gone l N1 N p1 q h (reallocM_gone h1 hx)

theorem reallocsM_rest {tr : Bool} {x : Nat} : ∀ (l : List Nat) (M N : Sys × Store) (p q : Nat), reallocsM E A tr M p l = .ok (N, q) →
    M.2 x = none → N.2 x = none ∨ x = q
  | l, M, N, p, q, h, hx => reallocsM_gone l M N p q h (Or.inl hx)

theorem allocM_rest {M N : Sys × Store} {tr : Bool} {n t x : Nat} (h : allocM E A M tr n = .ok (N, t)) (e : x ≠ t) : N.2 x = M.2 x := by
  unfold allocM at h
  obtain ⟨⟨S', q'⟩, -, h⟩ := bind_eq_ok.1 h
  injection h with h
  injection h with h1 h2
  subst h1 h2
  exact put_other _ _ e

theorem freeM_gone {M N : Sys × Store} {tr : Bool} {t x : Nat} (h : freeM E M tr t = .ok N) : N.2 t = none ∧ (M.2 x = none → N.2 x = none) ∧
    (x ≠ t → N.2 x = M.2 x) := by
  unfold freeM at h
  obtain ⟨S', -, h⟩ := bind_eq_ok.1 h
  injection h with h
  subst h
  refine ⟨put_same _ _ _, fun hx => ?_, fun e => put_other _ _ e⟩
  by_cases e : x = t
  · rw [e]; exact put_same _ _ _
  · exact (put_other _ _ e).trans hx

theorem performM_gone {tr : Bool} {x : Nat} : ∀ (rs : List Req) (M N : Sys × Store) (p q : Nat), performM E A tr M p rs = .ok (N, q) →
    M.2 x = none ∨ x = p → N.2 x = none ∨ x = q
  | [], M, N, p, q, h, hx => by
    injection h with h
    injection h with h1 h2
    subst h1 h2
    exact hx
  | .own n :: rs, M, N, p, q, h, hx => by
    unfold performM at h
    obtain ⟨⟨N1, p1⟩, h1, h⟩ := bind_eq_ok.1 h
    exact performM_gone rs N1 N p1 q h (reallocM_gone h1 hx)
  | .tmp n :: rs, M, N, p, q, h, hx => by
    unfold performM at h
    obtain ⟨⟨N1, t⟩, h1, h⟩ := bind_eq_ok.1 h
    obtain ⟨N2, h2, h⟩ := bind_eq_ok.1 h
    refine performM_gone rs N2 N p q h (hx.imp (fun hx => ?_) id)
    by_cases e : x = t
    · rw [e]; exact (freeM_gone (x := x) h2).1
    · rw [(freeM_gone h2).2.2 e, allocM_rest h1 e]; exact hx
  | .tmpStr n k inner :: rs, M, N, p, q, h, hx => by
    unfold performM at h
    obtain ⟨⟨N1, hd⟩, h1, h⟩ := bind_eq_ok.1 h
    obtain ⟨⟨N2, b⟩, h2, h⟩ := bind_eq_ok.1 h
    obtain ⟨⟨N3, b'⟩, h3, h⟩ := bind_eq_ok.1 h
    obtain ⟨⟨N4, p1⟩, h4, h⟩ := bind_eq_ok.1 h
    obtain ⟨N5, h5, h⟩ := bind_eq_ok.1 h
    obtain ⟨N6, h6, h⟩ := bind_eq_ok.1 h
    refine performM_gone rs N6 N p1 q h ?_
    by_cases e1 : x = hd
    · left; rw [e1]; exact (freeM_gone (x := x) h6).1
    by_cases e2 : x = b'
    · left
      exact (freeM_gone h6).2.1 (by rw [e2]; exact (freeM_gone (x := x) h5).1)
    have h3x : N3.2 x = none ∨ x = p := by
      by_cases e3 : x = b
      · exact Or.inl ((reallocM_gone h3 (Or.inr e3)).resolve_right e2)
      · rw [reallocM_rest h3 e2 e3, allocM_rest h2 e3, allocM_rest h1 e1]; exact hx
    exact (reallocsM_gone inner N3 N4 p p1 h4 h3x).imp (fun hx => (freeM_gone h6).2.1 ((freeM_gone h5).2.1 hx)) id

theorem load_parts {σ : Store} {p : Nat} {o : Obj} (h : Own.load σ p = .ok o) : o.hdr = p ∧ σ p = some (headerOf o) ∧ σ o.buf = some (.bytes o.arr.mem) := by
  unfold Own.load at h
  cases e : σ p with
  | none => rw [e] at h; cases h
  | some x =>
    rw [e] at h
    cases x with
    | bytes m => cases h
    | header kind tracked buf len cap elsize slider isView =>
      dsimp only at h
      cases e2 : σ buf with
      | none => rw [e2] at h; cases h
      | some y =>
        rw [e2] at h
        cases y with
        | header => cases h
        | bytes m =>
          injection h with h
          subst h
          exact ⟨rfl, rfl, e2⟩

/-! ### The claims -/

/-- **C121.** A pointer into a container stays valid as long as the calls on the container keep to the rule `Stays`, whatever is done with other containers in
the meantime: the buffer has the same address, and what is found there is what the container holds then. -/
theorem C121_valid {H₀ H : Heap} {m : T} (hd : H₀.addrs.Nodup) (hc : Mal.create E A H₀ = .ok (m, H)) {σ₀ : Store} {pre post : List Cmd}
    {c : Contents} (hp : plainRun E [] pre = .ok c) {c' : Contents} (hp' : plainRun E [] (pre ++ post) = .ok c') {M M' : Machine}
    (hr : runM E A ⟨⟨H, m⟩, σ₀, []⟩ pre = .ok M) (hr' : runM E A M post = .ok M')
    {j : Nat} (hl : c[j]?.join.isSome) (hj : .destroy j ∉ post) {o : Obj} (ho : M.load j = .ok o) (hst : StaysAll E o.arr (callsOn j post)) :
    ∃ o', M'.load j = .ok o' ∧ o'.buf = o.buf ∧ M'.store o.buf = some (.bytes o'.arr.mem) := by
  rw [plainRun_append, hp, bind_ok] at hp'
  obtain ⟨s1, rfl, g1, t1⟩ := runM_ok (good_start hd hc) (stored_start (σ₀ := σ₀) H m) hp hr
  cases e : (contents s1)[j]? with
  | none => rw [e] at hl; cases hl
  | some y =>
    cases y with
    | none => rw [e] at hl; cases hl
    | some y =>
      obtain ⟨x, hx, -⟩ := contents_live e
      rw [t1.load hx] at ho
      injection ho with ho
      subst ho
      obtain ⟨s2, o', t2, ho', hb⟩ := runM_buf post M M' s1 c' x g1 t1 hp' hr' hx hj hst
      exact ⟨o', t2.load ho', hb, by rw [← hb]; exact (t2.live j o' ho').2.2⟩

/-- **C121.** When a call has moved the buffer, there is nothing at the old address any more: every use of an old pointer is undefined. -/
theorem C121_moved {M M' : Machine} {j : Nat} {f : Call} {o o' : Obj} (ho : M.load j = .ok o) (hr : stepM E A M (.call j f) = .ok M')
    (ho' : M'.load j = .ok o') (hb : o'.buf ≠ o.buf) : M'.store o.buf = none := by
  unfold stepM at hr
  dsimp only at hr
  rw [ho, bind_ok] at hr
  split at hr
  · cases hr
  obtain ⟨a, -, hr⟩ := bind_eq_ok.1 hr
  obtain ⟨⟨N, p⟩, hN, hr⟩ := bind_eq_ok.1 hr
  injection hr with hr
  unfold Machine.load at ho ho'
  obtain ⟨q, hq, ho⟩ := bind_eq_ok.1 ho
  obtain ⟨q', hq', ho'⟩ := bind_eq_ok.1 ho'
  have hqq : q' = q := by
    rw [← hr] at hq'
    have e : M.ptr j = .ok q' := hq'
    rw [hq] at e
    injection e with e
    exact e.symm
  subst hqq
  obtain ⟨l1, l2, l3⟩ := load_parts ho
  obtain ⟨k1, k2, k3⟩ := load_parts ho'
  have hne : o.buf ≠ o.hdr := by
    intro e
    rw [e, l1, l2] at l3
    injection l3 with l3
    cases l3
  rw [← hr] at k2 ⊢
  have k2' : (save N.2 { o with buf := p, arr := a }) q' = some (headerOf o') := k2
  unfold save at k2'
  rw [← l1, put_same] at k2'
  injection k2' with k2'
  unfold headerOf at k2'
  injection k2' with _ _ k2'
  dsimp only at k2'
  have hx : o.buf ≠ p := fun e => hb (by rw [← k2', e])
  show (save N.2 { o with buf := p, arr := a }) o.buf = none
  rw [save_other (o := { o with buf := p, arr := a }) hx hne]
  exact (performM_gone _ _ _ _ _ hN (Or.inr rfl)).resolve_right hx

/-- **C121.** After a container has been destroyed there is nothing at the addresses of its header and of its buffer. -/
theorem C121_destroyed {M M' : Machine} {j : Nat} {o : Obj} (ho : M.load j = .ok o) (hv : o.arr.isView = false)
    (hr : stepM E A M (.destroy j) = .ok M') : M'.store o.buf = none ∧ M'.store o.hdr = none ∧ M'.load j = .ub := by
  unfold stepM at hr
  dsimp only at hr
  rw [ho, bind_ok, if_neg (by rw [hv]; simp)] at hr
  obtain ⟨N, h1, hr⟩ := bind_eq_ok.1 hr
  obtain ⟨N2, h2, hr⟩ := bind_eq_ok.1 hr
  injection hr with hr
  have e1 := (freeM_gone (x := o.buf) h2).2.1 (freeM_gone (x := o.buf) h1).1
  have e2 := (freeM_gone (x := o.buf) h2).1
  unfold Machine.load at ho ⊢
  obtain ⟨q, hq, ho⟩ := bind_eq_ok.1 ho
  obtain ⟨l1, -, -⟩ := load_parts ho
  rw [← hr]
  refine ⟨e1, e2, ?_⟩
  have hq' : Machine.ptr ⟨N2.1, N2.2, M.ptrs⟩ j = .ok q := hq
  rw [hq', bind_ok]
  have e3 : N2.2 q = none := by rw [← l1]; exact e2
  simp only [Own.load, e3]

/-- Example: a vector with room for three; two elements are added, one is replaced, one removed, another container is created and grows.  The rule is kept,
and the buffer is where it was. -/
example : StaysAll malE ⟨0, 3, 1, 0, false, [none, none, none]⟩ (callsOn 0 [.call 0 (.vecPushBack [some 1]), .make true (.vec 1 1),
    .call 1 (.vecReserve 5), .call 0 (.vecPushBack [some 2]), .call 0 (.vecSet [some 7] 0), .call 0 (.vecRemove 1 .stable)]) := by
  have e : callsOn 0 [.call 0 (.vecPushBack [some 1]), .make true (.vec 1 1), .call 1 (.vecReserve 5), .call 0 (.vecPushBack [some 2]),
      .call 0 (.vecSet [some 7] 0), .call 0 (.vecRemove 1 .stable)] =
      [.vecPushBack [some 1], .vecPushBack [some 2], .vecSet [some 7] 0, .vecRemove 1 .stable] := rfl
  rw [e]
  refine ⟨⟨by decide, by decide⟩, fun a ha => ⟨?_, fun a' ha' => ⟨trivial, fun a' ha' => ⟨trivial, fun _ _ => trivial⟩⟩⟩⟩
  have h : Call.run malE ⟨0, 3, 1, 0, false, [none, none, none]⟩ (.vecPushBack [some 1]) = .ok ⟨1, 3, 1, 0, false, [some 1, none, none]⟩ := by
    decide +kernel
  rw [h] at ha
  injection ha with ha
  subst ha
  exact ⟨by decide, by decide⟩

/-- Example: the same vector; the fourth element does not fit, the buffer moves, and there is nothing at the old address. -/
example :
    (do
      let (m, H) ← Mal.create malE bumpA ⟨[(7, 3)], 0⟩
      let M ← runM malE bumpA ⟨⟨H, m⟩, fun _ => none, []⟩ [.make true (.vec 3 1), .call 0 (.vecPushBack [some 1])]
      let v ← M.load 0
      let M' ← runM malE bumpA M [.make true (.vec 1 1), .call 1 (.vecReserve 5), .call 0 (.vecPushBack [some 2]), .call 0 (.vecPushBack [some 3])]
      let v' ← M'.load 0
      let M'' ← runM malE bumpA M' [.call 0 (.vecPushBack [some 4])]
      let v'' ← M''.load 0
      .ok ([v.buf, v'.buf, v''.buf], (match M'.store v.buf with | some (.bytes m) => m | _ => []), (M''.store v.buf).isSome))
      = .ok ([11, 11, 15], [some 1, some 2, some 3], false) := by
  decide +kernel

/-- Example: replacing by something shorter needs no room. -/
example : Stays ⟨3, 4, 1, 0, false, [some 97, some 98, some 99, some 0, none]⟩ (.replace 5 [some 97, some 98, some 0] [some 120, some 0]) := by
  intro n r hn hr
  have e1 : strlen [some 97, some 98, some 0] = .ok 2 := by decide +kernel
  have e2 : strlen [some 120, some 0] = .ok 1 := by decide +kernel
  rw [e1] at hn
  rw [e2] at hr
  injection hn with hn
  injection hr with hr
  exact Or.inr ⟨by omega, ⟨by decide +kernel, by decide +kernel, by decide +kernel, by decide +kernel⟩⟩

end Vita
