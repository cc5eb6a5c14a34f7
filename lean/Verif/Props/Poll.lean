import Verif.Model.Poll
import Verif.Props.SocketFlow
/-!
# C126: polling any number of descriptors
-/

namespace Vita
open Out Net

namespace Spec

/-- The conditions that hold at the moment `t`: those of the last change up to then. -/
def condsAt (c : Conds) : List (Nat × Happening) → Nat → Conds
  | [], _ => c
  | (u, .conds d) :: later, t => if u ≤ t then condsAt d later t else c
  | (u, .signal) :: later, t => if u ≤ t then condsAt c later t else c

/-- What is to be reported for an entry under the conditions `c`: what holds on its descriptor among the events asked for, errors (8), hang-ups (16) and
invalid descriptors (32).  Entries with a negative descriptor are passed over. -/
def toReport (c : Conds) (p : PollFd) : UInt16 := if 0 ≤ p.fd then c p.fd &&& (p.events ||| 56) else 0

end Spec

open Spec

/-- One thing after the other. -/
def InOrder (t : Nat) (later : List (Nat × Happening)) : Prop := (t :: later.map (·.1)).Pairwise (· < ·)

theorem report_eq (c : Conds) (p : PollFd) : p.report c = toReport c p := by
  unfold PollFd.report toReport
  by_cases h : p.fd < 0
  · rw [if_pos h, if_neg (by omega)]
  · rw [if_neg h, if_pos (by omega)]
    rfl

theorem readyCount_zero {c : Conds} {ps : List PollFd} (h : ¬ 0 < readyCount c ps) : ∀ p ∈ ps, toReport c p = 0 := by
  intro p hp
  unfold readyCount at h
  by_cases hz : p.report c = 0
  · rw [← report_eq]; exact hz
  · have : p ∈ ps.filter fun p => p.report c != 0 := List.mem_filter.2 ⟨hp, by simpa using hz⟩
    have := List.length_pos_of_mem this
    omega

theorem condsAt_before {c : Conds} {t u : Nat} {h : Happening} {later : List (Nat × Happening)} (hu : t < u) : condsAt c ((u, h) :: later) t = c := by
  cases h <;> rw [condsAt, if_neg (by omega)]

/-- What the call does from the moment `t` on. -/
structure PollDone (limit : Int) (ps : List PollFd) (t : Nat) (c : Conds) (later : List (Nat × Happening)) (T : Nat) (r : Option (Nat × List PollFd)) : Prop where
  /-- not over before -/
  ge : t ≤ T
  inTime : limit < 0 ∨ (t : Int) ≤ limit → limit < 0 ∨ (T : Int) ≤ limit
  before : ∀ x, t ≤ x → x < T → ∀ p ∈ ps, toReport (condsAt c later x) p = 0
  quiet : ∀ u, u < T → (u, Happening.signal) ∉ later
  failed : r = none → (T, Happening.signal) ∈ later
  done : ∀ n qs, r = some (n, qs) → qs = ps.map (fun p => { p with revents := toReport (condsAt c later T) p }) ∧
    n = (qs.filter fun q => q.revents != 0).length ∧ (n = 0 → (T : Int) = limit) ∧ (T, Happening.signal) ∉ later

/-- Nothing happens up to now. -/
theorem inOrder_not {t u : Nat} {later : List (Nat × Happening)} (h : InOrder t later) (hu : u ≤ t) (e : Happening) : (u, e) ∉ later := fun hm => by
  have := (List.pairwise_cons.1 h).1 u (List.mem_map.2 ⟨_, hm, rfl⟩)
  omega

theorem marked_eq (c : Conds) (ps : List PollFd) : marked c ps = ps.map fun p => { p with revents := toReport c p } := by
  unfold marked
  simp only [report_eq]

theorem readyCount_eq (c : Conds) (ps : List PollFd) : readyCount c ps = ((marked c ps).filter fun q => q.revents != 0).length := by
  unfold readyCount marked
  rw [List.filter_map, List.length_map]
  rfl

theorem condsAt_start {c : Conds} {t : Nat} {later : List (Nat × Happening)} (h : InOrder t later) : condsAt c later t = c := by
  cases later with
  | nil => rfl
  | cons x later =>
    obtain ⟨u, e⟩ := x
    exact condsAt_before ((List.pairwise_cons.1 h).1 u (by simp))

theorem sysPollFrom_done (limit : Int) (ps : List PollFd) : ∀ (later : List (Nat × Happening)) (t : Nat) (c : Conds), InOrder t later →
    (limit < 0 ∨ (t : Int) ≤ limit) → ∀ T r, sysPollFrom limit ps t c later = some (T, r) → PollDone limit ps t c later T r
  | later, t, c, ho, hl, T, r, e => by
    rw [sysPollFrom.eq_def] at e
    dsimp only at e
    by_cases hc : 0 < readyCount c ps
    · rw [if_pos hc] at e
      obtain ⟨rfl, rfl⟩ := Prod.mk.inj (Option.some.inj e)
      refine ⟨Nat.le_refl _, fun _ => hl, fun x h1 h2 => absurd h1 (by omega), fun u hu => inOrder_not ho (by omega) _, fun h => (nomatch h), fun n qs h => ?_⟩
      obtain ⟨rfl, rfl⟩ := Prod.mk.inj (Option.some.inj h)
      rw [condsAt_start ho]
      exact ⟨marked_eq c ps, readyCount_eq c ps, fun h => by omega, inOrder_not ho (Nat.le_refl _) _⟩
    · rw [if_neg hc] at e
      have hz := readyCount_zero hc
      have hcnt : readyCount c ps = 0 := by omega
      -- the end of the time limit
      have last : ¬ limit < 0 → (∀ x ∈ later.map (·.1), limit.toNat < x) →
          some (limit.toNat, some (0, marked c ps)) = some (T, r) → PollDone limit ps t c later T r := by
        intro h0 hb e
        obtain ⟨rfl, rfl⟩ := Prod.mk.inj (Option.some.inj e)
        have still : ∀ x, x ≤ limit.toNat → condsAt c later x = c := by
          intro x hx
          cases later with
          | nil => rfl
          | cons y later =>
            obtain ⟨u, h⟩ := y
            exact condsAt_before (Nat.lt_of_le_of_lt hx (hb u (by simp)))
        have hl' : (t : Int) ≤ limit := by omega
        have calm : ∀ u, u ≤ limit.toNat → (u, Happening.signal) ∉ later := fun u hu hm => by
          have := hb u (List.mem_map.2 ⟨_, hm, rfl⟩)
          omega
        refine ⟨by omega, fun _ => .inr (by omega), fun x h1 h2 => ?_, fun u hu => calm u (by omega), fun h => (nomatch h), fun n qs h => ?_⟩
        · rw [still x (by omega)]; exact hz
        · obtain ⟨rfl, rfl⟩ := Prod.mk.inj (Option.some.inj h)
          rw [still _ (Nat.le_refl _)]
          exact ⟨marked_eq c ps, by rw [← readyCount_eq, hcnt], fun _ => by omega, calm _ (Nat.le_refl _)⟩
      cases later with
      | nil =>
        dsimp only at e
        by_cases h0 : limit < 0
        · rw [if_pos h0] at e; exact nomatch e
        · rw [if_neg h0] at e
          exact last h0 (by simp) e
      | cons y later =>
        obtain ⟨u, h⟩ := y
        dsimp only at e
        have htu : t < u := (List.pairwise_cons.1 ho).1 u (by simp)
        have ho' : InOrder u later := (List.pairwise_cons.1 ho).2
        by_cases hu : limit < 0 ∨ (u : Int) ≤ limit
        · rw [if_pos hu] at e
          cases h with
          | signal =>
            obtain ⟨rfl, rfl⟩ := Prod.mk.inj (Option.some.inj e)
            refine ⟨by omega, fun _ => hu, fun x h1 h2 => ?_, fun v hv hm => ?_, fun _ => by simp, fun n qs h => nomatch h⟩
            · rw [condsAt_before h2]
              exact hz
            · rcases List.mem_cons.1 hm with e | hm
              · have := (Prod.mk.inj e).1
                omega
              · exact inOrder_not ho' (by omega) _ hm
          | conds d =>
            dsimp only at e
            have ih := sysPollFrom_done limit ps later u d ho' hu T r e
            have step : ∀ x, u ≤ x → condsAt c ((u, .conds d) :: later) x = condsAt d later x := fun x hx => by rw [condsAt, if_pos hx]
            refine ⟨Nat.le_trans (by omega) ih.ge, fun _ => ih.inTime hu, fun x h1 h2 => ?_, fun v hv hm => ?_,
              fun h => List.mem_cons_of_mem _ (ih.failed h), ?_⟩
            · by_cases hx : u ≤ x
              · rw [step x hx]; exact ih.before x hx h2
              · rw [condsAt_before (by omega)]; exact hz
            · rcases List.mem_cons.1 hm with e | hm
              · exact nomatch e
              · exact ih.quiet v hv hm
            · rw [step T ih.ge]
              intro n qs h
              obtain ⟨h1, h2, h3, h4⟩ := ih.done n qs h
              refine ⟨h1, h2, h3, fun hm => ?_⟩
              rcases List.mem_cons.1 hm with e | hm
              · exact nomatch e
              · exact h4 hm
        · rw [if_neg hu] at e
          refine last (by omega) (fun x hx => ?_) e
          simp only [List.map_cons, List.mem_cons] at hx
          rcases hx with rfl | hx
          · omega
          · have := (List.pairwise_cons.1 ho').1 x hx
            omega

theorem sysPollFrom_never (limit : Int) (ps : List PollFd) : ∀ (later : List (Nat × Happening)) (t : Nat) (c : Conds), InOrder t later →
    (sysPollFrom limit ps t c later = none ↔ limit < 0 ∧ (∀ u, (u, Happening.signal) ∉ later) ∧ ∀ x, t ≤ x → ∀ p ∈ ps, toReport (condsAt c later x) p = 0)
  | later, t, c, ho => by
    rw [sysPollFrom.eq_def]
    dsimp only
    by_cases hc : 0 < readyCount c ps
    · rw [if_pos hc]
      refine ⟨fun h => (nomatch h), fun ⟨_, _, h⟩ => absurd ?_ (Nat.lt_irrefl 0)⟩
      obtain ⟨p, hp⟩ := List.exists_mem_of_length_pos hc
      rw [List.mem_filter] at hp
      have := h t (Nat.le_refl _) p hp.1
      rw [condsAt_start ho, ← report_eq] at this
      simp [this] at hp
    · rw [if_neg hc]
      have hz := readyCount_zero hc
      cases later with
      | nil =>
        dsimp only
        by_cases h0 : limit < 0
        · rw [if_pos h0]
          exact ⟨fun _ => ⟨h0, by simp, fun x _ => hz⟩, fun _ => rfl⟩
        · rw [if_neg h0]
          exact ⟨fun h => (nomatch h), fun h => absurd h.1 h0⟩
      | cons y later =>
        obtain ⟨u, h⟩ := y
        dsimp only
        have htu : t < u := (List.pairwise_cons.1 ho).1 u (by simp)
        have ho' : InOrder u later := (List.pairwise_cons.1 ho).2
        by_cases hu : limit < 0 ∨ (u : Int) ≤ limit
        · rw [if_pos hu]
          cases h with
          | signal =>
            exact ⟨fun h => (nomatch h), fun h => absurd (List.mem_cons_self ..) (h.2.1 u)⟩
          | conds d =>
            dsimp only
            rw [sysPollFrom_never limit ps later u d ho']
            have step : ∀ x, u ≤ x → condsAt c ((u, .conds d) :: later) x = condsAt d later x := fun x hx => by rw [condsAt, if_pos hx]
            constructor
            · rintro ⟨h1, h2, h3⟩
              refine ⟨h1, fun v hv => ?_, fun x hx => ?_⟩
              · rcases List.mem_cons.1 hv with e | hv
                · exact nomatch e
                · exact h2 v hv
              · by_cases hx : u ≤ x
                · rw [step x hx]; exact h3 x hx
                · rw [condsAt_before (by omega)]; exact hz
            · rintro ⟨h1, h2, h3⟩
              exact ⟨h1, fun v hv => h2 v (List.mem_cons_of_mem _ hv), fun x hx => by rw [← step x hx]; exact h3 x (by omega)⟩
        · rw [if_neg hu]
          exact ⟨fun h => (nomatch h), fun h => absurd (.inl h.1) hu⟩

/-- **C126** Whenever `vt_socket_poll` returns, for any number of entries and any time limit: at no moment before was there anything to report or a signal; it returns
the number of entries with something to report at that moment, with all reports filled in and nothing else in the entries changed, and 0 only at the time limit; or the
failure status, with the entries as they were, when a signal arrived. -/
theorem C126_poll {maxFds timeout : Nat} (ht : timeout < 2 ^ 32) (c : Conds) (later : List (Nat × Happening)) (ho : InOrder 0 later) (ps : List PollFd)
    (hm : ps.length ≤ maxFds) {T : Nat} {n : Int} {qs : List PollFd} (e : pollMany maxFds timeout c later ps = some (T, n, qs)) :
    (∀ x, x < T → (∀ p ∈ ps, toReport (condsAt c later x) p = 0) ∧ (x, Happening.signal) ∉ later) ∧
    ((n = -7 ∧ qs = ps ∧ (T, Happening.signal) ∈ later) ∨
     (qs = ps.map (fun p => { p with revents := toReport (condsAt c later T) p }) ∧ n = (qs.filter fun q => q.revents != 0).length ∧
      (n = 0 → T = timeout) ∧ (T, Happening.signal) ∉ later)) := by
  unfold pollMany at e
  rw [if_neg (by omega)] at e
  have hl : toI32 timeout < 0 ∨ ((0 : Nat) : Int) ≤ toI32 timeout := by omega
  cases hs : sysPollFrom (toI32 timeout) ps 0 c later with
  | none => rw [hs] at e; exact nomatch e
  | some y =>
    obtain ⟨t, r⟩ := y
    rw [hs] at e
    have d := sysPollFrom_done _ ps later 0 c ho hl t r hs
    cases r with
    | none =>
      dsimp only at e
      obtain ⟨rfl, e2⟩ := Prod.mk.inj (Option.some.inj e)
      obtain ⟨rfl, rfl⟩ := Prod.mk.inj e2
      exact ⟨fun x hx => ⟨d.before x (Nat.zero_le _) hx, d.quiet x hx⟩, .inl ⟨rfl, rfl, d.failed rfl⟩⟩
    | some r =>
      obtain ⟨k, r⟩ := r
      dsimp only at e
      obtain ⟨rfl, e2⟩ := Prod.mk.inj (Option.some.inj e)
      obtain ⟨rfl, rfl⟩ := Prod.mk.inj e2
      obtain ⟨h1, h2, h3, h4⟩ := d.done _ _ rfl
      refine ⟨fun x hx => ⟨d.before x (Nat.zero_le _) hx, d.quiet x hx⟩, .inr ⟨h1, by rw [h2], fun h => ?_, h4⟩⟩
      have hT := h3 (by omega)
      by_cases hb : timeout < 2 ^ 31
      · rw [sockI32_small hb] at hT
        omega
      · have := toI32_high (show 2 ^ 31 ≤ timeout by omega) ht
        omega

/-- **C126** (partial: time limits of 2^31 milliseconds and more are missing, see `C126_long_limit`.)  The call is over by the time limit. -/
theorem C126_in_time_partial {maxFds timeout : Nat} (h : timeout < 2 ^ 31) (c : Conds) (later : List (Nat × Happening)) (ho : InOrder 0 later) (ps : List PollFd) :
    ∃ T n qs, pollMany maxFds timeout c later ps = some (T, n, qs) ∧ T ≤ timeout := by
  have e : toI32 timeout = timeout := sockI32_small h
  unfold pollMany
  by_cases hm : maxFds < ps.length
  · rw [if_pos hm]
    exact ⟨0, _, _, rfl, Nat.zero_le _⟩
  · rw [if_neg hm]
    cases hs : sysPollFrom (toI32 timeout) ps 0 c later with
    | none => have := ((sysPollFrom_never _ ps later 0 c ho).1 hs).1; omega
    | some y =>
      obtain ⟨t, r⟩ := y
      have d := sysPollFrom_done _ ps later 0 c ho (by omega) t r hs
      have := d.inTime (by omega)
      cases r with
      | none => exact ⟨t, _, _, rfl, by omega⟩
      | some r => exact ⟨t, _, _, rfl, by omega⟩

/-- **C126** What happens with longer limits: they are none at all.  The call never returns exactly if there is never anything to report and no signal arrives. -/
theorem C126_long_limit {maxFds timeout : Nat} (h : 2 ^ 31 ≤ timeout) (h2 : timeout < 2 ^ 32) (c : Conds) (later : List (Nat × Happening)) (ho : InOrder 0 later)
    (ps : List PollFd) (hm : ps.length ≤ maxFds) :
    pollMany maxFds timeout c later ps = none ↔ (∀ u, (u, Happening.signal) ∉ later) ∧ ∀ x, ∀ p ∈ ps, toReport (condsAt c later x) p = 0 := by
  have hneg := toI32_high h h2
  have key : pollMany maxFds timeout c later ps = none ↔ sysPollFrom (toI32 timeout) ps 0 c later = none := by
    unfold pollMany
    rw [if_neg (by omega)]
    cases sysPollFrom (toI32 timeout) ps 0 c later with
    | none => exact ⟨fun _ => rfl, fun _ => rfl⟩
    | some y => obtain ⟨t, _ | r⟩ := y <;> exact ⟨fun h => (nomatch h), fun h => (nomatch h)⟩
  rw [key, sysPollFrom_never _ ps later 0 c ho]
  exact ⟨fun ⟨_, a, b⟩ => ⟨a, fun x => b x (Nat.zero_le _)⟩, fun ⟨a, b⟩ => ⟨hneg, a, fun x _ => b x⟩⟩

/-- **C126** More entries than the process may have descriptors: the failure status at once, the entries as they were. -/
theorem C126_too_many {maxFds timeout : Nat} (c : Conds) (later : List (Nat × Happening)) (ps : List PollFd) (hm : maxFds < ps.length) :
    pollMany maxFds timeout c later ps = some (0, -7, ps) := by
  unfold pollMany
  rw [if_pos hm]
  rfl

/-- **C126** Without entries the call is a pause of `timeout` milliseconds, unless a signal arrives. -/
theorem C126_pause {maxFds timeout : Nat} (h : timeout < 2 ^ 31) (c : Conds) : pollMany maxFds timeout c [] [] = some (timeout, 0, []) := by
  have e : toI32 timeout = timeout := sockI32_small h
  unfold pollMany
  rw [if_neg (by simp), sysPollFrom.eq_def]
  have h0 : ¬ (timeout : Int) < 0 := by omega
  simp only [readyCount, e, marked, if_neg h0, List.filter_nil, List.length_nil, Nat.lt_irrefl, if_false, List.map_nil, Int.toNat_natCast]
  rfl

/-- What ends the waiting for input on a descriptor, and when: the first moment with input, an error, a hang-up or an invalid descriptor, or the first signal. -/
def firstWake (fd : Nat) : (t : Nat) → Conds → List (Nat × Happening) → Option (Nat × Wake)
  | t, c, [] => if c fd &&& 57 ≠ 0 then some (t, .event (c fd &&& 1 ≠ 0)) else none
  | t, c, (u, .conds d) :: later => if c fd &&& 57 ≠ 0 then some (t, .event (c fd &&& 1 ≠ 0)) else firstWake fd u d later
  | t, c, (u, .signal) :: _ => if c fd &&& 57 ≠ 0 then some (t, .event (c fd &&& 1 ≠ 0)) else some (u, .signal)

/-- What the receiving functions look at after polling. -/
def lookedAt : Option (Nat × List PollFd) → Option (Nat × Bool)
  | none => none
  | some (n, qs) => some (n, qs.any fun q => q.revents &&& POLLIN != 0)

theorem report_in (fd : Nat) (c : Conds) : PollFd.report c ⟨fd, POLLIN, 0⟩ = c fd &&& 57 := by
  unfold PollFd.report
  rw [if_neg (by simp)]
  have : POLLIN ||| pollAlways = 57 := by decide
  change c fd &&& (POLLIN ||| pollAlways) = _
  rw [this]

theorem u16_in (x : UInt16) : (x &&& 57) &&& POLLIN = x &&& 1 := by
  rw [UInt16.and_assoc]
  rfl

theorem sysPollFrom_one (limit : Int) (fd : Nat) : ∀ (later : List (Nat × Happening)) (t : Nat) (c : Conds), InOrder t later → (limit < 0 ∨ (t : Int) ≤ limit) →
    (sysPollFrom limit [⟨fd, POLLIN, 0⟩] t c later).map (fun x => (x.1, lookedAt x.2)) = sysPoll limit (firstWake fd t c later)
  | later, t, c, ho, hl => by
    rw [sysPollFrom.eq_def]
    dsimp only
    by_cases hc : c fd &&& 57 = 0
    · have hcnt : readyCount c [⟨fd, POLLIN, 0⟩] = 0 := by simp [readyCount, report_in, hc]
      have hlook : lookedAt (some (0, marked c [⟨fd, POLLIN, 0⟩])) = some (0, false) := by
        simp [lookedAt, marked, report_in, hc]
      rw [hcnt, if_neg (by omega)]
      have hn : ¬ (c fd &&& 57 ≠ 0) := fun h => h hc
      cases later with
      | nil =>
        rw [firstWake, if_neg hn, sysPoll]
        dsimp only
        split
        · rfl
        · simp [hlook]
      | cons y later =>
        obtain ⟨u, h⟩ := y
        have htu : t < u := (List.pairwise_cons.1 ho).1 u (by simp)
        have ho' : InOrder u later := (List.pairwise_cons.1 ho).2
        cases h with
        | signal =>
          rw [firstWake, if_neg hn, sysPoll]
          dsimp only
          split
          · rfl
          · simp [hlook]
        | conds d =>
          rw [firstWake, if_neg hn]
          dsimp only
          by_cases hu : limit < 0 ∨ (u : Int) ≤ limit
          · rw [if_pos hu]
            exact sysPollFrom_one limit fd later u d ho' hu
          · rw [if_neg hu]
            have late : ∀ (later : List (Nat × Happening)) (u : Nat) (d : Conds), InOrder u later → ¬ (limit < 0 ∨ (u : Int) ≤ limit) →
                sysPoll limit (firstWake fd u d later) = some (limit.toNat, some (0, false)) := by
              intro later
              induction later with
              | nil =>
                intro u d _ hu
                rw [firstWake]
                split
                · rw [sysPoll]; rw [if_neg hu]
                · rw [sysPoll]; rw [if_neg (by omega)]
              | cons y later ih =>
                intro u d ho hu
                obtain ⟨v, h⟩ := y
                have huv : u < v := (List.pairwise_cons.1 ho).1 v (by simp)
                cases h with
                | signal =>
                  rw [firstWake]
                  split
                  · rw [sysPoll]; rw [if_neg hu]
                  · rw [sysPoll]; rw [if_neg (by omega)]
                | conds d' =>
                  rw [firstWake]
                  split
                  · rw [sysPoll]; rw [if_neg hu]
                  · exact ih v d' (List.pairwise_cons.1 ho).2 (by omega)
            rw [late later u d ho' hu]
            simp [hlook]
    · have hcnt : readyCount c [⟨fd, POLLIN, 0⟩] = 1 := by simp [readyCount, report_in, hc]
      rw [hcnt, if_pos (by omega)]
      have hw : firstWake fd t c later = some (t, .event (c fd &&& 1 ≠ 0)) := by
        cases later with
        | nil => rw [firstWake, if_pos hc]
        | cons y later => obtain ⟨u, _ | _⟩ := y <;> rw [firstWake, if_pos hc]
      rw [hw, sysPoll]
      rw [if_pos hl]
      simp [lookedAt, marked, report_in, u16_in, Wake.answer, bne, BEq.beq]

/-- **C126** The receiving functions with a time limit (sockets.c:206-242) poll one entry, for input: they do what C107 says of them, where what ends the waiting is the first
moment with input, an error, a hang-up or an invalid descriptor, or the first signal. -/
theorem C126_receive_timed {maxFds timeout : Nat} (hm : 0 < maxFds) (c : Conds) (later : List (Nat × Happening)) (ho : InOrder 0 later) (fd : Nat) (a : Answers)
    (address : Addr) (buf : Mem) (len : Nat) :
    receiveTimedPoll maxFds timeout c later fd a buf len = receiveTimedAt timeout (firstWake fd 0 c later) a buf len ∧
    receiveTimedFromPoll maxFds timeout c later fd a address buf len = receiveTimedFromAt timeout (firstWake fd 0 c later) a address buf len := by
  have key := sysPollFrom_one (toI32 timeout) fd later 0 c ho (by omega)
  unfold receiveTimedPoll receiveTimedFromPoll pollMany receiveTimedAt receiveTimedFromAt
  rw [if_neg (show ¬ maxFds < [(⟨fd, POLLIN, 0⟩ : PollFd)].length by simp only [List.length_singleton]; omega), ← key]
  cases sysPollFrom (toI32 timeout) [⟨fd, POLLIN, 0⟩] 0 c later with
  | none => exact ⟨rfl, rfl⟩
  | some y =>
    obtain ⟨t, _ | ⟨n, qs⟩⟩ := y
    · exact ⟨rfl, rfl⟩
    · dsimp only [Option.map, lookedAt]
      generalize (qs.any fun q => q.revents &&& POLLIN != 0) = b
      have hn : ¬ ((n : Int) < 0) := by omega
      constructor
      · rw [if_neg hn, receiveTimed]
        dsimp only [poll]
        rw [if_neg hn]
        split <;> rfl
      · rw [if_neg hn, receiveTimedFrom]
        dsimp only [poll]
        rw [if_neg hn]
        split <;> rfl

-- three entries, asking for input, output and nothing; after 5 ms input on 3, after 9 ms a hang-up on 4
example : InOrder 0 [(5, .conds fun n => if n = 3 then 1 else 0), (9, .conds fun n => if n = 3 then 1 else if n = 4 then 16 else 0)] := by
  simp [InOrder]
example : pollMany 1024 100 (fun _ => 0) [(5, .conds fun n => if n = 3 then 1 else 0), (9, .conds fun n => if n = 3 then 1 else if n = 4 then 16 else 0)]
    [⟨3, 1, 7⟩, ⟨4, 4, 7⟩, ⟨-1, 0, 7⟩] = some (5, 1, [⟨3, 1, 1⟩, ⟨4, 4, 0⟩, ⟨-1, 0, 0⟩]) := by decide +kernel
-- only the second and third: the hang-up is reported though not asked for
example : pollMany 1024 100 (fun _ => 0) [(5, .conds fun n => if n = 3 then 1 else 0), (9, .conds fun n => if n = 3 then 1 else if n = 4 then 16 else 0)]
    [⟨4, 4, 7⟩, ⟨-1, 0, 7⟩] = some (9, 1, [⟨4, 4, 16⟩, ⟨-1, 0, 0⟩]) := by decide +kernel
-- with a limit of 7 ms it is not seen
example : pollMany 1024 7 (fun _ => 0) [(5, .conds fun n => if n = 3 then 1 else 0), (9, .conds fun n => if n = 3 then 1 else if n = 4 then 16 else 0)]
    [⟨4, 4, 7⟩, ⟨-1, 0, 7⟩] = some (7, 0, [⟨4, 4, 0⟩, ⟨-1, 0, 0⟩]) := by decide +kernel
-- a limit of 25 days is none at all
example : pollMany 1024 2160000000 (fun _ => 0) [] [⟨4, 4, 7⟩] = none := by decide +kernel
example : firstWake 4 0 (fun _ => 0) [(5, .conds fun n => if n = 3 then 1 else 0), (9, .conds fun n => if n = 3 then 1 else if n = 4 then 16 else 0)] =
    some (9, .event false) := by decide +kernel

end Vita
