import Verif.Props.Events
/-!
# C196: when the router ends, and what it says about it
-/
open scoped List
namespace Emissary.Router
open Emissary.Events (Event)

/-! ## Specification, over what was called -/

/-- How often the shutdown was asked for. -/
def requests (os : List Op) : Nat := os.count .request

/-- The transit manager is done: its task is gone, or it was asked to end, saw it, and said so. -/
def Done (os : List Op) : Prop := .drop ∈ os ∨ [.request, .look, .answer] <+ os

/-! ## Proof -/

theorem run_snoc (os : List Op) (o : Op) : run (os ++ [o]) = (run os).step o := by
  simp [run, List.foldl_append]

theorem sub_snoc {l os : List Op} {x o : Op} :
    l ++ [x] <+ os ++ [o] ↔ l ++ [x] <+ os ∨ (o = x ∧ l <+ os) := by
  rw [← List.reverse_sublist]
  simp only [List.reverse_append, List.reverse_cons, List.reverse_nil, List.nil_append,
    List.singleton_append]
  have e1 : l ++ [x] <+ os ↔ x :: l.reverse <+ os.reverse := by
    rw [← List.reverse_sublist]; simp
  have e2 : l <+ os ↔ l.reverse <+ os.reverse := List.reverse_sublist.symm
  rw [e1, e2]
  generalize l.reverse = a, os.reverse = b
  constructor
  · intro h
    cases h with
    | cons _ h => exact .inl h
    | cons_cons _ h => exact .inr ⟨rfl, h⟩
  · rintro (h | ⟨rfl, h⟩)
    · exact h.cons _
    · exact h.cons_cons _

theorem snoc_ind {P : List Op → Prop} (h0 : P []) (h1 : ∀ os o, P os → P (os ++ [o])) (os) : P os := by
  rw [← List.reverse_reverse os]
  induction os.reverse with
  | nil => exact h0
  | cons o l ih => rw [List.reverse_cons]; exact h1 _ _ ih

structure Inv (os : List Op) (s : State) : Prop where
  count : s.count = requests os
  created : s.shutdown.created = 1
  handles : s.shutdown.handles = if requests os = 0 then [0] else []
  told : 0 ∈ s.shutdown.told ↔ requests os ≠ 0
  down : s.shutdown.shuttingDown = true ↔ requests os ≠ 0
  dropped : 0 ∈ s.shutdown.dropped ↔ .drop ∈ os
  seen : 0 ∉ s.shutdown.dropped → (0 ∈ s.shutdown.seen ↔ [.request, .look] <+ os)
  answered : 0 ∉ s.shutdown.dropped → (0 ∈ s.shutdown.answered ↔ [.request, .look, .answer] <+ os)
  waits : requests os ≠ 0 → 0 ∈ s.shutdown.waiting ∨ s.shutdown.done 0 = true
  only : ∀ i ∈ s.shutdown.waiting, i = 0
  phase : s.events.phase = if requests os = 0 then .active else .shuttingDown
  silent : Event.shutDown ∉ s.events.told
  notices : s.events.told.count .shuttingDown ≤ requests os
  one : s.events.told.count .shuttingDown ≤ 1

theorem requests_snoc (os : List Op) (o : Op) :
    requests (os ++ [o]) = requests os + if o = .request then 1 else 0 := by
  unfold requests; rw [List.count_append, List.count_singleton]; simp

theorem request_sub {os : List Op} : [Op.request] <+ os ↔ requests os ≠ 0 := by
  unfold requests
  rw [List.singleton_sublist, ← List.count_pos_iff]; omega

theorem two_snoc {os : List Op} {o : Op} :
    [.request, .look] <+ os ++ [o] ↔ [.request, .look] <+ os ∨ (o = .look ∧ requests os ≠ 0) := by
  rw [← request_sub]; exact sub_snoc (l := [.request])

theorem three_snoc {os : List Op} {o : Op} :
    [.request, .look, .answer] <+ os ++ [o] ↔
      [.request, .look, .answer] <+ os ∨ (o = .answer ∧ [.request, .look] <+ os) :=
  sub_snoc (l := [.request, .look])

/-- Steps that touch neither the shutdown context nor the phase of the event manager. -/
theorem Inv.quiet {os : List Op} {s t : State} {o : Op} (h : Inv os s)
    (ho : o ≠ .request) (hl : o ≠ .look) (ha : o ≠ .answer) (hd : o ≠ .drop)
    (hc : t.count = s.count) (h1 : t.shutdown = s.shutdown)
    (h2 : t.events.phase = s.events.phase)
    (h3 : ∃ x, t.events.told = s.events.told ++ x ∧ .shutDown ∉ x ∧ .shuttingDown ∉ x) :
    Inv (os ++ [o]) t := by
  have r : requests (os ++ [o]) = requests os := by rw [requests_snoc, if_neg ho]; rfl
  obtain ⟨x, e, hx, hy⟩ := h3
  refine ⟨?_, ?_, ?_, ?_, ?_, ?_, ?_, ?_, ?_, ?_, ?_, ?_, ?_, ?_⟩
  · rw [r, hc]; exact h.count
  · rw [h1]; exact h.created
  · rw [r, h1]; exact h.handles
  · rw [r, h1]; exact h.told
  · rw [r, h1]; exact h.down
  · rw [h1, h.dropped]; simp [Ne.symm hd]
  · rw [h1, two_snoc]; simpa [hl] using h.seen
  · rw [h1, three_snoc]; simpa [ha] using h.answered
  · rw [r, h1]; exact h.waits
  · rw [h1]; exact h.only
  · rw [r, h2]; exact h.phase
  · rw [e, List.mem_append, not_or]; exact ⟨h.silent, hx⟩
  · rw [e, r, List.count_append, List.count_eq_zero.2 hy]; exact h.notices
  · rw [e, List.count_append, List.count_eq_zero.2 hy]; exact h.one

theorem Inv.context {os : List Op} {s : State} (h : Inv os s) :
    Inv os { s with shutdown := s.shutdown.step .pollContext } := by
  refine ⟨h.count, h.created, h.handles, h.told, h.down, h.dropped, h.seen, h.answered, ?_, ?_,
    h.phase, h.silent, h.notices, h.one⟩
  · intro hr
    cases hd : s.shutdown.done 0 with
    | true => right; exact hd
    | false =>
      left
      rcases h.waits hr with hw | hw
      · exact List.mem_filter.2 ⟨hw, by simp [hd]⟩
      · rw [hd] at hw; cases hw
  · intro i hi; exact h.only i (List.mem_filter.1 hi).1

theorem quiet_event {s : Events.State} {e : Events.Op} (he : e ≠ .shutdown) :
    (s.step e).phase = s.phase ∧
    ∃ x, (s.step e).told = s.told ++ x ∧ .shutDown ∉ x ∧ .shuttingDown ∉ x := by
  refine ⟨?_, Events.added s e, Events.told_step s e, ?_, ?_⟩
  · cases e with
    | start d => simp only [Events.State.step]; split <;> rfl
    | poll t => cases t <;> simp [Events.State.step, Events.State.drain, Events.State.tick]
    | read => simp only [Events.State.step]; split <;> rfl
    | shutdown => exact absurd rfl he
    | _ => rfl
  · unfold Events.added; split
    · cases e with
      | poll t => cases t <;> simp
      | shutdown => exact absurd rfl he
      | _ => simp
    · simp
  · unfold Events.added; split
    · cases e with
      | poll t => cases t <;> simp
      | shutdown => exact absurd rfl he
      | _ => simp
    · simp

theorem Inv.step {os : List Op} {s : State} (h : Inv os s) (o : Op) : Inv (os ++ [o]) (s.step o) := by
  have nil : ∃ x, s.events.told = s.events.told ++ x ∧ Event.shutDown ∉ x ∧ Event.shuttingDown ∉ x :=
    ⟨[], by simp, by simp, by simp⟩
  cases o with
  | request =>
    by_cases hr : requests os = 0
    · have e : s.step .request =
          { s with
            count := s.count + 1
            shutdown := s.shutdown.step .shutdown
            events := s.events.step .shutdown } := by
        simp only [State.step]; rw [if_pos (by rw [h.count, hr])]
      have r : requests (os ++ [.request]) = 1 := by rw [requests_snoc, hr]; rfl
      have ph : s.events.phase = .active := by rw [h.phase, if_pos hr]
      have ha : Events.added s.events .shutdown = [] ∨
          Events.added s.events .shutdown = [.shuttingDown] := by
        unfold Events.added; rw [ph]; split
        · right; rfl
        · left; rfl
      have c0 : s.events.told.count .shuttingDown = 0 := by have := h.notices; omega
      have hh : s.shutdown.handles = [0] := by rw [h.handles, if_pos hr]
      rw [e]
      refine ⟨?_, h.created, ?_, ?_, ?_, ?_, ?_, ?_, ?_, ?_, ?_, ?_, ?_, ?_⟩
      · rw [r]; show s.count + 1 = 1; rw [h.count, hr]
      · rw [r]; rfl
      · rw [r]; show 0 ∈ s.shutdown.told ++ s.shutdown.handles ↔ _; simp [hh]
      · rw [r]; show (true = true) ↔ _; simp
      · show 0 ∈ s.shutdown.dropped ↔ _; rw [h.dropped]; simp
      · rw [two_snoc]; simpa [Shutdown.State.step] using h.seen
      · rw [three_snoc]; simpa [Shutdown.State.step] using h.answered
      · intro _
        by_cases hd : 0 ∈ s.shutdown.dropped
        · right
          show (decide (0 ∈ s.shutdown.answered) || decide (0 ∈ s.shutdown.dropped)) = true
          simp [hd]
        · left
          show 0 ∈ s.shutdown.waiting ++ s.shutdown.handles.filter _
          simp [hh, hd]
      · intro i hi
        rcases List.mem_append.1 hi with hi | hi
        · exact h.only i hi
        · have := (List.mem_filter.1 hi).1; rw [hh] at this; simpa using this
      · rw [r]; show (s.events.step .shutdown).phase = _
        simp only [Events.State.step]; rw [ph]; rfl
      · show Event.shutDown ∉ (s.events.step .shutdown).told
        rw [Events.told_step, List.mem_append, not_or]
        refine ⟨h.silent, ?_⟩
        rcases ha with ha | ha <;> simp [ha]
      · show (s.events.step .shutdown).told.count _ ≤ _
        rw [Events.told_step, List.count_append, c0, r]
        rcases ha with ha | ha <;> simp [ha]
      · show (s.events.step .shutdown).told.count _ ≤ _
        rw [Events.told_step, List.count_append, c0]
        rcases ha with ha | ha <;> simp [ha]
    · have e : s.step .request = { s with count := s.count + 1 } := by
        simp only [State.step]; rw [if_neg (by rw [h.count]; omega)]
      have r : requests (os ++ [.request]) = requests os + 1 := by rw [requests_snoc]; rfl
      have r0 : (requests os + 1 = 0) = False := by simp
      rw [e]
      refine ⟨?_, h.created, ?_, ?_, ?_, ?_, ?_, ?_, ?_, h.only, ?_, h.silent, ?_, h.one⟩
      · rw [r]; show s.count + 1 = _; rw [h.count]
      · rw [r]; have := h.handles; simp only [hr, r0, if_false] at this ⊢; exact this
      · rw [r]; have := h.told; simpa [hr] using this
      · rw [r]; have := h.down; simpa [hr] using this
      · show 0 ∈ s.shutdown.dropped ↔ _; rw [h.dropped]; simp
      · rw [two_snoc]; simpa using h.seen
      · rw [three_snoc]; simpa using h.answered
      · intro _; exact h.waits hr
      · rw [r]; have := h.phase; simp only [hr, r0, if_false] at this ⊢; exact this
      · rw [r]; exact Nat.le_succ_of_le h.notices
  | poll t e =>
    unfold State.step
    dsimp only
    split
    · exact h.quiet (by simp) (by simp) (by simp) (by simp) rfl rfl rfl nil
    · unfold State.poll
      split
      · exact h.quiet (by simp) (by simp) (by simp) (by simp) rfl rfl rfl nil
      · split
        · exact h.quiet (by simp) (by simp) (by simp) (by simp) rfl rfl rfl nil
        · have q := quiet_event (s := s.events) (e := .poll t) (by simp)
          exact h.context.quiet (by simp) (by simp) (by simp) (by simp) rfl rfl q.1 q.2
  | event e =>
    by_cases hq : (∃ t, e = .poll t) ∨ e = .shutdown
    · have : s.step (.event e) = s := by
        rcases hq with ⟨t, rfl⟩ | rfl <;> rfl
      rw [this]
      exact h.quiet (by simp) (by simp) (by simp) (by simp) rfl rfl rfl nil
    · have e1 : s.step (.event e) = { s with events := s.events.step e } := by
        cases e with
        | poll t => exact absurd (.inl ⟨t, rfl⟩) hq
        | shutdown => exact absurd (.inr rfl) hq
        | _ => rfl
      rw [e1]
      have q := quiet_event (s := s.events) (e := e) fun he => hq (.inr he)
      exact h.quiet (by simp) (by simp) (by simp) (by simp) rfl rfl q.1 q.2
  | look =>
    have r : requests (os ++ [.look]) = requests os := by rw [requests_snoc]; simp
    have key : 0 ∈ s.shutdown.told ∧ 0 ∉ s.shutdown.dropped ∧
        s.shutdown.step (.poll 0) = { s.shutdown with seen := 0 :: s.shutdown.seen } ∨
        ¬ (0 ∈ s.shutdown.told ∧ 0 ∉ s.shutdown.dropped) ∧ s.shutdown.step (.poll 0) = s.shutdown := by
      simp only [Shutdown.State.step]
      by_cases hc : 0 ∈ s.shutdown.told ∧ 0 ∉ s.shutdown.dropped
      · left; exact ⟨hc.1, hc.2, if_pos hc⟩
      · right; exact ⟨hc, if_neg hc⟩
    rcases key with ⟨k1, k2, k⟩ | ⟨k1, k⟩ <;> simp only [State.step, k]
    · refine ⟨?_, h.created, ?_, ?_, ?_, ?_, ?_, ?_, ?_, h.only, ?_, h.silent, ?_, h.one⟩
      · rw [r]; exact h.count
      · rw [r]; exact h.handles
      · rw [r]; exact h.told
      · rw [r]; exact h.down
      · show 0 ∈ s.shutdown.dropped ↔ _; rw [h.dropped]; simp
      · intro _; rw [two_snoc]; show 0 ∈ 0 :: s.shutdown.seen ↔ _
        simp [h.told.1 k1]
      · rw [three_snoc]; simpa using h.answered
      · rw [r]; exact h.waits
      · rw [r]; exact h.phase
      · rw [r]; exact h.notices
    · refine ⟨?_, h.created, ?_, ?_, ?_, ?_, ?_, ?_, ?_, h.only, ?_, h.silent, ?_, h.one⟩
      · rw [r]; exact h.count
      · rw [r]; exact h.handles
      · rw [r]; exact h.told
      · rw [r]; exact h.down
      · show 0 ∈ s.shutdown.dropped ↔ _; rw [h.dropped]; simp
      · intro hd
        have hd : 0 ∉ s.shutdown.dropped := hd
        have : ¬ requests os ≠ 0 := fun hr => k1 ⟨h.told.2 hr, hd⟩
        rw [two_snoc]; simpa [this] using h.seen hd
      · rw [three_snoc]; simpa using h.answered
      · rw [r]; exact h.waits
      · rw [r]; exact h.phase
      · rw [r]; exact h.notices
  | answer =>
    have r : requests (os ++ [.answer]) = requests os := by rw [requests_snoc]; simp
    have key : 0 ∈ s.shutdown.seen ∧ 0 ∉ s.shutdown.dropped ∧
        s.shutdown.step (.answer 0) = { s.shutdown with answered := 0 :: s.shutdown.answered } ∨
        ¬ (0 ∈ s.shutdown.seen ∧ 0 ∉ s.shutdown.dropped) ∧
          s.shutdown.step (.answer 0) = s.shutdown := by
      simp only [Shutdown.State.step]
      by_cases hc : 0 ∈ s.shutdown.seen ∧ 0 ∉ s.shutdown.dropped
      · left; exact ⟨hc.1, hc.2, if_pos hc⟩
      · right; exact ⟨hc, if_neg hc⟩
    rcases key with ⟨k1, k2, k⟩ | ⟨k1, k⟩ <;> simp only [State.step, k]
    · refine ⟨?_, h.created, ?_, ?_, ?_, ?_, ?_, ?_, ?_, h.only, ?_, h.silent, ?_, h.one⟩
      · rw [r]; exact h.count
      · rw [r]; exact h.handles
      · rw [r]; exact h.told
      · rw [r]; exact h.down
      · show 0 ∈ s.shutdown.dropped ↔ _; rw [h.dropped]; simp
      · rw [two_snoc]; simpa using h.seen
      · intro _; rw [three_snoc]; show 0 ∈ 0 :: s.shutdown.answered ↔ _
        simp [(h.seen k2).1 k1]
      · intro _; right; show (decide (0 ∈ 0 :: s.shutdown.answered) || _) = true; simp
      · rw [r]; exact h.phase
      · rw [r]; exact h.notices
    · refine ⟨?_, h.created, ?_, ?_, ?_, ?_, ?_, ?_, ?_, h.only, ?_, h.silent, ?_, h.one⟩
      · rw [r]; exact h.count
      · rw [r]; exact h.handles
      · rw [r]; exact h.told
      · rw [r]; exact h.down
      · show 0 ∈ s.shutdown.dropped ↔ _; rw [h.dropped]; simp
      · rw [two_snoc]; simpa using h.seen
      · intro hd
        have hd : 0 ∉ s.shutdown.dropped := hd
        have : ¬ [Op.request, .look] <+ os := fun hr => k1 ⟨(h.seen hd).2 hr, hd⟩
        rw [three_snoc]; simpa [this] using h.answered hd
      · rw [r]; exact h.waits
      · rw [r]; exact h.phase
      · rw [r]; exact h.notices
  | drop =>
    have r : requests (os ++ [.drop]) = requests os := by rw [requests_snoc]; simp
    have key : s.shutdown.step (.drop 0) =
        { s.shutdown with dropped := 0 :: s.shutdown.dropped } := by
      simp only [Shutdown.State.step]; rw [if_pos (by rw [h.created]; omega)]
    simp only [State.step, key]
    refine ⟨?_, h.created, ?_, ?_, ?_, ?_, ?_, ?_, ?_, h.only, ?_, h.silent, ?_, h.one⟩
    · rw [r]; exact h.count
    · rw [r]; exact h.handles
    · rw [r]; exact h.told
    · rw [r]; exact h.down
    · simp
    · intro hd; exact absurd (List.mem_cons_self) hd
    · intro hd; exact absurd (List.mem_cons_self) hd
    · intro _; right; show (_ || decide (0 ∈ 0 :: s.shutdown.dropped)) = true; simp
    · rw [r]; exact h.phase
    · rw [r]; exact h.notices

theorem inv (os : List Op) : Inv os (run os) := by
  induction os using snoc_ind with
  | h0 =>
    refine ⟨rfl, rfl, rfl, ?_, ?_, ?_, ?_, ?_, ?_, ?_, rfl, ?_, ?_, ?_⟩ <;>
      simp [run, Shutdown.run, Shutdown.State.step, requests, Events.State.told]
  | h1 os o ih => rw [run_snoc]; exact ih.step o

theorem ready_iff (os : List Op) :
    (run os).shutdown.ready = true ↔ requests os ≠ 0 ∧ Done os := by
  have h := inv os
  generalize run os = s at h
  have hdone : s.shutdown.done 0 = true ↔ Done os := by
    unfold Shutdown.State.done Done
    by_cases hd : 0 ∈ s.shutdown.dropped
    · simp [hd, h.dropped.1 hd]
    · rw [← h.dropped]
      simp [hd, h.answered hd]
  unfold Shutdown.State.ready
  rw [Bool.and_eq_true, h.down, ← hdone]
  constructor
  · rintro ⟨hr, ha⟩
    refine ⟨hr, ?_⟩
    rcases h.waits hr with hw | hw
    · exact List.all_eq_true.1 ha 0 hw
    · exact hw
  · rintro ⟨hr, hd⟩
    refine ⟨hr, List.all_eq_true.2 fun i hi => ?_⟩
    rw [h.only i hi]; exact hd

/-- **C196**: a router that has not ended ends when it is polled if and only if it was asked twice to
shut down, or was asked once and its transit manager is done, or its transports have ended. In
particular it goes on until it is asked. -/
theorem C196_end (os : List Op) (timer ended : Bool) (h : (run os).over = false) :
    (run (os ++ [.poll timer ended])).over = true ↔
      2 ≤ requests os ∨ (requests os = 1 ∧ Done os) ∨ ended = true := by
  rw [run_snoc]
  have hc := (inv os).count
  have hr := ready_iff os
  simp only [State.step, h, Bool.false_eq_true, if_false, State.poll]
  by_cases h2 : 2 ≤ (run os).count
  · rw [if_pos h2]; rw [hc] at h2; simp [h2]
  · rw [if_neg h2]
    rw [hc] at h2
    by_cases h3 : (run os).shutdown.ready = true
    · rw [if_pos h3]
      obtain ⟨a, b⟩ := hr.1 h3
      have : requests os = 1 := by omega
      simp [this, b]
    · rw [if_neg h3]
      have : ¬ (requests os = 1 ∧ Done os) := fun hh => h3 (hr.2 ⟨by omega, hh.2⟩)
      simp [h2, this]

/-- **C196**: only polling ends it. -/
theorem C196_polled (os : List Op) (o : Op) (h : (run os).over = false)
    (h' : (run (os ++ [o])).over = true) : ∃ t e, o = .poll t e := by
  rw [run_snoc] at h'
  cases o with
  | poll t e => exact ⟨t, e, rfl⟩
  | request =>
    simp only [State.step] at h'
    split at h' <;> (simp only at h'; rw [h] at h'; cases h')
  | event e => cases e <;> (simp only [State.step] at h'; rw [h] at h'; cases h')
  | _ => simp only [State.step] at h'; rw [h] at h'; cases h'

/-- **C196**: the program is told once that the router shuts down, as soon as it is asked to, unless
the program has 64 events to read. -/
theorem C196_shutting_down (os os' : List Op) (h0 : requests os = 0)
    (h : (run os).events.queue.length < 64) :
    (run (os ++ .request :: os')).events.told.count .shuttingDown = 1 := by
  have h1 : Event.shuttingDown ∈ (run (os ++ [.request])).events.told := by
    have hi := inv os
    rw [run_snoc]
    simp only [State.step]
    rw [if_pos (by rw [hi.count, h0])]
    dsimp only
    rw [Events.told_step]
    unfold Events.added
    rw [if_pos h, hi.phase, if_pos h0]
    simp
  have mono : ∀ (l : List Op) (s : State), Event.shuttingDown ∈ s.events.told →
      Event.shuttingDown ∈ (l.foldl State.step s).events.told := by
    intro l
    induction l with
    | nil => intro s hs; exact hs
    | cons o l ih =>
      intro s hs
      refine ih _ ?_
      have sub : ∀ e, Event.shuttingDown ∈ (s.events.step e).told := by
        intro e; rw [Events.told_step]; exact List.mem_append_left _ hs
      cases o with
      | request => simp only [State.step]; split <;> first | exact sub _ | exact hs
      | poll t e =>
        simp only [State.step, State.poll]
        split
        · exact hs
        · split
          · exact hs
          · split
            · exact hs
            · exact sub _
      | event e => cases e <;> first | exact sub _ | exact hs
      | _ => exact hs
  have e : run (os ++ .request :: os') = os'.foldl State.step (run (os ++ [.request])) := by
    simp [run, List.foldl_append]
  have h2 := mono os' _ h1
  rw [← e] at h2
  have := List.count_pos_iff.2 h2
  have := (inv (os ++ .request :: os')).one
  omega

/-- **C196**, violated: the program is never told that the router has shut down: the event that says
so exists, and no history of calls makes it appear. -/
theorem C196_shut_down_violated (os : List Op) : Event.shutDown ∉ (run os).events.told :=
  (inv os).silent

/-! ## The cases occur -/

/-- A graceful shutdown: asked, not over while a transit tunnel is there, over when it has gone. -/
example : (run [.poll true false, .request, .poll false false, .look, .poll false false]).over = false
    ∧ (run [.poll true false, .request, .poll false false, .look, .poll false false, .answer,
        .poll false false]).over = true := by decide +kernel
example := C196_end [.request, .look, .answer] false false (by decide +kernel)
example : (run [.request, .request, .poll false false]).over = true := by decide +kernel
example := C196_shutting_down [.poll true false] [.request, .poll false false] (by decide +kernel)
  (by decide +kernel)

end Emissary.Router
