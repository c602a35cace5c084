import Verif.Model.Shutdown
/-!
# C193: the router waits for its subsystems when it shuts down
-/
namespace Emissary.Shutdown

/-! ## Specification, over what was called -/

/-- Handles given out. -/
def handlesIn (os : List Op) : Nat := os.count .handle

/-- Handle `i` was out when the shutdown was asked for. -/
def Told (os : List Op) (i : Nat) : Prop := ∃ a b, os = a ++ .shutdown :: b ∧ i < handlesIn a

/-- The subsystem polled its handle after that. -/
def Seen (os : List Op) (i : Nat) : Prop := ∃ a b, os = a ++ .poll i :: b ∧ Told a i

/-- And after that said it was done. -/
def Answered (os : List Op) (i : Nat) : Prop := ∃ a b, os = a ++ .answer i :: b ∧ Seen a i

/-- The subsystem dropped its handle. -/
def Dropped (os : List Op) (i : Nat) : Prop := ∃ a b, os = a ++ .drop i :: b ∧ i < handlesIn a

/-! ## Proof -/

theorem run_snoc (os : List Op) (o : Op) : run (os ++ [o]) = (run os).step o := by
  simp [run, List.foldl_append]

theorem split_snoc {os : List Op} {o x : Op} {P : List Op → Prop} :
    (∃ a b, os ++ [o] = a ++ x :: b ∧ P a) ↔ (∃ a b, os = a ++ x :: b ∧ P a) ∨ (o = x ∧ P os) := by
  constructor
  · rintro ⟨a, b, e, h⟩
    rcases List.eq_nil_or_concat b with rfl | ⟨b', y, rfl⟩
    · obtain ⟨e1, e2⟩ := List.append_inj' e rfl
      subst e1; exact .inr ⟨by simpa using e2, h⟩
    · left
      rw [List.concat_eq_append, ← List.cons_append, ← List.append_assoc] at e
      exact ⟨a, b', (List.append_inj' e rfl).1, h⟩
  · rintro (⟨a, b, rfl, h⟩ | ⟨rfl, h⟩)
    · exact ⟨a, b ++ [o], by simp, h⟩
    · exact ⟨os, [], rfl, h⟩

theorem handlesIn_snoc (os : List Op) (o : Op) :
    handlesIn (os ++ [o]) = handlesIn os + if o = .handle then 1 else 0 := by
  unfold handlesIn; rw [List.count_append, List.count_singleton]; simp

theorem Told_snoc {os : List Op} {o : Op} {i : Nat} :
    Told (os ++ [o]) i ↔ Told os i ∨ (o = .shutdown ∧ i < handlesIn os) := split_snoc

theorem Seen_snoc {os : List Op} {o : Op} {i : Nat} :
    Seen (os ++ [o]) i ↔ Seen os i ∨ (o = .poll i ∧ Told os i) := split_snoc

theorem Answered_snoc {os : List Op} {o : Op} {i : Nat} :
    Answered (os ++ [o]) i ↔ Answered os i ∨ (o = .answer i ∧ Seen os i) := split_snoc

theorem Dropped_snoc {os : List Op} {o : Op} {i : Nat} :
    Dropped (os ++ [o]) i ↔ Dropped os i ∨ (o = .drop i ∧ i < handlesIn os) := split_snoc

structure Inv (os : List Op) (s : State) : Prop where
  created : s.created = handlesIn os
  started : s.shuttingDown = true ↔ Op.shutdown ∈ os
  handles : ∀ i, i ∈ s.handles → i < s.created
  out : ∀ i, i < s.created → i ∈ s.handles ∨ i ∈ s.told
  told : ∀ i, i ∈ s.told ↔ Told os i
  dropped : ∀ i, i ∈ s.dropped ↔ Dropped os i
  seen : ∀ i, i ∉ s.dropped → (i ∈ s.seen ↔ Seen os i)
  answered : ∀ i, i ∉ s.dropped → (i ∈ s.answered ↔ Answered os i)
  waits : ∀ i ∈ s.told, i ∈ s.waiting ∨ s.done i = true
  waiting : ∀ i ∈ s.waiting, i ∈ s.told

theorem Told.lt {os : List Op} {i : Nat} (h : Told os i) : i < handlesIn os := by
  obtain ⟨a, b, rfl, h⟩ := h
  unfold handlesIn at h ⊢; rw [List.count_append]; omega

theorem Inv.step {os : List Op} {s : State} (h : Inv os s) (o : Op) : Inv (os ++ [o]) (s.step o) := by
  have hmem : ∀ o, Op.shutdown ∈ os ++ [o] ↔ Op.shutdown ∈ os ∨ o = .shutdown := by
    intro o; simp [eq_comm]
  cases o with
  | handle =>
    refine ⟨?_, ?_, ?_, ?_, ?_, ?_, ?_, ?_, ?_, ?_⟩
    · show s.created + 1 = _; rw [handlesIn_snoc, h.created]; simp
    · rw [hmem]; simpa [State.step] using h.started
    · intro i hi
      show i < s.created + 1
      rcases List.mem_append.1 hi with hi | hi
      · have := h.handles i hi; omega
      · simp only [List.mem_singleton] at hi; omega
    · intro i hi
      have hi : i < s.created + 1 := hi
      rcases Nat.lt_or_ge i s.created with hl | hl
      · exact (h.out i hl).imp (List.mem_append_left _) id
      · left; exact List.mem_append_right _ (by simp; omega)
    · intro i; rw [Told_snoc]; simpa [State.step] using h.told i
    · intro i; rw [Dropped_snoc]; simpa [State.step] using h.dropped i
    · intro i hi; rw [Seen_snoc]; simpa [State.step] using h.seen i hi
    · intro i hi; rw [Answered_snoc]; simpa [State.step] using h.answered i hi
    · exact h.waits
    · exact h.waiting
  | shutdown =>
    refine ⟨?_, ?_, ?_, ?_, ?_, ?_, ?_, ?_, ?_, ?_⟩
    · show s.created = _; rw [handlesIn_snoc, h.created]; simp
    · rw [hmem]; show (true = true) ↔ _; simp
    · intro i hi; cases hi
    · intro i hi
      right
      exact List.mem_append.2 ((h.out i hi).symm)
    · intro i; rw [Told_snoc]
      show i ∈ s.told ++ s.handles ↔ _
      rw [List.mem_append, h.told i]
      refine ⟨fun hh => hh.imp id fun hh => ⟨rfl, h.created ▸ h.handles i hh⟩, ?_⟩
      rintro (hh | ⟨-, hh⟩)
      · exact .inl hh
      · rw [← h.created] at hh
        exact (h.out i hh).symm.imp (h.told i).1 id
    · intro i; rw [Dropped_snoc]; simpa [State.step] using h.dropped i
    · intro i hi; rw [Seen_snoc]; simpa [State.step] using h.seen i hi
    · intro i hi; rw [Answered_snoc]; simpa [State.step] using h.answered i hi
    · intro i hi
      rcases List.mem_append.1 hi with hi | hi
      · exact (h.waits i hi).imp (List.mem_append_left _) id
      · by_cases hd : i ∈ s.dropped
        · right; show (decide (i ∈ s.answered) || decide (i ∈ s.dropped)) = true; simp [hd]
        · left; exact List.mem_append_right _ (List.mem_filter.2 ⟨hi, by simpa using hd⟩)
    · intro i hi
      rcases List.mem_append.1 hi with hi | hi
      · exact List.mem_append_left _ (h.waiting i hi)
      · exact List.mem_append_right _ (List.mem_filter.1 hi).1
  | pollContext =>
    refine ⟨?_, ?_, h.handles, h.out, ?_, ?_, ?_, ?_, ?_, ?_⟩
    · show s.created = _; rw [handlesIn_snoc, h.created]; simp
    · rw [hmem]; simpa [State.step] using h.started
    · intro i; rw [Told_snoc]; simpa [State.step] using h.told i
    · intro i; rw [Dropped_snoc]; simpa [State.step] using h.dropped i
    · intro i hi; rw [Seen_snoc]; simpa [State.step] using h.seen i hi
    · intro i hi; rw [Answered_snoc]; simpa [State.step] using h.answered i hi
    · intro i hi
      rcases h.waits i hi with hw | hd
      · cases hd : s.done i with
        | true => exact .inr hd
        | false => exact .inl (List.mem_filter.2 ⟨hw, by simp [hd]⟩)
      · exact .inr hd
    · intro i hi; exact h.waiting i (List.mem_filter.1 hi).1
  | poll j =>
    have hinv : Inv os s := h
    have base : ∀ t : State, t = (s.step (.poll j)) → t.created = s.created ∧ t.shuttingDown = s.shuttingDown ∧ t.handles = s.handles ∧ t.told = s.told ∧ t.dropped = s.dropped ∧ t.answered = s.answered ∧ t.waiting = s.waiting := by
      intro t ht; subst ht; unfold State.step; simp only; split <;> exact ⟨rfl, rfl, rfl, rfl, rfl, rfl, rfl⟩
    obtain ⟨e1, e2, e3, e4, e5, e6, e7⟩ := base _ rfl
    refine ⟨?_, ?_, ?_, ?_, ?_, ?_, ?_, ?_, ?_, ?_⟩
    · rw [e1, handlesIn_snoc, h.created]; simp
    · rw [e2, hmem]; simpa using h.started
    · rw [e3, e1]; exact h.handles
    · rw [e3, e1, e4]; exact h.out
    · intro i; rw [e4, Told_snoc]; simpa using h.told i
    · intro i; rw [e5, Dropped_snoc]; simpa using h.dropped i
    · intro i hi; rw [e5] at hi
      rw [Seen_snoc]
      unfold State.step; simp only
      split
      · next hc =>
        show i ∈ j :: s.seen ↔ _
        rw [List.mem_cons, h.seen i hi]
        constructor
        · rintro (rfl | hh)
          · exact .inr ⟨rfl, (h.told i).1 hc.1⟩
          · exact .inl hh
        · rintro (hh | ⟨e, -⟩)
          · exact .inr hh
          · cases e; exact .inl rfl
      · next hc =>
        rw [h.seen i hi]
        refine ⟨.inl, ?_⟩
        rintro (hh | ⟨e, ht⟩)
        · exact hh
        · cases e; exact absurd ⟨(h.told _).2 ht, hi⟩ hc
    · intro i hi; rw [e5] at hi; rw [e6, Answered_snoc]; simpa using h.answered i hi
    · intro i hi; rw [e4] at hi
      unfold State.done; rw [e5, e6, e7]; exact h.waits i hi
    · rw [e7, e4]; exact h.waiting
  | answer j =>
    have base : ∀ t : State, t = (s.step (.answer j)) → t.created = s.created ∧ t.shuttingDown = s.shuttingDown ∧ t.handles = s.handles ∧ t.told = s.told ∧ t.dropped = s.dropped ∧ t.seen = s.seen ∧ t.waiting = s.waiting ∧ (∀ i ∈ s.answered, i ∈ t.answered) := by
      intro t ht; subst ht; unfold State.step; simp only; split
      · exact ⟨rfl, rfl, rfl, rfl, rfl, rfl, rfl, fun i hi => List.mem_cons_of_mem _ hi⟩
      · exact ⟨rfl, rfl, rfl, rfl, rfl, rfl, rfl, fun i hi => hi⟩
    obtain ⟨e1, e2, e3, e4, e5, e6, e7, e8⟩ := base _ rfl
    refine ⟨?_, ?_, ?_, ?_, ?_, ?_, ?_, ?_, ?_, ?_⟩
    · rw [e1, handlesIn_snoc, h.created]; simp
    · rw [e2, hmem]; simpa using h.started
    · rw [e3, e1]; exact h.handles
    · rw [e3, e1, e4]; exact h.out
    · intro i; rw [e4, Told_snoc]; simpa using h.told i
    · intro i; rw [e5, Dropped_snoc]; simpa using h.dropped i
    · intro i hi; rw [e5] at hi; rw [e6, Seen_snoc]; simpa using h.seen i hi
    · intro i hi; rw [e5] at hi
      rw [Answered_snoc]
      unfold State.step; simp only
      split
      · next hc =>
        show i ∈ j :: s.answered ↔ _
        rw [List.mem_cons, h.answered i hi]
        constructor
        · rintro (rfl | hh)
          · exact .inr ⟨rfl, (h.seen i hi).1 hc.1⟩
          · exact .inl hh
        · rintro (hh | ⟨e, -⟩)
          · exact .inr hh
          · cases e; exact .inl rfl
      · next hc =>
        rw [h.answered i hi]
        refine ⟨.inl, ?_⟩
        rintro (hh | ⟨e, ht⟩)
        · exact hh
        · cases e; exact absurd ⟨(h.seen _ hi).2 ht, hi⟩ hc
    · intro i hi; rw [e4] at hi
      rw [e7]
      refine (h.waits i hi).imp id fun hd => ?_
      unfold State.done at hd ⊢
      rw [e5]
      simp only [Bool.or_eq_true, decide_eq_true_eq] at hd ⊢
      exact hd.imp (e8 i) id
    · rw [e7, e4]; exact h.waiting
  | drop j =>
    have base : ∀ t : State, t = (s.step (.drop j)) → t.created = s.created ∧ t.shuttingDown = s.shuttingDown ∧ t.handles = s.handles ∧ t.told = s.told ∧ t.answered = s.answered ∧ t.seen = s.seen ∧ t.waiting = s.waiting ∧ (∀ i ∈ s.dropped, i ∈ t.dropped) := by
      intro t ht; subst ht; unfold State.step; simp only; split
      · exact ⟨rfl, rfl, rfl, rfl, rfl, rfl, rfl, fun i hi => List.mem_cons_of_mem _ hi⟩
      · exact ⟨rfl, rfl, rfl, rfl, rfl, rfl, rfl, fun i hi => hi⟩
    obtain ⟨e1, e2, e3, e4, e5, e6, e7, e8⟩ := base _ rfl
    refine ⟨?_, ?_, ?_, ?_, ?_, ?_, ?_, ?_, ?_, ?_⟩
    · rw [e1, handlesIn_snoc, h.created]; simp
    · rw [e2, hmem]; simpa using h.started
    · rw [e3, e1]; exact h.handles
    · rw [e3, e1, e4]; exact h.out
    · intro i; rw [e4, Told_snoc]; simpa using h.told i
    · intro i; rw [Dropped_snoc]
      unfold State.step; simp only
      split
      · next hc =>
        show i ∈ j :: s.dropped ↔ _
        rw [List.mem_cons, h.dropped i]
        constructor
        · rintro (rfl | hh)
          · exact .inr ⟨rfl, h.created ▸ hc⟩
          · exact .inl hh
        · rintro (hh | ⟨e, -⟩)
          · exact .inr hh
          · cases e; exact .inl rfl
      · next hc =>
        rw [h.dropped i]
        refine ⟨.inl, ?_⟩
        rintro (hh | ⟨e, ht⟩)
        · exact hh
        · cases e; exact absurd (h.created ▸ ht) hc
    · intro i hi
      rw [e6, Seen_snoc]; simpa using h.seen i (fun hh => hi (e8 i hh))
    · intro i hi
      rw [e5, Answered_snoc]; simpa using h.answered i (fun hh => hi (e8 i hh))
    · intro i hi; rw [e4] at hi
      rw [e7]
      refine (h.waits i hi).imp id fun hd => ?_
      unfold State.done at hd ⊢
      rw [e5]
      simp only [Bool.or_eq_true, decide_eq_true_eq] at hd ⊢
      exact hd.imp id (e8 i)
    · rw [e7, e4]; exact h.waiting

theorem inv (os : List Op) : Inv os (run os) := by
  suffices H : ∀ (ps os : List Op) (s : State), Inv os s → Inv (os ++ ps) (ps.foldl State.step s) by
    have := H os [] {} ⟨rfl, by simp, by simp, by simp, ?_, ?_, ?_, ?_, by simp, by simp⟩
    · simpa [run] using this
    · intro i; simp [Told]
    · intro i; simp [Dropped]
    · intro i _; simp [Seen]
    · intro i _; simp [Answered]
  intro ps
  induction ps with
  | nil => intro os s h; simpa using h
  | cons p ps ih =>
    intro os s h
    have := ih (os ++ [p]) (s.step p) (h.step p)
    simpa using this

/-- **C193**: the wait for the subsystems is over exactly when the shutdown was asked for and every
subsystem that held a handle then has noticed and answered, or has let go of its handle. -/
theorem C193_ready (os : List Op) :
    (run os).ready = true ↔
      Op.shutdown ∈ os ∧ ∀ i, Told os i → Answered os i ∨ Dropped os i := by
  have h := inv os
  have hd : ∀ i, (run os).done i = true ↔ Answered os i ∨ Dropped os i := by
    intro i
    unfold State.done
    simp only [Bool.or_eq_true, decide_eq_true_eq]
    by_cases hi : i ∈ (run os).dropped
    · simp [hi, (h.dropped i).1 hi]
    · rw [h.answered i hi, h.dropped i]
  unfold State.ready
  rw [Bool.and_eq_true, List.all_eq_true, h.started]
  refine and_congr_right fun _ => ⟨fun hw i hi => ?_, fun hw i hi => ?_⟩
  · rw [← hd]
    exact (h.waits i ((h.told i).2 hi)).elim (hw i) id
  · rw [hd]; exact hw i ((h.told i).1 (h.waiting i hi))

/-- **C193**: a subsystem gets the notice, once, when the shutdown is asked for: it finds it there
until it has looked. -/
theorem C193_notice (os : List Op) (i : Nat) :
    (run os).notice i = true ↔ Told os i ∧ ¬ Dropped os i ∧ ¬ Seen os i := by
  have h := inv os
  unfold State.notice
  simp only [Bool.and_eq_true, decide_eq_true_eq, Bool.not_eq_true', decide_eq_false_iff_not]
  rw [h.told i, h.dropped i, and_assoc]
  refine and_congr_right fun _ => and_congr_right fun hn => ?_
  rw [h.seen i (fun hh => hn ((h.dropped i).1 hh))]

/-- **C193**, violated: a subsystem that answers before it has looked for the notice is not heard,
and the router waits for it for ever, unless it looks and answers again. -/
theorem C193_early_violated (os : List Op) (i : Nat) (hi : Told os i)
    (h1 : ∀ a b, os = a ++ .answer i :: b → Op.poll i ∉ a) (h2 : Op.drop i ∉ os) :
    (run os).ready = false := by
  rw [Bool.eq_false_iff]
  intro hr
  rcases ((C193_ready os).1 hr).2 i hi with ⟨a, b, e, a', b', e', -⟩ | ⟨a, b, e, -⟩
  · exact h1 a b e (by rw [e']; simp)
  · exact h2 (by rw [e]; simp)

/-- **C193**, violated: a handle given out after the shutdown was asked for is never told, unless
the shutdown is asked for again. -/
theorem C193_late_violated (os ps : List Op) (hp : Op.shutdown ∉ ps) :
    (run (os ++ .handle :: ps)).notice (handlesIn os) = false := by
  rw [Bool.eq_false_iff]
  intro hn
  obtain ⟨⟨a, b, e, hl⟩, -⟩ := (C193_notice _ _).1 hn
  rcases List.append_eq_append_iff.1 e with ⟨c, h1, h2⟩ | ⟨c, h1, h2⟩
  · cases c with
    | nil => simp at h2
    | cons x c =>
      obtain ⟨rfl, h3⟩ := List.cons.inj h2
      exact hp (by rw [h3]; simp)
  · rw [h1] at hl
    unfold handlesIn at hl
    rw [List.count_append] at hl
    omega

/-- **C193**: asking again tells nobody twice and loses nobody: with no handle given out in between,
the second request changes nothing. -/
theorem C193_again (os : List Op) (h : Op.shutdown ∈ os) (i : Nat)
    (hl : ∀ a b, os = a ++ .shutdown :: b → handlesIn b = 0 ∨ Op.shutdown ∈ b) :
    Told (os ++ [.shutdown]) i ↔ Told os i := by
  rw [Told_snoc]
  refine ⟨?_, .inl⟩
  rintro (hh | ⟨-, hh⟩)
  · exact hh
  · -- the last request so far
    have : ∃ a b, os = a ++ .shutdown :: b ∧ Op.shutdown ∉ b := by
      clear hl hh
      induction os with
      | nil => cases h
      | cons o os ih =>
        by_cases hm : Op.shutdown ∈ os
        · obtain ⟨a, b, e, hb⟩ := ih hm
          exact ⟨o :: a, b, by rw [e]; rfl, hb⟩
        · rcases List.mem_cons.1 h with rfl | h
          · exact ⟨[], os, rfl, hm⟩
          · exact absurd h hm
    obtain ⟨a, b, e, hb⟩ := this
    refine ⟨a, b, e, ?_⟩
    have h0 := (hl a b e).resolve_right hb
    rw [e] at hh
    unfold handlesIn at hh h0 ⊢
    rw [List.count_append, List.count_cons] at hh
    simp at hh; omega

/-- Two subsystems: one answers, the other goes away. -/
def toy : List Op := [.handle, .handle, .pollContext, .shutdown, .pollContext, .poll 0, .drop 1,
  .pollContext, .answer 0]

example : (run toy).ready = true ∧ (run (toy.take 8)).ready = false ∧
    (run (toy.take 4)).notice 1 = true ∧ (run (toy.take 3)).ready = false := by decide +kernel
example := C193_early_violated [.handle, .shutdown, .answer 0] 0
  ⟨[.handle], [.answer 0], rfl, by decide⟩ (by
    intro a b e h
    have : Op.poll 0 ∈ [Op.handle, .shutdown, .answer 0] := e ▸ List.mem_append_left _ h
    simp at this) (by decide)
example := C193_late_violated [.handle, .shutdown] [.poll 0, .answer 0] (by decide)

end Emissary.Shutdown
