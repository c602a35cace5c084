import Verif.Model.SamPending
/-!
# C293: a SAM session is established when the network is ready and has tunnels for it
-/
namespace Emissary.SamPending

open Emissary.SamServer (Tunnels Event ins rem)

variable {L : Type}

/-- The inbound tunnel `n` was reported, with the lease `l`, and not reported as expired since. -/
def HasIn (evs : List (Ev L)) (n : Nat) (l : L) : Prop := ∃ pre post, evs = pre ++ .event (.inBuilt n l) :: post ∧ ∀ e ∈ post, e ≠ .event (.inExpired n)
/-- The outbound tunnel `n` was reported and not reported as expired since. -/
def HasOut (evs : List (Ev L)) (n : Nat) : Prop := ∃ pre post, evs = pre ++ .event (.outBuilt n) :: post ∧ ∀ e ∈ post, e ≠ .event (.outExpired n)

theorem HasIn.more {evs : List (Ev L)} {n : Nat} {l : L} (h : HasIn evs n l) {e : Ev L} (he : e ≠ .event (.inExpired n)) : HasIn (evs ++ [e]) n l := by
  obtain ⟨a, b, rfl, hb⟩ := h
  refine ⟨a, b ++ [e], by simp, fun x hx => ?_⟩
  rcases List.mem_append.mp hx with h | h
  · exact hb x h
  · simp only [List.mem_singleton] at h; exact h ▸ he

theorem HasOut.more {evs : List (Ev L)} {n : Nat} (h : HasOut evs n) {e : Ev L} (he : e ≠ .event (.outExpired n)) : HasOut (evs ++ [e]) n := by
  obtain ⟨a, b, rfl, hb⟩ := h
  refine ⟨a, b ++ [e], by simp, fun x hx => ?_⟩
  rcases List.mem_append.mp hx with h | h
  · exact hb x h
  · simp only [List.mem_singleton] at h; exact h ▸ he

theorem HasIn.new (evs : List (Ev L)) (n : Nat) (l : L) : HasIn (evs ++ [.event (.inBuilt n l)]) n l := ⟨evs, [], rfl, by simp⟩
theorem HasOut.new (evs : List (Ev L)) (n : Nat) : HasOut (evs ++ [.event (.outBuilt n)]) n := ⟨evs, [], rfl, by simp⟩

/-- The tables of tunnels hold only what there is. -/
def Held (evs : List (Ev L)) (t : Tunnels L) : Prop := (∀ n l, AMap.get t.inbound n = some l → HasIn evs n l) ∧ ∀ n ∈ t.outbound, HasOut evs n

theorem Held.quiet {evs : List (Ev L)} {t : Tunnels L} (h : Held evs t) {e : Ev L} (he : ∀ n, e ≠ .event (.inExpired n)) (ho : ∀ n, e ≠ .event (.outExpired n)) :
    Held (evs ++ [e]) t := ⟨fun n l x => (h.1 n l x).more (he n), fun n x => (h.2 n x).more (ho n)⟩

theorem Held.step {evs : List (Ev L)} {t : Tunnels L} (h : Held evs t) (e : Event L) : Held (evs ++ [.event e]) (t.step e) := by
  cases e with
  | inBuilt a l =>
    refine ⟨fun n l' hg => ?_, fun n hn => (h.2 n hn).more (by simp)⟩
    by_cases hna : n = a
    · subst hna
      have : l' = l := by
        have hx : AMap.get (AMap.put t.inbound n l) n = some l' := hg
        rw [AMap.put, AMap.get_cons, if_pos rfl] at hx
        exact (Option.some.inj hx).symm
      subst this
      exact HasIn.new _ _ _
    · have hx : AMap.get (AMap.put t.inbound a l) n = some l' := hg
      rw [AMap.put, AMap.get_cons, if_neg (fun e => hna e.symm), AMap.get_del, if_neg hna] at hx
      exact (h.1 n l' hx).more (by simp)
  | outBuilt a =>
    refine ⟨fun n l hg => (h.1 n l hg).more (by simp), fun n hn => ?_⟩
    have hx : n ∈ ins a t.outbound := hn
    by_cases hna : n = a
    · subst hna; exact HasOut.new _ _
    · have : n ∈ t.outbound := by
        unfold ins at hx; split at hx
        · exact hx
        · rcases List.mem_cons.mp hx with h' | h'
          · exact absurd h' hna
          · exact h'
      exact (h.2 n this).more (by simp)
  | inExpired a =>
    refine ⟨fun n l hg => ?_, fun n hn => (h.2 n hn).more (by simp)⟩
    have hx : AMap.get (AMap.del t.inbound a) n = some l := hg
    rw [AMap.get_del] at hx
    split at hx
    · simp at hx
    · rename_i hna
      exact (h.1 n l hx).more (by simp; exact fun e => hna e.symm)
  | outExpired a =>
    refine ⟨fun n l hg => (h.1 n l hg).more (by simp), fun n hn => ?_⟩
    have hx : n ∈ rem a t.outbound := hn
    simp only [rem, List.mem_filter] at hx
    refine (h.2 n hx.1).more ?_
    simp only [ne_eq, Ev.event.injEq, Event.outExpired.injEq]
    intro e
    simp [e] at hx
  | other => exact h.quiet (by simp) (by simp)

/-- What must have happened, in this order, for `run` to be where it is. -/
def Sound (evs : List (Ev L)) (s : Stage L) : Prop :=
  match s with
  | .ask | .pause => True
  | .wait => [.asked true].Sublist evs
  | .pool => [.asked true, .told true].Sublist evs
  | .tunnels t => [.asked true, .told true, .built true].Sublist evs ∧ Held evs t
  | .ready _ => True
  | .failed => [.asked true, .told true, .built true, .closed].Sublist evs
  | .panicked => [.asked true, .told true, .built false].Sublist evs

theorem Stage.run_snoc (s : Stage L) (evs : List (Ev L)) (e : Ev L) : s.run (evs ++ [e]) = (s.run evs).step e := by
  simp [Stage.run, List.foldl_append]

theorem Sound.step {evs : List (Ev L)} {s : Stage L} (h : Sound evs s) (e : Ev L) : Sound (evs ++ [e]) (s.step e) := by
  have keep : ∀ l : List (Ev L), l.Sublist evs → l.Sublist (evs ++ [e]) := fun l hl => hl.trans (List.sublist_append_left _ _)
  have add : ∀ l : List (Ev L), l.Sublist evs → (l ++ [e]).Sublist (evs ++ [e]) := fun l hl => hl.append (List.Sublist.refl _)
  cases s with
  | ask =>
    cases e with
    | asked ok => cases ok <;> simp [Stage.step, Sound]
    | _ => trivial
  | pause => cases e <;> trivial
  | wait =>
    cases e with
    | told ok =>
      cases ok
      · trivial
      · exact add _ h
    | _ => exact keep _ h
  | pool =>
    cases e with
    | built ok =>
      cases ok
      · exact add _ h
      · exact ⟨add _ h, by simp [AMap.get], by simp⟩
    | _ => exact keep _ h
  | tunnels t =>
    cases e with
    | event e =>
      have := h.2.step e
      simp only [Stage.step]
      split
      · trivial
      · exact ⟨keep _ h.1, this⟩
    | closed => exact add _ h.1
    | _ => exact ⟨keep _ h.1, h.2.quiet (by simp) (by simp)⟩
  | ready t => cases e <;> trivial
  | failed => cases e <;> exact keep _ h
  | panicked => cases e <;> exact keep _ h

theorem sound_run : ∀ (evs pre : List (Ev L)) (s : Stage L), Sound pre s → Sound (pre ++ evs) (s.run evs)
  | [], pre, s, h => by simpa [Stage.run] using h
  | e :: evs, pre, s, h => by
    have := sound_run evs (pre ++ [e]) (s.step e) (h.step e)
    simpa [Stage.run] using this

theorem sound (evs : List (Ev L)) : Sound evs ((Stage.ask : Stage L).run evs) := by simpa using sound_run evs [] .ask trivial

/-- A session is established only at a moment at which, after the network database said that it is ready and after that the tunnel manager made a pool for the
session, there are both an inbound and an outbound tunnel, and all tunnels that the session starts with were built and have not expired. -/
theorem C293_ready (evs : List (Ev L)) (e : Ev L) (t : Tunnels L) (before : ∀ t, (Stage.ask : Stage L).run evs ≠ .ready t)
    (now : (Stage.ask : Stage L).run (evs ++ [e]) = .ready t) :
    [.asked true, .told true, .built true].Sublist evs ∧ (∃ n l, AMap.get t.inbound n = some l) ∧ (∃ n, n ∈ t.outbound) ∧
    (∀ n l, AMap.get t.inbound n = some l → HasIn (evs ++ [e]) n l) ∧ ∀ n ∈ t.outbound, HasOut (evs ++ [e]) n := by
  have hs := sound evs
  rw [Stage.run_snoc] at now
  revert hs before now
  generalize (Stage.ask : Stage L).run evs = s
  intro before now hs
  cases s with
  | tunnels u =>
    cases e with
    | event e =>
      simp only [Stage.step] at now
      split at now
      · rename_i hc
        simp only [Stage.ready.injEq] at now
        subst now
        simp only [Bool.and_eq_true, Bool.not_eq_true', List.isEmpty_eq_false_iff] at hc
        have hh := hs.2.step e
        refine ⟨hs.1, ?_, ?_, hh.1, hh.2⟩
        · obtain ⟨⟨n, l⟩, m, hm⟩ := List.exists_cons_of_ne_nil hc.1.2
          exact ⟨n, l, by rw [hm, AMap.get_cons, if_pos rfl]⟩
        · obtain ⟨n, m, hm⟩ := List.exists_cons_of_ne_nil hc.2
          exact ⟨n, by rw [hm]; exact List.mem_cons_self⟩
      · cases now
    | _ => cases now
  | ready u => exact absurd rfl (before u)
  | ask =>
    cases e with
    | asked ok => cases ok <;> cases now
    | _ => cases now
  | pause => cases e <;> cases now
  | wait =>
    cases e with
    | told ok => cases ok <;> cases now
    | _ => cases now
  | pool =>
    cases e with
    | built ok => cases ok <;> cases now
    | _ => cases now
  | failed => cases e <;> cases now
  | panicked => cases e <;> cases now

/-- A session is given up only if its pool is gone after it was made, and the task panics only if the tunnel manager drops the request for a pool. -/
theorem C293_given_up (evs : List (Ev L)) :
    ((Stage.ask : Stage L).run evs = .failed → [.asked true, .told true, .built true, .closed].Sublist evs) ∧
    ((Stage.ask : Stage L).run evs = .panicked → [.asked true, .told true, .built false].Sublist evs) :=
  ⟨fun h => by have := sound evs; rw [h] at this; exact this, fun h => by have := sound evs; rw [h] at this; exact this⟩

/-- The stage after the first `n` things of an endless history. -/
def at_ (ev : Nat → Ev L) : Nat → Stage L
  | 0 => .ask
  | n + 1 => (at_ ev n).step (ev n)

/-- The two ends of a tunnel pair are reported, in either order, and the first is still there when the second is. -/
def Pair (ev : Nat → Ev L) (n : Nat) : Prop := ∃ i j a b l, n ≤ i ∧ i < j ∧
  ((ev i = .event (.inBuilt a l) ∧ ev j = .event (.outBuilt b) ∧ ∀ k, i < k → k < j → ev k ≠ .event (.inExpired a)) ∨
   (ev i = .event (.outBuilt b) ∧ ev j = .event (.inBuilt a l) ∧ ∀ k, i < k → k < j → ev k ≠ .event (.outExpired b)))

/-- The rest of the router works: a session that keeps asking the network database is heard at some time, one that waits is told at some time and
never turned away, and the same for the pool; the pool is never closed; and from any moment on a pair of tunnels is built at some time. -/
structure Works (ev : Nat → Ev L) : Prop where
  heard : ∀ n, (∀ m, n ≤ m → at_ ev m = .ask ∨ at_ ev m = .pause) → ∃ m, n ≤ m ∧ at_ ev m = .ask ∧ ev m = .asked true
  told : ∀ n, ∃ m, n ≤ m ∧ ev m = .told true
  kept : ∀ n, ev n ≠ .told false
  pool : ∀ n, ∃ m, n ≤ m ∧ ev m = .built true
  made : ∀ n, ev n ≠ .built false
  opened : ∀ n, ev n ≠ .closed
  tunnels : ∀ n, Pair ev n

theorem stay {ev : Nat → Ev L} {P : Stage L → Prop} {n m : Nat} (hp : P (at_ ev n)) (hnm : n ≤ m)
    (hs : ∀ k, n ≤ k → k < m → P (at_ ev k) → P ((at_ ev k).step (ev k))) : P (at_ ev m) := by
  induction m with
  | zero => have : n = 0 := by omega
            subst this; exact hp
  | succ m ih =>
    by_cases hm : n = m + 1
    · subst hm; exact hp
    · exact hs m (by omega) (by omega) (ih (by omega) fun k h1 h2 => hs k h1 (by omega))

/-- The first moment with a property. -/
theorem first {P : Nat → Prop} {n m : Nat} (hnm : n ≤ m) (hm : P m) : ∃ k, n ≤ k ∧ k ≤ m ∧ P k ∧ ∀ j, n ≤ j → j < k → ¬ P j := by
  induction m using Nat.strongRecOn with
  | _ m ih =>
    by_cases h : ∃ j, n ≤ j ∧ j < m ∧ P j
    · obtain ⟨j, h1, h2, h3⟩ := h
      obtain ⟨k, a, b, c, d⟩ := ih j h2 h1 h3
      exact ⟨k, a, by omega, c, d⟩
    · exact ⟨m, hnm, Nat.le_refl _, hm, fun j h1 h2 h3 => h ⟨j, h1, h2, h3⟩⟩

theorem reach_wait {ev : Nat → Ev L} (w : Works ev) : ∃ n, at_ ev n = .wait := by
  apply Classical.byContradiction
  intro hn
  have h : ∀ m, at_ ev m = .ask ∨ at_ ev m = .pause := by
    intro m
    induction m with
    | zero => exact Or.inl rfl
    | succ m ih =>
      have hw : at_ ev (m + 1) ≠ .wait := fun h => hn ⟨_, h⟩
      simp only [at_] at hw ⊢
      rcases ih with e | e <;> rw [e] at hw ⊢
      · revert hw
        cases ev m with
        | asked ok => cases ok <;> simp [Stage.step]
        | _ => simp [Stage.step]
      · cases ev m <;> simp [Stage.step]
  obtain ⟨m, _, h1, h2⟩ := w.heard 0 (fun m _ => h m)
  exact hn ⟨m + 1, by simp [at_, h1, h2, Stage.step]⟩

theorem reach_pool {ev : Nat → Ev L} (w : Works ev) : ∃ n, at_ ev n = .pool := by
  obtain ⟨n, hn⟩ := reach_wait w
  obtain ⟨m, hm, he⟩ := w.told n
  obtain ⟨k, h1, h2, h3, h4⟩ := first (P := fun k => ev k = .told true) hm he
  have : at_ ev k = .wait := by
    refine stay (P := fun s => s = .wait) hn h1 fun j ha hb hc => ?_
    rw [hc]
    have h5 := h4 j ha hb
    have h6 := w.kept j
    revert h5 h6
    cases ev j with
    | told ok => cases ok <;> simp
    | _ => simp [Stage.step]
  exact ⟨k + 1, by simp [at_, this, h3, Stage.step]⟩

theorem reach_tunnels {ev : Nat → Ev L} (w : Works ev) : ∃ n, at_ ev n = .tunnels ⟨[], []⟩ := by
  obtain ⟨n, hn⟩ := reach_pool w
  obtain ⟨m, hm, he⟩ := w.pool n
  obtain ⟨k, h1, h2, h3, h4⟩ := first (P := fun k => ev k = .built true) hm he
  have : at_ ev k = .pool := by
    refine stay (P := fun s => s = .pool) hn h1 fun j ha hb hc => ?_
    rw [hc]
    have h5 := h4 j ha hb
    have h6 := w.made j
    revert h5 h6
    cases ev j with
    | built ok => cases ok <;> simp
    | _ => simp [Stage.step]
  exact ⟨k + 1, by simp [at_, this, h3, Stage.step]⟩

/-- Tunnels are being waited for, or the session is established. -/
def Late (s : Stage L) (P : Tunnels L → Prop) : Prop := (∃ t, s = .tunnels t ∧ P t) ∨ ∃ t, s = .ready t

theorem Late.step {s : Stage L} {P Q : Tunnels L → Prop} (h : Late s P) {e : Ev L} (he : e ≠ .closed) (hq : ∀ t, P t → (∀ x, e ≠ .event x) → Q t)
    (hx : ∀ t x, P t → e = .event x → Q (t.step x)) : Late (s.step e) Q := by
  rcases h with ⟨t, rfl, ht⟩ | ⟨t, rfl⟩
  · cases e with
    | event x =>
      simp only [Stage.step]
      split
      · exact Or.inr ⟨_, rfl⟩
      · exact Or.inl ⟨_, rfl, hx t x ht rfl⟩
    | closed => exact absurd rfl he
    | _ => exact Or.inl ⟨t, rfl, hq t ht (by simp)⟩
  · exact Or.inr ⟨t, by cases e <;> rfl⟩

theorem step_in (t : Tunnels L) (x : Event L) (a : Nat) (h : (AMap.get t.inbound a).isSome) (hx : x ≠ .inExpired a) : (AMap.get (t.step x).inbound a).isSome := by
  cases x with
  | inBuilt n l =>
    show (AMap.get (AMap.put t.inbound n l) a).isSome
    rw [AMap.put, AMap.get_cons]
    split
    · rfl
    · rename_i hn
      rw [AMap.get_del, if_neg (fun e => hn e.symm)]
      exact h
  | inExpired n =>
    show (AMap.get (AMap.del t.inbound n) a).isSome
    rw [AMap.get_del, if_neg (fun e => hx (by rw [e]))]
    exact h
  | _ => exact h

theorem step_out (t : Tunnels L) (x : Event L) (b : Nat) (h : b ∈ t.outbound) (hx : x ≠ .outExpired b) : b ∈ (t.step x).outbound := by
  cases x with
  | outBuilt n =>
    show b ∈ ins n t.outbound
    unfold ins; split
    · exact h
    · exact List.mem_cons_of_mem _ h
  | outExpired n =>
    show b ∈ rem n t.outbound
    simp only [rem, List.mem_filter]
    exact ⟨h, by simp; exact fun e => hx (by rw [e])⟩
  | _ => exact h

/-- A session for which the rest of the router works is established. -/
theorem C293_established {ev : Nat → Ev L} (w : Works ev) : ∃ n t, at_ ev n = .ready t := by
  obtain ⟨n, hn⟩ := reach_tunnels w
  obtain ⟨i, j, a, b, l, h1, h2, h⟩ := w.tunnels n
  have start : Late (at_ ev i) fun _ => True := by
    refine stay (P := fun s => Late s fun _ => True) (Or.inl ⟨_, hn, trivial⟩) h1 fun k _ _ hk => ?_
    exact hk.step (w.opened k) (fun _ _ _ => trivial) (fun _ _ _ _ => trivial)
  rcases h with ⟨hi, hj, hk⟩ | ⟨hi, hj, hk⟩
  · have held : Late (at_ ev j) fun t => (AMap.get t.inbound a).isSome := by
      refine stay (P := fun s => Late s fun t => (AMap.get t.inbound a).isSome) (n := i + 1) ?_ h2 fun k h3 h4 hl => ?_
      · exact start.step (w.opened i) (fun _ _ h => absurd hi (h _)) (fun t x _ hx => by
          rw [hi] at hx
          cases hx
          show (AMap.get (AMap.put t.inbound a l) a).isSome
          rw [AMap.put, AMap.get_cons, if_pos rfl]; rfl)
      · exact hl.step (w.opened k) (fun _ h _ => h) (fun t x h hx => step_in t x a h (fun e => hk k (by omega) h4 (by rw [hx, e])))
    rcases held with ⟨t, e1, e2⟩ | ⟨t, e1⟩
    · refine ⟨j + 1, t.step (.outBuilt b), ?_⟩
      simp only [at_]
      rw [e1, hj]
      simp only [Stage.step]
      rw [if_pos]
      simp only [Event.built, Bool.true_and, Bool.and_eq_true, Bool.not_eq_true', List.isEmpty_eq_false_iff]
      refine ⟨fun e => ?_, fun e => ?_⟩
      · have : t.inbound = [] := e
        rw [this] at e2; simp [AMap.get] at e2
      · have : b ∈ ins b t.outbound := by unfold ins; split; assumption; exact List.mem_cons_self
        have e' : ins b t.outbound = [] := e
        rw [e'] at this; cases this
    · exact ⟨j, t, e1⟩
  · have held : Late (at_ ev j) fun t => b ∈ t.outbound := by
      refine stay (P := fun s => Late s fun t => b ∈ t.outbound) (n := i + 1) ?_ h2 fun k h3 h4 hl => ?_
      · exact start.step (w.opened i) (fun _ _ h => absurd hi (h _)) (fun t x _ hx => by
          rw [hi] at hx
          cases hx
          show b ∈ ins b t.outbound
          unfold ins; split; assumption; exact List.mem_cons_self)
      · exact hl.step (w.opened k) (fun _ h _ => h) (fun t x h hx => step_out t x b h (fun e => hk k (by omega) h4 (by rw [hx, e])))
    rcases held with ⟨t, e1, e2⟩ | ⟨t, e1⟩
    · refine ⟨j + 1, t.step (.inBuilt a l), ?_⟩
      simp only [at_]
      rw [e1, hj]
      simp only [Stage.step]
      rw [if_pos]
      simp only [Event.built, Bool.true_and, Bool.and_eq_true, Bool.not_eq_true', List.isEmpty_eq_false_iff]
      refine ⟨fun e => ?_, fun e => ?_⟩
      · have e' : AMap.put t.inbound a l = [] := e
        simp [AMap.put] at e'
      · have e' : t.outbound = [] := e
        rw [e'] at e2; cases e2
    · exact ⟨j, t, e1⟩

/-- A session that was asked for after the network database ended, or while its channel stays full, waits for ever: it is never established and never given up,
whatever else happens, and so its client gets no answer. -/
theorem C293_unanswered_violated (evs : List (Ev L)) (h : ∀ e ∈ evs, e ≠ .asked true) :
    (Stage.ask : Stage L).run evs = .ask ∨ (Stage.ask : Stage L).run evs = .pause := by
  have go : ∀ (evs : List (Ev L)) (s : Stage L), (∀ e ∈ evs, e ≠ .asked true) → s = .ask ∨ s = .pause → s.run evs = .ask ∨ s.run evs = .pause := by
    intro evs
    induction evs with
    | nil => exact fun s _ h => h
    | cons e evs ih =>
      intro s he hs
      refine ih (s.step e) (fun x hx => he x (List.mem_cons_of_mem _ hx)) ?_
      have := he e List.mem_cons_self
      rcases hs with rfl | rfl
      · revert this
        cases e with
        | asked ok => cases ok <;> simp [Stage.step]
        | _ => simp [Stage.step]
      · cases e <;> simp [Stage.step]
  exact go evs .ask h (Or.inl rfl)

/-- A session that waits for its pool when the tunnel manager ends brings down the task it runs in. -/
theorem C293_manager_ends_violated {evs : List (Ev L)} (h : (Stage.ask : Stage L).run evs = .pool) : (Stage.ask : Stage L).run (evs ++ [.built false]) = .panicked := by
  rw [Stage.run_snoc, h]; rfl

/-! A history: the channel is full, then the database is asked and answers, the pool is made, an inbound tunnel comes and goes, then a pair. -/
def story : List (Ev Nat) := [.asked false, .slept, .asked true, .told true, .built true, .event (.inBuilt 1 10), .event (.inExpired 1), .event (.outBuilt 2)]

theorem story_stage : (Stage.ask : Stage Nat).run story = .tunnels ⟨[], [2]⟩ := rfl

example : (Stage.ask : Stage Nat).run (story ++ [.event (.inBuilt 3 30)]) = .ready ⟨[(3, 30)], [2]⟩ := rfl

example := C293_ready story (.event (.inBuilt 3 30)) ⟨[(3, 30)], [2]⟩ (by rw [story_stage]; simp) rfl

example : (Stage.ask : Stage Nat).run (story ++ [.closed]) = .failed := rfl
example : (Stage.ask : Stage Nat).run (story.take 4 ++ [.built false]) = .panicked := C293_manager_ends_violated rfl

/-- An endless history in which everything happens again and again. -/
def always (n : Nat) : Ev Nat := match n % 5 with
  | 0 => .asked true
  | 1 => .told true
  | 2 => .built true
  | 3 => .event (.inBuilt 1 10)
  | _ => .event (.outBuilt 2)

theorem always_works : Works always where
  heard := fun n h => by
    have h0 := h (5 * n) (by omega)
    have e : always (5 * n) = .asked true := by simp [always]
    rcases h0 with h0 | h0
    · exact ⟨_, by omega, h0, e⟩
    · have s1 := h (5 * n + 1) (by omega)
      exfalso
      have no : ∀ m, at_ always m ≠ .pause := by
        intro m
        induction m with
        | zero => simp [at_]
        | succ m ih =>
          simp only [at_]
          have : always m ≠ .asked false := by unfold always; split <;> simp
          revert ih this
          cases at_ always m <;> cases always m <;> simp [Stage.step] <;> repeat' split
          all_goals simp_all
      exact no _ h0
  told := fun n => ⟨5 * n + 1, by omega, by simp [always, Nat.add_mod]⟩
  kept := fun n => by unfold always; split <;> simp
  pool := fun n => ⟨5 * n + 2, by omega, by simp [always, Nat.add_mod]⟩
  made := fun n => by unfold always; split <;> simp
  opened := fun n => by unfold always; split <;> simp
  tunnels := fun n => ⟨5 * n + 3, 5 * n + 4, 1, 2, 10, by omega, by omega, Or.inl ⟨by simp [always, Nat.add_mod], by simp [always, Nat.add_mod], fun k h1 h2 => by omega⟩⟩

example := C293_established always_works
example := C293_unanswered_violated (L := Nat) [.asked false, .slept, .asked false, .slept, .told true, .closed] (by simp)

end Emissary.SamPending
