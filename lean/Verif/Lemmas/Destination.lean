import Verif.Model.Destination
/-! Lemmas about the model of a destination: what each operation leaves alone, and the invariant that ties queries to futures. -/
namespace Emissary.Dest
open Emissary.I2np (Duration)

theorem State.query_eq (s : State) (d : Nat) :
    s.query d = if s.status d = .notFound then { s with pending := s.pending ++ [d], futures := s.futures ++ [⟨d, .trying queryTries⟩] } else s := by
  unfold State.query
  cases s.status d <;> simp

theorem query_log (s : State) (d : Nat) : (s.query d).log = s.log := by rw [State.query_eq]; split <;> rfl
theorem query_now (s : State) (d : Nat) : (s.query d).now = s.now := by rw [State.query_eq]; split <;> rfl
theorem query_remotes (s : State) (d : Nat) : (s.query d).remotes = s.remotes := by rw [State.query_eq]; split <;> rfl
theorem query_paths (s : State) (d : Nat) : (s.query d).paths = s.paths := by rw [State.query_eq]; split <;> rfl
theorem query_panicked (s : State) (d : Nat) : (s.query d).panicked = s.panicked := by rw [State.query_eq]; split <;> rfl

/-- What `query_lease_set` and `poll_next` use of the state, apart from the messages. -/
def State.tied (s : State) : Prop := s.pending = s.futures.map (·.dest) ∧ s.pending.Nodup

theorem status_mem {s : State} {d : Nat} (h : s.status d = .notFound) : d ∉ s.pending := by
  unfold State.status at h
  split at h
  · cases h
  · assumption

theorem tied_query {s : State} (h : s.tied) (d : Nat) : (s.query d).tied := by
  rw [State.query_eq]
  split
  · rename_i e
    have hd := status_mem e
    refine ⟨?_, ?_⟩
    · show s.pending ++ [d] = (s.futures ++ [_]).map _
      rw [List.map_append, ← h.1]; rfl
    · show (s.pending ++ [d]).Nodup
      rw [List.nodup_append]
      refine ⟨h.2, by simp, ?_⟩
      intro a ha b hb
      simp only [List.mem_singleton] at hb
      subst hb
      exact fun e => hd (e ▸ ha)
  · exact h

theorem tied_of {s s' : State} (h : s.tied) (hp : s'.pending = s.pending) (hf : s'.futures = s.futures) : s'.tied := by
  unfold State.tied
  rw [hp, hf]
  exact h

theorem tied_hold {s : State} (h : s.tied) (d : Nat) (c : Ctx) (m : Bytes) : (s.hold d c m).tied := by
  unfold State.hold
  refine tied_query ?_ d
  exact tied_of h rfl rfl

/-- Delivery does not touch the queries. -/
theorem deliver_rest (chk : Bool) (s : State) (c : Ctx) (st : Style) (m : Bytes) (r : Nat) (ok : Bool) :
    let s' := s.deliver chk c st m r ok
    s'.pending = s.pending ∧ s'.futures = s.futures ∧ s'.remotes = s.remotes ∧ s'.paths = s.paths ∧ s'.now = s.now := by
  dsimp only
  unfold State.deliver State.give State.out
  cases st <;> dsimp only <;> split <;> (try split) <;> exact ⟨rfl, rfl, rfl, rfl, rfl⟩

theorem tied_sendInner {chk : Bool} {s : State} (h : s.tied) (st : Style) (m : Bytes) (r : Nat) (ok : Bool) : (s.sendInner chk st m r ok).1.tied := by
  unfold State.sendInner
  split
  · exact tied_of h rfl rfl
  · split
    · exact tied_hold h _ _ _
    · have := deliver_rest chk s (by assumption) st m r ok
      exact tied_of h this.1 this.2.1

theorem tied_flush {chk : Bool} {d : Nat} (l : List Bytes) : ∀ {s : State} (i : Nat) (rnd : Nat → Nat) (ok : Nat → Bool), s.tied → (State.flush chk d s i rnd ok l).tied := by
  induction l with
  | nil => intro s i rnd ok h; exact h
  | cons m l ih => intro s i rnd ok h; exact ih _ _ _ (tied_sendInner h _ _ _ _)

theorem tied_found {chk : Bool} {s : State} (h : s.tied) (d : Nat) (l : LSet) (rnd : Nat → Nat) (ok : Nat → Bool) : (s.found chk d l rnd ok).tied := by
  unfold State.found
  split
  · refine tied_flush _ _ _ _ ?_
    exact tied_of h rfl rfl
  · exact tied_of h rfl rfl

theorem map_dest_filter (l : List Fut) (d : Nat) :
    (l.map (·.dest)).filter (fun x => decide (x ≠ d)) = (l.filter fun f => decide (f.dest ≠ d)).map (·.dest) := by
  induction l with
  | nil => rfl
  | cons f l ih =>
    simp only [List.map_cons, List.filter_cons]
    by_cases e : f.dest = d <;> simp [e] at ih ⊢ <;> exact ih

theorem tied_over {s : State} (h : s.tied) (d : Nat) (r : Except QErr LSet) : (s.over d r).tied := by
  refine ⟨?_, ?_⟩
  · show s.pending.filter _ = (s.futures.filter _).map _
    rw [h.1, map_dest_filter]
  · exact h.2.filter _

theorem tied_settle {chk : Bool} {s : State} (h : s.tied) (d : Nat) (rnd : Nat → Nat) (ok : Nat → Bool) : (s.settle chk d rnd ok).tied := by
  unfold State.settle
  split
  · exact h
  · rename_i e _
    exact tied_of (tied_over h d (.error e)) rfl rfl
  · rename_i l _
    have h1 : ((s.over d (.ok l)).out (.remote d l.key)).tied := tied_of (tied_over h d (.ok l)) rfl rfl
    exact tied_of (tied_found (chk := chk) h1 d l rnd ok) rfl rfl

theorem attempt_dest (f : Fut) (b : Bool) : (f.attempt b).dest = f.dest := by
  unfold Fut.attempt
  split <;> (try split) <;> (try split) <;> rfl

theorem answer_dest (f : Fut) (r : Option (Except QErr LSet)) : (f.answer r).dest = f.dest := by
  unfold Fut.answer
  split <;> rfl

theorem tied_onQuery {s : State} (h : s.tied) (d : Nat) (g : Fut → Fut) (hg : ∀ f, (g f).dest = f.dest) : (s.onQuery d g).tied := by
  refine ⟨?_, h.2⟩
  show s.pending = (s.futures.map _).map _
  rw [h.1, List.map_map]
  refine List.map_congr_left fun f _ => ?_
  show f.dest = (if f.dest = d then g f else f).dest
  split
  · exact (hg f).symm
  · rfl

theorem clove_rest (chk : Bool) (s : State) (c : Clove) :
    (s.clove chk c).1.pending = s.pending ∧ (s.clove chk c).1.futures = s.futures ∧ (s.clove chk c).1.now = s.now ∧ (s.clove chk c).1.log = s.log := by
  cases c with
  | store l => unfold State.clove; dsimp only; split <;> exact ⟨rfl, rfl, rfl, rfl⟩
  | data b => unfold State.clove; dsimp only; split <;> exact ⟨rfl, rfl, rfl, rfl⟩
  | other => exact ⟨rfl, rfl, rfl, rfl⟩

theorem cloves_rest (chk : Bool) (l : List Clove) : ∀ s : State,
    (s.cloves chk l).1.pending = s.pending ∧ (s.cloves chk l).1.futures = s.futures ∧ (s.cloves chk l).1.now = s.now ∧ (s.cloves chk l).1.log = s.log := by
  induction l with
  | nil => intro s; exact ⟨rfl, rfl, rfl, rfl⟩
  | cons c l ih =>
    intro s
    obtain ⟨a, b, e, f⟩ := clove_rest chk s c
    obtain ⟨a', b', e', f'⟩ := ih (s.clove chk c).1
    exact ⟨a'.trans a, b'.trans b, e'.trans e, f'.trans f⟩

theorem receive_rest (chk : Bool) (s : State) (l : List Clove) :
    (s.receive chk l).pending = s.pending ∧ (s.receive chk l).futures = s.futures ∧ (s.receive chk l).now = s.now ∧ (s.receive chk l).remotes = (s.cloves chk l).1.remotes := by
  obtain ⟨a, b, e, _⟩ := cloves_rest chk l s
  unfold State.receive
  dsimp only
  split <;> exact ⟨a, b, e, rfl⟩

theorem tied_send {chk : Bool} {s : State} (h : s.tied) (st : Style) (enc : Option Bytes) (r : Nat) (ok : Bool) : (s.send chk st enc r ok).tied := by
  unfold State.send
  split
  · exact tied_of (tied_sendInner (chk := chk) h st _ r ok) rfl rfl
  · exact tied_of h rfl rfl

theorem tied_serve {s : State} (h : s.tied) : s.serve.tied := by
  unfold State.serve
  dsimp only
  split
  · refine tied_query ?_ _
    exact tied_of h rfl rfl
  · exact tied_of h rfl rfl

theorem tied_step {chk : Bool} {s : State} (h : s.tied) (o : Op) : (s.step chk o).tied := by
  cases o with
  | tick t => exact tied_of h rfl rfl
  | query d => exact tied_of (tied_query h d) rfl rfl
  | send st enc r ok => exact tied_send h st enc r ok
  | sessionSend d m r ok => exact tied_sendInner h _ _ _ _
  | sessionEnd d => exact tied_of h rfl rfl
  | receive l => exact tied_of h (receive_rest chk s l).1 (receive_rest chk s l).2.1
  | attempt d b => exact tied_onQuery h d _ fun f => attempt_dest f b
  | answer d r => exact tied_onQuery h d _ fun f => answer_dest f r
  | settle d rnd ok => exact tied_settle h d rnd ok
  | serve => exact tied_serve h
  | path o => unfold State.step; dsimp only; split <;> exact tied_of h rfl rfl
  | prune => exact tied_of h rfl rfl

/-- Generic: an invariant of the steps is an invariant of runs. -/
theorem run_inv {chk : Bool} {P : State → Prop} (hs : ∀ s o, P s → P (s.step chk o)) (ops : List Op) : ∀ s, P s → P (s.run chk ops) := by
  induction ops with
  | nil => intro s h; exact h
  | cons o l ih => intro s h; exact ih _ (hs s o h)

theorem tied_run {chk : Bool} {s : State} (h : s.tied) (ops : List Op) : (s.run chk ops).tied := run_inv (P := State.tied) (fun _ o h => tied_step h o) ops s h

theorem tied_init (now : Duration) (out : List Nat) : (State.init now out).tied := ⟨rfl, List.nodup_nil⟩

theorem run_append (chk : Bool) (s : State) (a b : List Op) : s.run chk (a ++ b) = (s.run chk a).run chk b := List.foldl_append

end Emissary.Dest
