import Verif.Model.I2cpExpires
/-!
# C295: a message of an I2CP client is not sent after its time
-/
namespace Emissary.I2cpSession

variable {D : Type} [DecidableEq D]

/-- The client gave the message in this history. -/
def Gave (h : List (Nat × TOp D)) (d : D) (data : Bytes) : Prop :=
  (∃ t m, (t, TOp.send m) ∈ h ∧ m.dest = d ∧ m.data = data) ∨ ∃ t c, (t, TOp.op (.send d data c)) ∈ h

/-- All that waits was given. -/
def WaitOk (h : List (Nat × TOp D)) (s : State D) : Prop := ∀ d ms, s.pending.get d = some ms → ∀ data ∈ ms, Gave h d data

theorem Gave.more {h : List (Nat × TOp D)} {d : D} {data : Bytes} (g : Gave h d data) (x : Nat × TOp D) : Gave (h ++ [x]) d data := by
  rcases g with ⟨t, m, a, b⟩ | ⟨t, c, a⟩
  · exact Or.inl ⟨t, m, List.mem_append_left _ a, b⟩
  · exact Or.inr ⟨t, c, List.mem_append_left _ a⟩

theorem gave_now (h : List (Nat × TOp D)) (t : Nat) (o : TOp D) (d : D) (data : Bytes) (c : Bool) (e : o.seen = .send d data c) : Gave (h ++ [(t, o)]) d data := by
  cases o with
  | send m => cases e; exact Or.inl ⟨t, m, by simp, rfl, rfl⟩
  | op o => cases e; exact Or.inr ⟨t, c, by simp⟩

theorem foldl_sent (d : D) (ms : List Bytes) : ∀ s : State D, (ms.foldl (fun s data => s.log (.sent d data)) s).pending = s.pending ∧
    (ms.foldl (fun s data => s.log (.sent d data)) s).out = s.out ++ ms.map (.sent d) := by
  induction ms with
  | nil => intro s; simp
  | cons m ms ih =>
    intro s
    rw [List.foldl_cons, (ih _).1, (ih _).2]
    simp [State.log]

theorem foldl_payload (ms : List Bytes) : ∀ s : State D, (ms.foldl State.payload s).pending = s.pending ∧
    ∃ l, (ms.foldl State.payload s).out = s.out ++ l ∧ ∀ d data, Out.sent d data ∉ l := by
  induction ms with
  | nil => intro s; exact ⟨rfl, [], by simp, by simp⟩
  | cons m ms ih =>
    intro s
    obtain ⟨a, l, b, c⟩ := ih (s.payload m)
    refine ⟨a, .payload s.sid s.nextId m :: l, ?_, ?_⟩
    · rw [List.foldl_cons, b]; simp [State.payload, State.log]
    · intro d data hm
      rcases List.mem_cons.mp hm with e | e
      · cases e
      · exact c d data e

/-- What one thing does to the waiting messages and which messages it sends. -/
theorem step_sent (s : State D) (o : Op D) :
    ∃ l, (s.step o).out = s.out ++ l ∧
      (∀ d data, Out.sent d data ∈ l → (∃ c, o = .send d data c) ∨ ∃ v ms, o = .found d v ∧ s.pending.get d = some ms ∧ data ∈ ms) ∧
      ∀ d ms, (s.step o).pending.get d = some ms → ∀ data ∈ ms, (∃ c, o = .send d data c) ∨ ∃ ms', s.pending.get d = some ms' ∧ data ∈ ms' := by
  have quiet : ∀ s' : State D, s'.out = s.out → s'.pending = s.pending →
      ∃ l, s'.out = s.out ++ l ∧
      (∀ d data, Out.sent d data ∈ l → (∃ c, o = .send d data c) ∨ ∃ v ms, o = .found d v ∧ s.pending.get d = some ms ∧ data ∈ ms) ∧
      ∀ d ms, s'.pending.get d = some ms → ∀ data ∈ ms, (∃ c, o = .send d data c) ∨ ∃ ms', s.pending.get d = some ms' ∧ data ∈ ms' :=
    fun s' h1 h2 => ⟨[], by simp [h1], by simp, fun d ms hg data hm => Or.inr ⟨ms, h2 ▸ hg, hm⟩⟩
  have logs : ∀ (s' : State D) (x : Out D), s'.out = s.out ++ [x] → s'.pending = s.pending → (∀ d data, x ≠ .sent d data) →
      ∃ l, s'.out = s.out ++ l ∧
      (∀ d data, Out.sent d data ∈ l → (∃ c, o = .send d data c) ∨ ∃ v ms, o = .found d v ∧ s.pending.get d = some ms ∧ data ∈ ms) ∧
      ∀ d ms, s'.pending.get d = some ms → ∀ data ∈ ms, (∃ c, o = .send d data c) ∨ ∃ ms', s.pending.get d = some ms' ∧ data ∈ ms' :=
    fun s' x h1 h2 h3 => ⟨[x], h1, fun d data hm => absurd (List.mem_singleton.mp hm).symm (h3 d data), fun d ms hg data hm => Or.inr ⟨ms, h2 ▸ hg, hm⟩⟩
  have ask : ∀ (d : D) (c : Bool), (s.ask d c).2.out = s.out ∧ (s.ask d c).2.pending = s.pending := by
    intro d c; unfold State.ask; split
    · exact ⟨rfl, rfl⟩
    · split <;> exact ⟨rfl, rfl⟩
  have answer : ∀ (s' : State D) (d : D) (r : I2cpMessage.Reply), s'.out = s.out → s'.pending = s.pending →
      (s'.answer d r).pending = s.pending ∧ ((s'.answer d r).out = s.out ∨ ∃ x, (s'.answer d r).out = s.out ++ [x] ∧ ∀ d data, x ≠ .sent d data) := by
    intro s' d r h1 h2
    unfold State.answer
    split
    · rename_i sid req _
      exact ⟨h2, Or.inr ⟨.reply sid req r, by simp [State.log, h1], by simp⟩⟩
    · exact ⟨h2, Or.inl h1⟩
  unfold State.step
  split
  · exact quiet s rfl rfl
  · cases o with
    | getDate now => exact logs _ _ rfl rfl (by simp)
    | getLimits => exact logs _ _ rfl rfl (by simp)
    | destroy sid => exact logs _ _ rfl rfl (by simp)
    | create => exact logs _ _ rfl rfl (by simp)
    | lookup sid req kind d cached =>
      simp only [State.lookup]
      split
      · exact logs _ _ rfl rfl (by simp)
      · cases kind with
        | name n => exact quiet _ rfl rfl
        | hash b =>
          dsimp only
          have := ask d cached.isSome
          revert this
          generalize s.ask d cached.isSome = r
          obtain ⟨k, s'⟩ := r
          intro this
          cases k with
          | found => exact logs _ (.reply sid req (.success (cached.getD []))) (by simp [State.log]; exact this.1) this.2 (by simp)
          | notFound => exact quiet _ this.1 this.2
          | pending => exact quiet _ this.1 this.2
    | leaseSet ls ks => exact logs _ _ rfl rfl (by simp)
    | send d data cached =>
      simp only [State.send]
      have := ask d cached
      revert this
      generalize s.ask d cached = r
      obtain ⟨k, s'⟩ := r
      intro this
      have put : ∀ (ms : List Bytes), (∀ x ∈ ms, x = data ∨ ∃ ms', s.pending.get d = some ms' ∧ x ∈ ms') →
          ∀ d' ms', (AMap.put s'.pending d ms).get d' = some ms' → ∀ x ∈ ms', (∃ c, Op.send d data cached = .send d' x c) ∨ ∃ m, s.pending.get d' = some m ∧ x ∈ m := by
        intro ms hms d' ms' hg x hx
        rw [AMap.put, AMap.get_cons] at hg
        split at hg
        · rename_i e
          have e' : d = d' := e
          subst e'
          cases hg
          rcases hms x hx with rfl | h
          · exact Or.inl ⟨_, rfl⟩
          · exact Or.inr h
        · rename_i e
          rw [AMap.get_del, if_neg (fun h => e h.symm)] at hg
          have h2 : s'.pending = s.pending := this.2
          exact Or.inr ⟨ms', h2 ▸ hg, hx⟩
      cases k with
      | found =>
        refine ⟨[.sent d data], by simp [State.log]; exact this.1, fun d' x hm => ?_, fun d' ms hg x hm => Or.inr ⟨ms, ?_, hm⟩⟩
        · simp only [List.mem_singleton, Out.sent.injEq] at hm
          obtain ⟨rfl, rfl⟩ := hm
          exact Or.inl ⟨_, rfl⟩
        · have h2 : s'.pending = s.pending := this.2
          exact h2 ▸ hg
      | notFound => exact ⟨[], by simp; exact this.1, by simp, put [data] (by simp)⟩
      | pending =>
        dsimp only
        split
        · rename_i ms hms
          refine ⟨[], by simp; exact this.1, by simp, put (ms ++ [data]) fun x hx => ?_⟩
          rcases List.mem_append.mp hx with h | h
          · have h2 : s'.pending = s.pending := this.2
            exact Or.inr ⟨ms, h2 ▸ hms, h⟩
          · exact Or.inl (List.mem_singleton.mp h)
        · exact quiet _ this.1 this.2
    | resolved k r =>
      simp only [State.resolved]
      split
      · exact quiet _ rfl rfl
      · cases r <;> exact logs _ _ rfl rfl (by simp)
    | query d c => exact quiet _ (ask d c).1 (ask d c).2
    | found d v =>
      simp only [State.found]
      split
      · split
        · rename_i ms hms
          have hms' : s.pending.get d = some ms := hms
          refine ⟨ms.map (.sent d), (foldl_sent d ms _).2, fun d' x hm => ?_, fun d' m hg x hx => ?_⟩
          · obtain ⟨y, hy, e⟩ := List.mem_map.mp hm
            cases e
            exact Or.inr ⟨v, ms, rfl, hms', hy⟩
          · rw [(foldl_sent d ms _).1] at hg
            have hg' : (AMap.del s.pending d).get d' = some m := hg
            rw [AMap.get_del] at hg'
            split at hg'
            · cases hg'
            · exact Or.inr ⟨m, hg', hx⟩
        · obtain ⟨a, b⟩ := answer (s.over d) d (.success v) rfl rfl
          rcases b with b | ⟨x, b, c⟩
          · exact quiet _ b a
          · exact logs _ x b a c
      · exact quiet _ rfl rfl
    | notFound d =>
      simp only [State.notFound]
      split
      · split
        · refine ⟨[], by simp [State.over], by simp, fun d' m hg x hx => ?_⟩
          have hg' : (AMap.del s.pending d).get d' = some m := hg
          rw [AMap.get_del] at hg'
          split at hg'
          · cases hg'
          · exact Or.inr ⟨m, hg', hx⟩
        · obtain ⟨a, b⟩ := answer (s.over d) d (.failure 1) rfl rfl
          rcases b with b | ⟨x, b, c⟩
          · exact quiet _ b a
          · exact logs _ x b a c
      · exact quiet _ rfl rfl
    | messages ms =>
      obtain ⟨a, l, b, c⟩ := foldl_payload ms s
      exact ⟨l, b, fun d data h => absurd h (c d data), fun d m hg x hx => Or.inr ⟨m, a ▸ hg, hx⟩⟩
    | requestLeaseSet leases =>
      dsimp only
      split
      · exact logs _ _ rfl rfl (by simp)
      · exact quiet _ rfl rfl
    | other => exact quiet _ rfl rfl
    | poolDown => exact quiet _ rfl rfl
    | closed => exact quiet _ rfl rfl

theorem waitOk_run (s : State D) (h0 : s.pending = []) (h : List (Nat × TOp D)) : WaitOk h (s.timed h) := by
  have go : ∀ (h pre : List (Nat × TOp D)) (s : State D), WaitOk pre s → WaitOk (pre ++ h) (s.timed h) := by
    intro h
    induction h with
    | nil => intro pre s w; simpa [State.timed] using w
    | cons x h ih =>
      intro pre s w
      have : WaitOk (pre ++ [x]) (s.step x.2.seen) := by
        intro d ms hg data hm
        obtain ⟨l, _, _, a⟩ := step_sent s x.2.seen
        rcases a d ms hg data hm with ⟨c, e⟩ | ⟨ms', g, hx⟩
        · exact gave_now pre x.1 x.2 d data c e
        · exact (w d ms' g data hx).more x
      have := ih (pre ++ [x]) _ this
      simpa [State.timed] using this
  have := go h [] s (by intro d ms hg; rw [h0] at hg; simp [AMap.get] at hg)
  simpa using this

/-- A message is sent only at the moment at which the client gives it, or when the lease set that it waited for is found. In the first case it is not late if
it was not late when it came. Missing: the messages that wait. -/
theorem C295_at_once_partial (s : State D) (new : s.pending = []) (h : List (Nat × TOp D)) (o : TOp D) (d : D) (data : Bytes) (sent : .sent d data ∈ (s.timed h).seen o) :
    (∃ c, o.seen = .send d data c) ∨ ∃ v, o.seen = .found d v ∧ Gave h d data := by
  obtain ⟨l, h1, h2, _⟩ := step_sent (s.timed h) o.seen
  have hl : .sent d data ∈ l := by
    unfold State.seen at sent
    rw [h1, List.drop_left] at sent
    exact sent
  rcases h2 d data hl with h | ⟨v, ms, h, g, hx⟩
  · exact Or.inl h
  · exact Or.inr ⟨v, h, waitOk_run s new _ d ms g data hx⟩

/-- A message that has expired when the client gives it is sent all the same. -/
theorem C295_expired_violated (s : State D) (live : s.live = true) (m : Given D) (idle : m.dest ∉ s.queries) (known : m.cached = true) (t : Nat) :
    s.times [(t, .send m)] = [(t, .sent m.dest m.data)] := by
  simp [State.times, State.seen, TOp.seen, State.step, live, State.send, State.ask, idle, known, State.log]

/-- A message that waits for a lease set is sent when it is found, at whatever time and so also after its expiration. -/
theorem C295_waits_violated (s : State D) (live : s.live = true) (m : Given D) (idle : m.dest ∉ s.queries) (unknown : m.cached = false) (t' t : Nat) (v : Bytes) :
    s.times [(t', .send m), (t, .op (.found m.dest v))] = [(t, .sent m.dest m.data)] := by
  have h1 : s.step (TOp.send m).seen = { s with queries := m.dest :: s.queries, pending := s.pending.put m.dest [m.data] } := by
    simp [TOp.seen, State.step, live, State.send, State.ask, idle, unknown]
  simp only [State.times, State.seen, h1, List.drop_length, List.map_nil, List.nil_append, List.append_nil]
  simp [TOp.seen, State.step, live, State.found, State.over, AMap.put, AMap.get_cons, State.log]

/-! A session that has just begun, and a message that was to be sent by the time 5. -/
def fresh : State Nat := { sid := 1, book := true, key := [], unpublished := true, out := [.published []] }

example : (fresh.timed [(0, .send ⟨7, [1, 2], 0, 5, false⟩), (3, .send ⟨7, [3], 0, 5, false⟩)]).seen (.op (.found 7 [9])) = [.sent 7 [1, 2], .sent 7 [3]] := by decide +kernel

example := C295_at_once_partial fresh rfl [(0, .send ⟨7, [1, 2], 0, 5, false⟩)] (.op (.found 7 [9])) 7 [1, 2] (by decide +kernel)
example := C295_expired_violated fresh rfl ⟨7, [1, 2], 0, 5, true⟩ (by simp [fresh]) rfl 600000
example := C295_waits_violated fresh rfl ⟨7, [1, 2], 0, 5, false⟩ (by simp [fresh]) rfl 0 600000 [9]

end Emissary.I2cpSession
