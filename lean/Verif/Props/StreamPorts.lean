import Verif.Model.StreamPorts
import Verif.Props.SamOptions
/-!
# C294: the packets of a stream carry its ports
-/
namespace Emissary.StreamPorts

/-- The stream that something is about. -/
def Op.stream : Op → Nat
  | .connect k _ _ | .again k | .accepted k | .called k _ _ | .early k _ | .listener k | .send k | .ended k => k

/-- Everything that is known of the stream `k` has the ports `p`, and if the stream waits for a listener they are 0. -/
def Mine (k : Nat) (p : Ports) (s : State) : Prop :=
  (∀ q, s.calling.get k = some q → q = p) ∧ (∀ q, s.active.get k = some q → q = p) ∧ (k ∈ s.waiting → p = ⟨0, 0⟩) ∧ ∀ q, (k, q) ∈ s.sent → q = p

theorem get_put (m : AMap Nat Ports) (a b : Nat) (p : Ports) : (AMap.put m a p).get b = if a = b then some p else m.get b := by
  rw [AMap.put, AMap.get_cons]
  split
  · rfl
  · rename_i h
    rw [AMap.get_del, if_neg (fun e => h e.symm)]

theorem mem_emit {s : State} {a k : Nat} {p q : Ports} : (k, q) ∈ (s.emit a p).sent ↔ (k, q) ∈ s.sent ∨ (k = a ∧ q = p) := by
  simp [State.emit]

theorem Mine.step {k : Nat} {p : Ports} {s : State} (h : Mine k p s) (o : Op)
    (ho : ∀ f t, o = .connect k f t → p = ⟨port f, port t⟩) (hc : ∀ q b, o = .called k q b → p = ⟨0, 0⟩ ∧ (b = true ∨ q = ⟨0, 0⟩)) (he : ∀ q, o = .early k q → k ∈ s.waiting → q = ⟨0, 0⟩) : Mine k p (s.step o) := by
  obtain ⟨h1, h2, h3, h4⟩ := h
  cases o with
  | connect a f t =>
    refine ⟨fun q hq => ?_, h2, h3, fun q hq => ?_⟩
    · have hq' : (AMap.put s.calling a ⟨port f, port t⟩).get k = some q := hq
      rw [get_put] at hq'
      split at hq'
      · rename_i e; subst e
        rw [ho f t rfl]; exact (Option.some.inj hq').symm
      · exact h1 q hq'
    · rcases mem_emit.mp hq with e | ⟨rfl, rfl⟩
      · exact h4 q e
      · exact (ho f t rfl).symm
  | again a =>
    simp only [State.step]
    split
    · rename_i r hr
      refine ⟨h1, h2, h3, fun q hq => ?_⟩
      rcases mem_emit.mp hq with e | ⟨rfl, rfl⟩
      · exact h4 q e
      · exact h1 q hr
    · exact ⟨h1, h2, h3, h4⟩
  | accepted a =>
    simp only [State.step]
    split
    · rename_i r hr
      refine ⟨fun q hq => ?_, fun q hq => ?_, h3, h4⟩
      · have hq' : (AMap.del s.calling a).get k = some q := hq
        rw [AMap.get_del] at hq'
        split at hq'
        · cases hq'
        · exact h1 q hq'
      · have hq' : (AMap.put s.active a r).get k = some q := hq
        rw [get_put] at hq'
        split at hq'
        · rename_i e; subst e
          exact Option.some.inj hq' ▸ h1 r hr
        · exact h2 q hq'
    · exact ⟨h1, h2, h3, h4⟩
  | called a r b =>
    simp only [State.step]
    split
    · refine ⟨h1, fun q hq => ?_, h3, fun q hq => ?_⟩
      · have hq' : (AMap.put s.active a ⟨0, 0⟩).get k = some q := hq
        rw [get_put] at hq'
        split at hq'
        · rename_i e; subst e
          rw [(hc r b rfl).1]; exact (Option.some.inj hq').symm
        · exact h2 q hq'
      · rcases mem_emit.mp hq with e | ⟨rfl, rfl⟩
        · exact h4 q e
        · exact (hc r b rfl).1.symm
    · rename_i hb
      refine ⟨h1, h2, fun hm => ?_, fun q hq => ?_⟩
      · rcases List.mem_cons.mp hm with rfl | e
        · exact (hc r b rfl).1
        · exact h3 e
      · rcases mem_emit.mp hq with e | ⟨rfl, rfl⟩
        · exact h4 q e
        · obtain ⟨e1, e2⟩ := hc r b rfl
          rcases e2 with e2 | rfl
          · exact absurd e2 hb
          · exact e1.symm
  | early a r =>
    simp only [State.step]
    split
    · rename_i hw
      refine ⟨h1, h2, h3, fun q hq => ?_⟩
      rcases mem_emit.mp hq with e | ⟨rfl, rfl⟩
      · exact h4 q e
      · rw [he r rfl hw, h3 hw]
    · exact ⟨h1, h2, h3, h4⟩
  | listener a =>
    simp only [State.step]
    split
    · rename_i hw
      refine ⟨h1, fun q hq => ?_, fun hm => h3 (List.mem_filter.mp hm).1, h4⟩
      have hq' : (AMap.put s.active a ⟨0, 0⟩).get k = some q := hq
      rw [get_put] at hq'
      split at hq'
      · rename_i e; subst e
        rw [h3 hw]; exact (Option.some.inj hq').symm
      · exact h2 q hq'
    · exact ⟨h1, h2, h3, h4⟩
  | send a =>
    simp only [State.step]
    split
    · rename_i r hr
      refine ⟨h1, h2, h3, fun q hq => ?_⟩
      rcases mem_emit.mp hq with e | ⟨rfl, rfl⟩
      · exact h4 q e
      · exact h2 q hr
    · exact ⟨h1, h2, h3, h4⟩
  | ended a =>
    refine ⟨fun q hq => ?_, fun q hq => ?_, fun hm => h3 (List.mem_filter.mp hm).1, h4⟩
    · have hq' : (AMap.del s.calling a).get k = some q := hq
      rw [AMap.get_del] at hq'
      split at hq'
      · cases hq'
      · exact h1 q hq'
    · have hq' : (AMap.del s.active a).get k = some q := hq
      rw [AMap.get_del] at hq'
      split at hq'
      · cases hq'
      · exact h2 q hq'

theorem mine_new (k : Nat) (p : Ports) : Mine k p {} := ⟨by simp [AMap.get], by simp [AMap.get], by simp, by simp⟩

/-- All packets of a stream that a client opens with the ports `f` and `t` come from the port `f` and go to the port `t`, whatever else happens to it or to other
streams. -/
theorem C294_outbound (ops : List Op) (k f t : Nat) (fs ts : Option SamParser.Str) (hf : port fs = f) (ht : port ts = t)
    (own : ∀ o ∈ ops, (∀ q b, o ≠ .called k q b) ∧ ∀ f' t', o = .connect k f' t' → f' = fs ∧ t' = ts)
    (q : Ports) (hq : (k, q) ∈ (({} : State).run ops).sent) : q.src = f ∧ q.dst = t := by
  have go : ∀ (ops : List Op) (s : State), Mine k ⟨f, t⟩ s → k ∉ s.waiting →
      (∀ o ∈ ops, (∀ q b, o ≠ .called k q b) ∧ ∀ f' t', o = .connect k f' t' → f' = fs ∧ t' = ts) → Mine k ⟨f, t⟩ (s.run ops) := by
    intro ops
    induction ops with
    | nil => exact fun s h _ _ => h
    | cons o ops ih =>
      intro s h hw ho
      have hh := ho o List.mem_cons_self
      refine ih (s.step o) (h.step o (fun f' t' e => ?_) (fun q b e => absurd e (hh.1 q b)) (fun q _ e => absurd e hw)) ?_ (fun x hx => ho x (List.mem_cons_of_mem _ hx))
      · obtain ⟨rfl, rfl⟩ := hh.2 f' t' e
        rw [hf, ht]
      · cases o with
        | called a r b =>
          simp only [State.step]
          split
          · exact hw
          · intro hm
            rcases List.mem_cons.mp hm with rfl | e
            · exact hh.1 r b rfl
            · exact hw e
        | listener a =>
          simp only [State.step]
          split
          · exact fun hm => hw (List.mem_filter.mp hm).1
          · exact hw
        | ended a => exact fun hm => hw (List.mem_filter.mp hm).1
        | connect a f t => exact hw
        | again a => simp only [State.step]; split <;> exact hw
        | accepted a => simp only [State.step]; split <;> exact hw
        | early a r => simp only [State.step]; split <;> exact hw
        | send a => simp only [State.step]; split <;> exact hw
  have := (go ops {} (mine_new _ _) (by simp) own).2.2.2 q hq
  rw [this]; exact ⟨rfl, rfl⟩

theorem zero_run {k : Nat} (ops : List Op) : ∀ (s : State), Mine k ⟨0, 0⟩ s →
    (∀ o ∈ ops, (∀ f t, o ≠ .connect k f t) ∧ (∀ q b, o = .called k q b → b = true ∨ q = ⟨0, 0⟩) ∧ ∀ q, o = .early k q → q = ⟨0, 0⟩) → Mine k ⟨0, 0⟩ (s.run ops) := by
  induction ops with
  | nil => exact fun s h _ => h
  | cons o ops ih =>
    intro s h ho
    have hh := ho o List.mem_cons_self
    exact ih (s.step o) (h.step o (fun f t e => absurd e (hh.1 f t)) (fun q b e => ⟨rfl, hh.2.1 q b e⟩) (fun q e _ => hh.2.2 q e))
      (fun x hx => ho x (List.mem_cons_of_mem _ hx))

/-- All packets of a stream that is opened by a remote, from the port 0 to the port 0, come from the port 0 and go to the port 0. Missing: other ports. -/
theorem C294_inbound_partial (ops : List Op) (k : Nat)
    (own : ∀ o ∈ ops, (∀ f t, o ≠ .connect k f t) ∧ (∀ q b, o = .called k q b → q = ⟨0, 0⟩) ∧ ∀ q, o = .early k q → q = ⟨0, 0⟩)
    (q : Ports) (hq : (k, q) ∈ (({} : State).run ops).sent) : q.src = 0 ∧ q.dst = 0 := by
  have := (zero_run (k := k) ops {} (mine_new _ _) (fun o ho => ⟨(own o ho).1, fun q b e => Or.inr ((own o ho).2.1 q b e), (own o ho).2.2⟩)).2.2.2 q hq
  rw [this]; exact ⟨rfl, rfl⟩

/-- A stream that a remote opens to a port while there is a listener is answered, and a packet is sent; but no packet that is ever sent on it comes from the port
that was called or goes to the port that called, unless these are 0. -/
theorem C294_inbound_violated (before after : List Op) (k : Nat) (p : Ports) (hp : p.src ≠ 0 ∨ p.dst ≠ 0)
    (new : ∀ o ∈ before, o.stream ≠ k) (own : ∀ o ∈ after, (∀ f t, o ≠ .connect k f t) ∧ (∀ q b, o = .called k q b → b = true) ∧ ∀ q, o ≠ .early k q) :
    (∃ q, (k, q) ∈ (({} : State).run (before ++ [.called k p true])).sent) ∧
    ∀ q, (k, q) ∈ (({} : State).run (before ++ .called k p true :: after)).sent → q ≠ ⟨p.dst, p.src⟩ := by
  constructor
  · refine ⟨⟨0, 0⟩, ?_⟩
    simp [State.run, List.foldl_append, State.step, State.emit]
  · intro q hq
    have := (zero_run (k := k) (before ++ .called k p true :: after) {} (mine_new _ _) (fun o ho => by
      rcases List.mem_append.mp ho with h | h
      · have hn := new o h
        exact ⟨fun f t e => hn (by rw [e]; rfl), fun q b e => absurd (by rw [e]; rfl) hn, fun q e => absurd (by rw [e]; rfl) hn⟩
      · rcases List.mem_cons.mp h with rfl | h
        · exact ⟨by simp, fun q b e => by cases e; exact Or.inl rfl, by simp⟩
        · exact ⟨(own o h).1, fun q b e => Or.inl ((own o h).2.1 q b e), fun q e => absurd e ((own o h).2.2 q)⟩)).2.2.2 q hq
    subst this
    intro e
    simp only [Ports.mk.injEq] at e
    omega

/-- A stream that waited for a listener changes its ports: it is first answered from the port that was called and then sends from the port 0. -/
theorem C294_waiting_violated (k : Nat) (p : Ports) :
    (({} : State).run [.called k p false, .listener k, .send k]).sent = [(k, ⟨p.dst, p.src⟩), (k, ⟨0, 0⟩)] := by
  simp [State.run, State.step, State.emit, AMap.put, AMap.del, AMap.get]

/-- Nothing runs for the stream `k`, and its packets go back to where `p` came from. -/
def Waits (k : Nat) (p : Ports) (s : State) : Prop := s.calling.get k = none ∧ s.active.get k = none ∧ ∀ q, (k, q) ∈ s.sent → q = ⟨p.dst, p.src⟩

theorem Waits.step {k : Nat} {p : Ports} {s : State} (h : Waits k p s) (o : Op)
    (ho : o.stream = k → o = .called k p false ∨ o = .early k p ∨ o = .send k ∨ o = .again k ∨ o = .accepted k ∨ o = .ended k) : Waits k p (s.step o) := by
  obtain ⟨h1, h2, h3⟩ := h
  by_cases hk : o.stream = k
  · rcases ho hk with rfl | rfl | rfl | rfl | rfl | rfl
    · refine ⟨h1, h2, fun q hq => ?_⟩
      rcases mem_emit.mp hq with e | ⟨_, rfl⟩
      · exact h3 q e
      · rfl
    · simp only [State.step]
      split
      · refine ⟨h1, h2, fun q hq => ?_⟩
        rcases mem_emit.mp hq with e | ⟨_, rfl⟩
        · exact h3 q e
        · rfl
      · exact ⟨h1, h2, h3⟩
    · simp only [State.step, h2]; exact ⟨h1, h2, h3⟩
    · simp only [State.step, h1]; exact ⟨h1, h2, h3⟩
    · simp only [State.step, h1]; exact ⟨h1, h2, h3⟩
    · refine ⟨?_, ?_, h3⟩
      · show (AMap.del s.calling k).get k = none
        rw [AMap.get_del, if_pos rfl]
      · show (AMap.del s.active k).get k = none
        rw [AMap.get_del, if_pos rfl]
  · have em : ∀ (t : State) (a : Nat) (r : Ports), a ≠ k → t.sent = s.sent → ∀ q, (k, q) ∈ (t.emit a r).sent → q = ⟨p.dst, p.src⟩ := by
      intro t a r ha ht q hq
      rcases mem_emit.mp hq with e | ⟨e, _⟩
      · exact h3 q (ht ▸ e)
      · exact absurd e.symm ha
    have put : ∀ (m : AMap Nat Ports) (a : Nat) (r : Ports), a ≠ k → m.get k = none → (AMap.put m a r).get k = none := by
      intro m a r ha hm
      rw [get_put, if_neg ha]; exact hm
    have del : ∀ (m : AMap Nat Ports) (a : Nat), m.get k = none → (AMap.del m a).get k = none := by
      intro m a hm
      rw [AMap.get_del]; split
      · rfl
      · exact hm
    cases o with
    | connect a f t => exact ⟨put _ _ _ hk h1, h2, em _ _ _ hk rfl⟩
    | again a =>
      simp only [State.step]
      split
      · exact ⟨h1, h2, em _ _ _ hk rfl⟩
      · exact ⟨h1, h2, h3⟩
    | accepted a =>
      simp only [State.step]
      split
      · exact ⟨del _ _ h1, put _ _ _ hk h2, h3⟩
      · exact ⟨h1, h2, h3⟩
    | called a r b =>
      simp only [State.step]
      split
      · exact ⟨h1, put _ _ _ hk h2, em _ _ _ hk rfl⟩
      · exact ⟨h1, h2, em _ _ _ hk rfl⟩
    | early a r =>
      simp only [State.step]
      split
      · exact ⟨h1, h2, em _ _ _ hk rfl⟩
      · exact ⟨h1, h2, h3⟩
    | listener a =>
      simp only [State.step]
      split
      · exact ⟨h1, put _ _ _ hk h2, h3⟩
      · exact ⟨h1, h2, h3⟩
    | send a =>
      simp only [State.step]
      split
      · exact ⟨h1, h2, em _ _ _ hk rfl⟩
      · exact ⟨h1, h2, h3⟩
    | ended a => exact ⟨del _ _ h1, del _ _ h2, h3⟩

/-- As long as a stream that a remote opens waits for a listener, all packets that are sent on it come from the port that was called and go to the port that called.
Missing: what is sent when there is a listener. -/
theorem C294_waiting_partial (ops : List Op) (k : Nat) (p : Ports)
    (own : ∀ o ∈ ops, o.stream = k → o = .called k p false ∨ o = .early k p ∨ o = .send k ∨ o = .again k ∨ o = .accepted k ∨ o = .ended k)
    (q : Ports) (hq : (k, q) ∈ (({} : State).run ops).sent) : q.src = p.dst ∧ q.dst = p.src := by
  have go : ∀ (ops : List Op) (s : State), Waits k p s →
      (∀ o ∈ ops, o.stream = k → o = .called k p false ∨ o = .early k p ∨ o = .send k ∨ o = .again k ∨ o = .accepted k ∨ o = .ended k) → Waits k p (s.run ops) := by
    intro ops
    induction ops with
    | nil => exact fun s h _ => h
    | cons o ops ih => exact fun s h ho => ih (s.step o) (h.step o (ho o List.mem_cons_self)) (fun x hx => ho x (List.mem_cons_of_mem _ hx))
  have := (go ops {} ⟨by simp [AMap.get], by simp [AMap.get], by simp⟩ own).2.2 q hq
  rw [this]; exact ⟨rfl, rfl⟩

example := C294_waiting_partial [.called 2 ⟨9, 25⟩ false, .connect 1 none none, .early 2 ⟨9, 25⟩] 2 ⟨9, 25⟩ (by simp [Op.stream]) ⟨25, 9⟩ (by decide +kernel)

/-- The ports of a stream that the client opens are the numbers that it writes in decimal in its command, and 0 if it writes none. -/
theorem C294_written : port none = 0 ∧ ∀ n, n < 65536 → port (some (Nat.toDigits 10 n)) = n := by
  refine ⟨rfl, fun n hn => ?_⟩
  have hnum : SamParser.number 0 (Nat.toDigits 10 n) = some n := SamParser.number_digits n hn
  have hport : SamParser.port (Nat.toDigits 10 n) = some n := by
    cases hds : Nat.toDigits 10 n with
    | nil => exact absurd hds Nat.toDigits_ne_nil
    | cons c r =>
      rw [hds] at hnum
      have hc : c ≠ '+' := by
        rintro rfl
        unfold SamParser.number at hnum
        rw [show SamParser.digit '+' = none by decide] at hnum
        cases hnum
      unfold SamParser.port
      split
      · rename_i h; cases h
      · rename_i h; cases h; exact absurd rfl hc
      · rename_i h; cases h; exact absurd rfl hc
      · exact hnum
  simp [port, hport]

theorem number_small (s : List Char) : ∀ n k, SamParser.number n s = some k → n < 65536 → k < 65536 := by
  induction s with
  | nil => intro n k h hn; cases h; exact hn
  | cons c s ih =>
    intro n k h hn
    unfold SamParser.number at h
    split at h
    · cases h
    · split at h
      · rename_i h'; exact ih _ _ h h'
      · cases h

theorem number_all (s : List Char) : ∀ n k, SamParser.number n s = some k → ∀ c ∈ s, SamParser.digit c ≠ none := by
  induction s with
  | nil => intro n k _ c hc; cases hc
  | cons d s ih =>
    intro n k h c hc
    unfold SamParser.number at h
    split at h
    · cases h
    · rename_i x hx
      split at h
      · rcases List.mem_cons.mp hc with rfl | hc
        · rw [hx]; simp
        · exact ih _ _ h c hc
      · cases h

/-- The port is one of 65536, and 0 if what the client writes has anything but digits behind its first character. -/
theorem C294_not_a_number (v : List Char) : port (some v) < 65536 ∧ ∀ c ∈ v.tail, ¬('0' ≤ c ∧ c ≤ '9') → port (some v) = 0 := by
  have digit : ∀ c : Char, ¬('0' ≤ c ∧ c ≤ '9') → SamParser.digit c = none := fun c hc => if_neg hc
  have key : ∀ k, SamParser.port v = some k → k < 65536 ∧ ∀ c ∈ v.tail, SamParser.digit c ≠ none := by
    intro k h
    unfold SamParser.port at h
    split at h
    · cases h
    · exact ⟨number_small _ _ _ h (by decide), fun c hc => number_all _ _ _ h c hc⟩
    · cases h
    · exact ⟨number_small _ _ _ h (by decide), fun c hc => number_all _ _ _ h c (List.mem_of_mem_tail hc)⟩
  unfold port
  dsimp only
  cases hv : SamParser.port v with
  | none => exact ⟨by decide, fun _ _ _ => rfl⟩
  | some k => exact ⟨(key k hv).1, fun c hc h => absurd (digit c h) ((key k hv).2 c hc)⟩

example : port (some "65535".toList) = 65535 ∧ port (some "65536".toList) = 0 ∧ port (some "http".toList) = 0 := by decide +kernel

/-! The client's stream 1 is called from port 7 to port 80, in between a remote opens stream 2. -/
def talk : List Op := [.connect 1 (some "7".toList) (some "80".toList), .called 2 ⟨9, 25⟩ true, .again 1, .accepted 1, .send 1, .send 2, .send 1, .ended 2, .send 1]

example : (({} : State).run talk).sent = [(1, ⟨7, 80⟩), (2, ⟨0, 0⟩), (1, ⟨7, 80⟩), (1, ⟨7, 80⟩), (2, ⟨0, 0⟩), (1, ⟨7, 80⟩), (1, ⟨7, 80⟩)] := by decide +kernel

example := C294_outbound talk 1 7 80 (some "7".toList) (some "80".toList) (by decide) (by decide) (by simp [talk]) ⟨7, 80⟩ (by decide +kernel)

example := C294_inbound_partial [.called 3 ⟨0, 0⟩ false, .early 3 ⟨0, 0⟩, .listener 3, .send 3] 3 (by simp) ⟨0, 0⟩ (by decide +kernel)

example := C294_inbound_violated [.connect 1 none none] [.send 2, .send 1, .ended 2] 2 ⟨9, 25⟩ (by simp) (by simp [Op.stream]) (by simp)

end Emissary.StreamPorts
