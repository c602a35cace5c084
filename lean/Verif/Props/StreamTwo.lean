import Verif.Props.StreamTask
/-!
# Two streams and the network between them (C292)
-/
namespace Emissary.StreamTask
open Emissary Emissary.Stream

/-! ## Specification -/

/-- One of two streams: its task, all it has sent, and the acknowledgements it could give at any time so far. -/
structure Side where
  t : Task := Task.new 0 none
  sent : List Sent := []
  acks : List (Nat × List Nat) := [(Task.new 0 none).inb.ackFields]

def Side.step (s : Side) (op : Op) : Side :=
  { t := (s.t.step op).1, sent := s.sent ++ (s.t.step op).2, acks := s.acks ++ [(s.t.step op).1.inb.ackFields] }

/-- `p` is one of the packets that `s` has sent. Data carries the acknowledgement of some time before (it is made once, and sent again as it is), `CLOSE` the highest number and
nothing of what is missing, the answer to a `SYN` none. -/
def Side.From (s : Side) (p : Pkt.Packet) : Prop :=
  ∃ x ∈ s.sent, match x with
    | .numbered k c => p.seq = k ∧ p.payload = c ∧ (∃ f ∈ s.acks, p.ackThrough = f.1 ∧ (p.nacks = f.2 ∨ (c = [] ∧ p.nacks = []))) ∧ p.flags.close = c.isEmpty ∧ p.flags.reset = false
    | .syn => p.payload = [] ∧ p.ackThrough = 0 ∧ p.flags.close = false ∧ p.flags.reset = false
    | .plain a ns _ close => p.payload = [] ∧ p.ackThrough = a ∧ p.nacks = ns ∧ p.flags.close = close ∧ p.flags.reset = false

/-- What two streams can come to: anything happens at either end, at any time, except that packets that come are among those that the other end has sent; they come in any order,
any number of times, or never. -/
inductive Reach : Side → Side → Prop
  | start : Reach {} {}
  | left {a b : Side} (h : Reach a b) (op : Op) (hop : ∀ p room, op = .packet (some p) room → b.From p) : Reach (a.step op) b
  | right {a b : Side} (h : Reach a b) (op : Op) (hop : ∀ p room, op = .packet (some p) room → a.From p) : Reach a (b.step op)

theorem Reach.swap {a b : Side} (h : Reach a b) : Reach b a := by
  induction h with
  | start => exact .start
  | left _ op hop ih => exact .right ih op hop
  | right _ op hop ih => exact .left ih op hop

/-! ## What is sent -/

theorem shutdown_sent {ops : List Op} {t : Task} (h : Keep ops t) (room : Bool) {k : Nat} {c : Bytes} (hs : .numbered k c ∈ (t.shutdown room).2) :
    1 ≤ k ∧ (t.shutdown room).1.made[k - 1]? = some c := by
  unfold Task.shutdown at hs ⊢
  split at hs
  · cases hs
  · rename_i hc
    rw [if_neg hc]
    simp only [List.mem_map, Sent.numbered.injEq, Prod.exists] at hs
    obtain ⟨k', c', h1, rfl, rfl⟩ := hs
    obtain ⟨-, -, -, -, -, -, -, -, -, g10, -⟩ := sendNew_spec { t.tx with next := t.tx.next + 1 } [(t.tx.next, [])] [room]
    have := g10 _ h1
    simp only [List.mem_singleton, Prod.mk.injEq] at this
    obtain ⟨rfl, rfl⟩ := this
    have hn := h.next
    refine ⟨by omega, ?_⟩
    simp only
    rw [List.getElem?_append_right (by omega)]
    have : t.tx.next - 1 - t.made.length = 0 := by omega
    rw [this]; rfl

theorem onPacket_sent (t : Task) (p : Pkt.Packet) (room : Bool) (k : Nat) (c : Bytes) : .numbered k c ∉ (t.onPacket p room).2 := by
  unfold Task.onPacket
  split
  · simp
  · simp only
    repeat' split
    all_goals simp

theorem step_sent {ops : List Op} {t : Task} (h : Keep ops t) (op : Op) {k : Nat} {c : Bytes} (hs : .numbered k c ∈ (t.step op).2) :
    1 ≤ k ∧ (t.step op).1.made[k - 1]? = some c := by
  unfold Task.step at hs ⊢
  split at hs
  · cases hs
  rename_i hend
  rw [if_neg hend]
  cases op with
  | packet p room =>
    simp only at hs
    split at hs
    · cases hs
    cases p with
    | none => cases hs
    | some p =>
      simp only at hs
      split at hs <;> exact absurd hs (onPacket_sent t p room k c)
  | shutDown room =>
    simp only at hs ⊢
    split at hs
    · cases hs
    rename_i h1
    split at hs
    · cases hs
    rename_i h2
    rw [if_neg h1, if_neg h2]
    exact shutdown_sent (h.congr (u := { t with writeClosed := true, readClosed := true }) rfl rfl rfl (fun _ => rfl) rfl id) room hs
  | dropped =>
    simp only at hs
    split at hs <;> cases hs
  | pathGone => cases hs
  | pollEmpty =>
    simp only at hs
    split at hs <;> cases hs
  | written n room =>
    cases hw : t.writing with
    | none => simp [hw] at hs
    | some x =>
      obtain ⟨off, m⟩ := x
      simp only [hw] at hs ⊢
      split at hs
      · rename_i h1
        rw [if_pos h1]
        exact shutdown_sent (h.congr (u := { t with writing := none, writeClosed := true, readClosed := true }) rfl rfl rfl (fun _ => rfl) rfl id) room hs
      · cases hs
  | read data oks =>
    simp only at hs ⊢
    split at hs
    · cases hs
    rename_i h1
    rw [if_neg h1]
    simp only [List.mem_map, Sent.numbered.injEq, Prod.exists] at hs
    obtain ⟨k', c', h2, rfl, rfl⟩ := hs
    obtain ⟨-, -, -, -, -, -, -, -, -, g10, -⟩ := sendNew_spec { t.tx with next := t.tx.next + (chunksOf mtu data.length data).length } (number t.tx.next (chunksOf mtu data.length data)) oks
    have := mem_number.mp (g10 _ h2)
    have hn := h.next
    simp only at this
    refine ⟨by omega, ?_⟩
    simp only
    rw [List.getElem?_append_right (by omega), ← this.2]
    congr 1
    omega
  | eof room =>
    simp only at hs ⊢
    split at hs
    · cases hs
    rename_i h1
    rw [if_neg h1]
    exact shutdown_sent (h.congr (u := { t with writing := none, writeClosed := true, readClosed := true }) rfl rfl rfl (fun _ => rfl) rfl id) room hs
  | flush oks =>
    simp only [List.mem_map, Sent.numbered.injEq, Prod.exists] at hs
    obtain ⟨k', c', h2, rfl, rfl⟩ := hs
    simp only [Tx.flush] at h2
    split at h2
    · cases h2
    · obtain ⟨-, -, -, -, -, -, -, -, -, g10, -⟩ :=
        flushKeys_spec t.tx (t.tx.pending.keys.take (min t.tx.pending.length (t.tx.window - t.tx.unacked.length))) oks
      exact h.pval _ (g10 _ h2)
  | resend e path oks =>
    simp only [List.mem_map, Sent.numbered.injEq, Prod.exists] at hs
    obtain ⟨k', c', h2, rfl, rfl⟩ := hs
    simp only [Tx.resend] at h2
    split at h2
    · cases h2
    · obtain ⟨x, h3, h4⟩ := List.mem_map.mp h2
      have h5 := List.fst_mem_of_mem_zipIdx (List.mem_filter.mp h3).1
      rw [h4] at h5
      exact h.uval _ (List.mem_of_mem_take (List.mem_of_mem_take h5))
  | ackTimer room =>
    simp only at hs
    split at hs
    · simp only at hs
      split at hs <;> simp at hs
    · cases hs

theorem shutdown_made (t : Task) (room : Bool) : t.made <+: (t.shutdown room).1.made := by
  unfold Task.shutdown
  split
  · exact List.prefix_refl _
  · exact List.prefix_append ..

theorem onPacket_made (t : Task) (p : Pkt.Packet) (room : Bool) : (t.onPacket p room).1.made = t.made := by
  unfold Task.onPacket
  split
  · rfl
  · simp only
    repeat' split
    all_goals rfl

theorem pop_made (t : Task) : t.pop.made = t.made := by
  unfold Task.pop
  split <;> rfl

theorem step_made (t : Task) (op : Op) : t.made <+: (t.step op).1.made := by
  unfold Task.step
  split
  · exact List.prefix_refl _
  cases op with
  | packet p room =>
    simp only
    split
    · exact List.prefix_refl _
    cases p with
    | none => exact List.prefix_refl _
    | some p =>
      simp only
      split
      · rw [onPacket_made]; exact List.prefix_refl _
      · simp only [pop_made, onPacket_made]; exact List.prefix_refl _
  | pollEmpty =>
    simp only
    split
    · exact List.prefix_refl _
    · rw [pop_made]; exact List.prefix_refl _
  | written n room =>
    simp only
    split
    · exact List.prefix_refl _
    split
    · exact shutdown_made { t with writing := none, writeClosed := true, readClosed := true } room
    · exact List.prefix_refl _
  | _ =>
    simp only
    repeat' split
    all_goals first
      | exact List.prefix_refl _
      | exact List.prefix_append ..
      | exact shutdown_made { t with writeClosed := true, readClosed := true } _
      | exact shutdown_made { t with writing := none, writeClosed := true, readClosed := true } _

/-! ## What is acknowledged -/

theorem shutdown_inb (t : Task) (room : Bool) : (t.shutdown room).1.inb = t.inb := by
  unfold Task.shutdown
  split <;> rfl

theorem shutdown_plain (t : Task) (room : Bool) (x : Nat) (ns : List Nat) (y z : Bool) : .plain x ns y z ∉ (t.shutdown room).2 := by
  unfold Task.shutdown
  split <;> simp

theorem handlePacket_cur {s s' : Inbound} {seq : Nat} {payload : Bytes} (h : s.handlePacket seq payload = .ok s') : s'.cur = s.cur ∨ s'.cur = seq := by
  unfold Inbound.handlePacket at h
  simp only at h
  repeat' split at h
  all_goals first
    | (cases h; done)
    | (simp only [RxResult.ok.injEq] at h; subst h; simp)

theorem onPacket_cur (t : Task) (p : Pkt.Packet) (room : Bool) :
    (t.onPacket p room).1.inb.cur = t.inb.cur ∨ (p.payload ≠ [] ∧ (t.onPacket p room).1.inb.cur = p.seq) := by
  have key : ∀ (u : Inbound), u.cur = t.inb.cur → ∀ inb, (if p.payload.isEmpty then RxResult.ok u else u.handlePacket p.seq p.payload) = .ok inb →
      inb.cur = t.inb.cur ∨ (p.payload ≠ [] ∧ inb.cur = p.seq) := by
    intro u hu inb h
    split at h
    · cases h; exact .inl hu
    · rename_i hp
      rcases handlePacket_cur h with h | h
      · exact .inl (h.trans hu)
      · exact .inr ⟨by simpa using hp, h⟩
  unfold Task.onPacket
  split
  · exact .inl rfl
  simp only
  split
  · exact .inl rfl
  split
  · refine .inl ?_
    repeat' split
    all_goals rfl
  · refine .inl ?_
    repeat' split
    all_goals rfl
  · rename_i inb h
    have := key _ (by repeat' split
                      all_goals rfl) inb h
    repeat' split
    all_goals exact this

theorem pop_cur (t : Task) : t.pop.inb.cur = t.inb.cur := by
  unfold Task.pop
  split <;> rfl

theorem step_cur (t : Task) (op : Op) :
    (t.step op).1.inb.cur = t.inb.cur ∨ ∃ p room, op = .packet (some p) room ∧ p.payload ≠ [] ∧ (t.step op).1.inb.cur = p.seq := by
  unfold Task.step
  split
  · exact .inl rfl
  cases op with
  | packet p room =>
    simp only
    split
    · exact .inl rfl
    cases p with
    | none => exact .inl rfl
    | some p =>
      simp only
      split
      · exact (onPacket_cur t p room).imp id fun h => ⟨p, room, rfl, h.1, h.2⟩
      · simp only [pop_cur]
        exact (onPacket_cur t p room).imp id fun h => ⟨p, room, rfl, h.1, h.2⟩
  | pollEmpty =>
    simp only
    split
    · exact .inl rfl
    · exact .inl (pop_cur t)
  | _ =>
    refine .inl ?_
    simp only
    repeat' split
    all_goals first
      | rfl
      | rw [shutdown_inb]

theorem step_plain (t : Task) (op : Op) {x : Nat} {ns : List Nat} {y z : Bool} (hs : .plain x ns y z ∈ (t.step op).2) : x = t.inb.cur := by
  unfold Task.step at hs
  split at hs
  · cases hs
  cases op with
  | packet p room =>
    exfalso
    simp only at hs
    split at hs
    · cases hs
    cases p with
    | none => cases hs
    | some p =>
      have : .plain x ns y z ∉ (t.onPacket p room).2 := by
        unfold Task.onPacket
        split
        · simp
        · simp only
          repeat' split
          all_goals simp
      simp only at hs
      split at hs <;> exact this hs
  | ackTimer room =>
    simp only at hs
    split at hs
    · simp only at hs
      split at hs
      · simp only [List.mem_singleton, Sent.plain.injEq] at hs
        exact hs.1
      · cases hs
    · cases hs
  | _ =>
    exfalso
    revert hs
    simp only
    repeat' split
    all_goals first
      | exact shutdown_plain _ _ _ _ _ _
      | simp

/-! ## The history of a pair -/

/-- Zero or the number of a packet with data. -/
def DataNo (made : List Bytes) (n : Nat) : Prop := n = 0 ∨ (1 ≤ n ∧ ∃ c, c ≠ [] ∧ made[n - 1]? = some c)

/-- What is known of one side: its own history `ops`, in which all that came was sent by the other side, whose packets are `made`. -/
structure Story (a b : Side) (ops : List Op) : Prop where
  run : (Task.new 0 none).run ops = (a.t, a.sent)
  made : ∀ k c, .numbered k c ∈ a.sent → 1 ≤ k ∧ a.t.made[k - 1]? = some c
  came : ∀ p room, Op.packet (some p) room ∈ ops → b.From p
  honest : Honest 0 b.t.made ops
  cur : DataNo b.t.made a.t.inb.cur
  acks : ∀ f ∈ a.acks, DataNo b.t.made f.1
  plain : ∀ x ns y z, .plain x ns y z ∈ a.sent → DataNo b.t.made x

theorem run_append : ∀ (xs ys : List Op) (t : Task), t.run (xs ++ ys) = (((t.run xs).1.run ys).1, (t.run xs).2 ++ ((t.run xs).1.run ys).2)
  | [], _, _ => by simp [Task.run]
  | x :: xs, ys, t => by simp [Task.run, run_append xs ys]

theorem Side.From.step {s : Side} {p : Pkt.Packet} (h : s.From p) (op : Op) : (s.step op).From p := by
  obtain ⟨x, h1, h2⟩ := h
  refine ⟨x, List.mem_append_left _ h1, ?_⟩
  cases x with
  | numbered k c =>
    obtain ⟨q1, q2, ⟨f, q3, q4⟩, q5⟩ := h2
    exact ⟨q1, q2, ⟨f, List.mem_append_left _ q3, q4⟩, q5⟩
  | syn => exact h2
  | plain a ns x close => exact h2

theorem Story.keep {a b : Side} {ops : List Op} (h : Story a b ops) : Keep ops a.t := by
  have := (Keep.new 0 none).run ops
  rw [h.run] at this
  simpa using this

theorem from_payload {b : Side} (hb : ∀ k c, .numbered k c ∈ b.sent → 1 ≤ k ∧ b.t.made[k - 1]? = some c) {p : Pkt.Packet} (h : b.From p) (hp : p.payload ≠ []) :
    1 ≤ p.seq ∧ b.t.made[p.seq - 1]? = some p.payload := by
  obtain ⟨x, h1, h2⟩ := h
  cases x with
  | numbered k c =>
    obtain ⟨rfl, rfl, -⟩ := h2
    exact hb _ _ h1
  | syn => exact absurd h2.1 hp
  | plain => exact absurd h2.1 hp

theorem getElem?_prefix {α : Type} {l m : List α} (h : l <+: m) {i : Nat} {x : α} (hx : l[i]? = some x) : m[i]? = some x := by
  obtain ⟨r, rfl⟩ := h
  have hi : i < l.length := (List.getElem?_eq_some_iff.mp hx).1
  rw [List.getElem?_append_left hi, hx]

theorem DataNo.mono {l m : List Bytes} (h : l <+: m) {n : Nat} (hn : DataNo l n) : DataNo m n :=
  hn.imp id fun ⟨h1, c, h2, h3⟩ => ⟨h1, c, h2, getElem?_prefix h h3⟩

theorem Story.left {a b : Side} {ops ops' : List Op} (h : Story a b ops) (hb : Story b a ops') (op : Op) (hop : ∀ p room, op = .packet (some p) room → b.From p) :
    Story (a.step op) b (ops ++ [op]) ∧ Story b (a.step op) ops' := by
  have hm := step_made a.t op
  have hcur : DataNo b.t.made (a.t.step op).1.inb.cur := by
    rcases step_cur a.t op with h1 | ⟨p, room, h1, h2, h3⟩
    · rw [h1]; exact h.cur
    · rw [h3]
      obtain ⟨q1, q2⟩ := from_payload hb.made (hop p room h1) h2
      exact .inr ⟨q1, _, h2, q2⟩
  refine ⟨⟨?_, ?_, ?_, ?_, hcur, ?_, ?_⟩, ⟨hb.run, hb.made, fun p room hp => (hb.came p room hp).step op, ?_, hb.cur.mono hm,
    fun f hf => (hb.acks f hf).mono hm, fun x ns y z hx => (hb.plain x ns y z hx).mono hm⟩⟩
  · rw [run_append, h.run]
    simp only [Task.run, List.append_nil]
    rfl
  · intro k c hk
    rcases List.mem_append.mp hk with hk | hk
    · exact ⟨(h.made k c hk).1, getElem?_prefix (step_made a.t op) (h.made k c hk).2⟩
    · exact step_sent h.keep op hk
  · intro p room hp
    rcases List.mem_append.mp hp with hp | hp
    · exact h.came p room hp
    · exact hop p room (List.mem_singleton.mp hp).symm
  · intro p room hp hne hlt
    rcases List.mem_append.mp hp with hp | hp
    · exact h.honest p room hp hne hlt
    · have := from_payload hb.made (hop p room (List.mem_singleton.mp hp).symm) hne
      rw [Nat.sub_zero]
      exact this.2
  · intro f hf
    rcases List.mem_append.mp hf with hf | hf
    · exact h.acks f hf
    · rw [List.mem_singleton.mp hf]; exact hcur
  · intro x ns y z hx
    rcases List.mem_append.mp hx with hx | hx
    · exact h.plain x ns y z hx
    · rw [step_plain a.t op hx]; exact h.cur
  · intro p room hp hne hlt
    have := hb.honest p room hp hne hlt
    exact getElem?_prefix (step_made a.t op) this

theorem story {a b : Side} (h : Reach a b) : ∃ ops ops', Story a b ops ∧ Story b a ops' := by
  induction h with
  | start => exact ⟨[], [], ⟨rfl, by simp, by simp, by simp [Honest], .inl rfl, by simp [DataNo, Inbound.ackFields, Task.new, Inbound.new], by simp⟩,
      ⟨rfl, by simp, by simp, by simp [Honest], .inl rfl, by simp [DataNo, Inbound.ackFields, Task.new, Inbound.new], by simp⟩⟩
  | left _ op hop ih =>
    obtain ⟨ops, ops', h1, h2⟩ := ih
    obtain ⟨h3, h4⟩ := h1.left h2 op hop
    exact ⟨_, _, h3, h4⟩
  | right _ op hop ih =>
    obtain ⟨ops, ops', h1, h2⟩ := ih
    obtain ⟨h3, h4⟩ := h2.left h1 op hop
    exact ⟨_, _, h4, h3⟩

/-! ## C292 -/

/-- **C292**: whatever the network does, and whenever either client closes or its session shuts down: what each client has read is a beginning of what the other one has
written. -/
theorem C292_reads_partial {a b : Side} (h : Reach a b) : b.t.out <+: a.t.taken ∧ a.t.out <+: b.t.taken := by
  have key : ∀ {a b : Side}, Reach a b → b.t.out <+: a.t.taken := by
    intro a b h
    obtain ⟨ops, ops', h1, h2⟩ := story h
    have := (C283_delivered_partial 0 none a.t.made ops' h2.honest b.t (by rw [h2.run])).1
    obtain ⟨parts, -, p2, p3⟩ := h1.keep.shape
    rw [p3] at this
    simp only [Option.getD_none, List.nil_append, List.flatten_append, p2] at this
    split at this <;> simpa using this
  exact ⟨key h, key h.swap⟩

/-- **C292**, violated: that a stream ends once its client has closed it and its peer has taken everything. The number of the `CLOSE` packet is never acknowledged by a
stream of this implementation, because packets without data are not counted: the packet is kept and sent again until something else ends the stream. -/
theorem C292_close_violated {a b : Side} (h : Reach a b) :
    a.t.ended ≠ some .acked ∧
    (a.t.closeRequested = true → (a.t.made.length, []) ∈ a.t.tx.unacked ∨ (a.t.made.length, []) ∈ a.t.tx.pending) := by
  obtain ⟨ops, ops', h1, h2⟩ := story h
  have hna : a.t.closeRequested = true → ¬ Acked ops a.t.made.length := by
    intro hc ⟨p, room, hp, hk⟩
    obtain ⟨parts, p1, -, p3⟩ := h1.keep.shape
    rw [hc] at p3
    simp only [if_true] at p3
    have hno : DataNo a.t.made p.ackThrough := by
      obtain ⟨x, q1, q2⟩ := h1.came p room hp
      cases x with
      | numbered k c =>
        obtain ⟨-, -, ⟨f, q3, q4, -⟩, -⟩ := q2
        rw [q4]; exact h2.acks f q3
      | syn => exact .inl q2.2.1
      | plain x ns y z => rw [q2.2.1]; exact h2.plain _ _ _ _ q1
    have hle : p.ackThrough ≤ parts.length := by
      rcases hno with h0 | ⟨h0, c, hc, he⟩
      · omega
      · rw [p3] at he
        have := (List.getElem?_eq_some_iff.mp he).1
        simp only [List.length_append, List.length_singleton] at this
        by_cases hx : p.ackThrough - 1 = parts.length
        · rw [hx, List.getElem?_append_right (Nat.le_refl _)] at he
          simp only [Nat.sub_self, List.getElem?_cons_zero, Option.some.injEq] at he
          exact absurd he.symm hc
        · omega
    have : a.t.made.length = parts.length + 1 := by rw [p3]; simp
    have := hk.2.1
    omega
  have hlen : a.t.closeRequested = true → 1 ≤ a.t.made.length ∧ a.t.made[a.t.made.length - 1]? = some [] := by
    intro hc
    obtain ⟨parts, -, -, p3⟩ := h1.keep.shape
    rw [hc] at p3
    simp only [if_true] at p3
    rw [p3]
    simp
  obtain ⟨-, q2, q3⟩ := C282_kept_partial 0 none ops a.t (by rw [h1.run])
  refine ⟨fun he => ?_, fun hc => ?_⟩
  · obtain ⟨hc, hall⟩ := q3 he
    exact hna hc (hall _ (hlen hc).1 (Nat.le_refl _))
  · rcases q2 _ _ (hlen hc).1 (hlen hc).2 with h' | h' | h'
    · exact .inl h'
    · exact .inr h'
    · exact absurd h' (hna hc)

/-! ## Examples -/

theorem Reach.lefts {a b : Side} (h : Reach a b) : ∀ (ops : List Op), (∀ p room, .packet (some p) room ∈ ops → b.From p) → Reach (ops.foldl Side.step a) b
  | [], _ => h
  | op :: ops, ho => (h.left op fun p room hp => ho p room (by simp [hp])).lefts ops fun p room hp => ho p room (by simp [hp])

/-- A client writes two bytes. -/
def askSide : Side := [Op.read [7, 8] [true]].foldl Side.step {}

/-- Its peer takes and acknowledges them. -/
def takeSide : Side := [Op.packet (some (dataPkt 1 0 [7, 8])) true, .written 2 true, .ackTimer true].foldl Side.step {}

/-- The client closes. -/
def closeSide : Side := [Op.packet (some (dataPkt 0 1 [])) true, .eof true].foldl Side.step askSide

/-- The peer sees the `CLOSE`, answers it and is gone. -/
def goneSide : Side := [Op.packet (some { closePkt 0 [] with seq := 2 }) true, .ackTimer true].foldl Side.step takeSide

theorem asked : Reach askSide {} := Reach.start.lefts _ (by simp)

theorem taken : Reach askSide takeSide := by
  refine (asked.swap.lefts _ fun p room hp => ?_).swap
  simp only [List.mem_cons, Op.packet.injEq, Option.some.injEq, List.not_mem_nil, or_false, reduceCtorEq] at hp
  obtain ⟨rfl, _⟩ := hp
  exact ⟨.numbered 1 [7, 8], by decide +kernel, rfl, rfl, ⟨(0, []), by decide +kernel, rfl, .inl rfl⟩, rfl, rfl⟩

theorem closed : Reach closeSide takeSide := by
  refine taken.lefts _ fun p room hp => ?_
  simp only [List.mem_cons, Op.packet.injEq, Option.some.injEq, List.not_mem_nil, or_false, reduceCtorEq] at hp
  obtain ⟨rfl, _⟩ := hp
  exact ⟨.plain 1 [] false false, by decide +kernel, rfl, rfl, rfl, rfl, rfl⟩

theorem gone : Reach closeSide goneSide := by
  refine (closed.swap.lefts _ fun p room hp => ?_).swap
  simp only [List.mem_cons, Op.packet.injEq, Option.some.injEq, List.not_mem_nil, or_false, reduceCtorEq] at hp
  obtain ⟨rfl, _⟩ := hp
  exact ⟨.numbered 2 [], by decide +kernel, rfl, rfl, ⟨(0, []), by decide +kernel, rfl, .inl rfl⟩, rfl, rfl⟩

-- Everything was taken by the peer, which has ended; the client's stream has not, and keeps its `CLOSE`, also when the last packet of the peer comes.
example : goneSide.t.out = [7, 8] ∧ closeSide.t.taken = [7, 8] ∧ goneSide.t.ended = some .peerClosed ∧ goneSide.sent = [.plain 1 [] false false, .plain 1 [] false true] ∧
    closeSide.t.closeRequested = true ∧ closeSide.t.ended = none ∧ closeSide.t.tx.unacked = [(2, [])] := by decide +kernel
example : Reach (closeSide.step (.packet (some (closePkt 1 [])) true)) goneSide ∧
    (closeSide.step (.packet (some (closePkt 1 [])) true)).t.tx.unacked = [(2, [])] := by
  refine ⟨gone.left _ fun p room hp => ?_, by decide +kernel⟩
  simp only [Op.packet.injEq, Option.some.injEq] at hp
  obtain ⟨rfl, _⟩ := hp
  exact ⟨.plain 1 [] false true, by decide +kernel, rfl, rfl, rfl, rfl, rfl⟩

end Emissary.StreamTask
