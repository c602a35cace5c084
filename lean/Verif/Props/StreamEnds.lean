import Verif.Props.StreamTask
/-!
# C300: a stream ends only for a reason
-/
namespace Emissary.StreamTask
open Emissary Emissary.Stream

/-! ## Specification -/

/-- A packet of the peer with this property has come. -/
def Gave (ops : List Op) (q : Pkt.Packet → Bool → Prop) : Prop := ∃ p room, Op.packet (some p) room ∈ ops ∧ q p room

/-- The client has closed its socket, its socket has failed, or the session has asked the stream to shut down. -/
def ClientDone (ops : List Op) : Prop := ∃ op ∈ ops, ∃ room, op = .eof room ∨ op = .shutDown room ∨ op = .written 0 room

/-- What must have happened before a stream, whose first packet from the peer has a number up to `base`, ends in this way. -/
def Reason (base : Nat) (ops : List Op) : End → Prop
  | .reset => Gave ops fun p _ => p.flags.reset = true
  | .acked => ClientDone ops
  | .tooHigh => Gave ops fun p _ => p.payload ≠ [] ∧ p.seq > base + 1 + 512
  | .peerClosed => Gave ops fun p _ => p.flags.close = true
  | .pathGone => .pathGone ∈ ops
  | .dropped => .dropped ∈ ops
  | .panic => (Gave ops fun p room => p.flags.synchronize = true ∧ room = false) ∨ base + 1 ≥ 2 ^ 32 ∨ (Gave ops fun p _ => p.payload ≠ [] ∧ p.seq + 1 ≥ 2 ^ 32)

/-! ## Proofs -/

theorem Gave.mono {ops more : List Op} {q : Pkt.Packet → Bool → Prop} (h : Gave ops q) : Gave (ops ++ more) q := by
  obtain ⟨p, room, h1, h2⟩ := h
  exact ⟨p, room, List.mem_append_left _ h1, h2⟩

theorem ClientDone.mono {ops more : List Op} (h : ClientDone ops) : ClientDone (ops ++ more) := by
  obtain ⟨op, h1, h2⟩ := h
  exact ⟨op, List.mem_append_left _ h1, h2⟩

theorem Reason.mono {base : Nat} {ops more : List Op} {e : End} (h : Reason base ops e) : Reason base (ops ++ more) e := by
  cases e with
  | reset => exact Gave.mono h
  | acked => exact ClientDone.mono h
  | tooHigh => exact Gave.mono h
  | peerClosed => exact Gave.mono h
  | pathGone => exact List.mem_append_left _ h
  | dropped => exact List.mem_append_left _ h
  | panic => exact h.imp Gave.mono (Or.imp id Gave.mono)

/-- What is known about a task after a history. -/
structure Why (base : Nat) (ops : List Op) (t : Task) : Prop where
  ended : ∀ e, t.ended = some e → Reason base ops e
  low : base ≤ t.inb.cur
  cur : t.inb.cur = base ∨ Gave ops fun p _ => p.payload ≠ [] ∧ p.seq = t.inb.cur
  peer : t.inb.closeRequested = true → Gave ops fun p _ => p.flags.close = true
  client : t.closeRequested = true → ClientDone ops

theorem Why.mono {base : Nat} {ops more : List Op} {t : Task} (h : Why base ops t) : Why base (ops ++ more) t :=
  ⟨fun e he => (h.ended e he).mono, h.low, h.cur.imp id Gave.mono, fun hc => (h.peer hc).mono, fun hc => (h.client hc).mono⟩

theorem Why.congr {base : Nat} {ops : List Op} {t u : Task} (h : Why base ops t) (h1 : u.ended = t.ended) (h2 : u.inb.cur = t.inb.cur)
    (h3 : u.inb.closeRequested = t.inb.closeRequested) (h4 : u.closeRequested = t.closeRequested) : Why base ops u :=
  ⟨by rw [h1]; exact h.ended, by rw [h2]; exact h.low, by rw [h2]; exact h.cur, by rw [h3]; exact h.peer, by rw [h4]; exact h.client⟩

theorem Why.pop {base : Nat} {ops : List Op} {t : Task} (h : Why base ops t) : Why base ops t.pop := by
  unfold Task.pop
  split
  · exact h
  · exact h.congr rfl rfl rfl rfl

theorem Why.shutdown {base : Nat} {ops : List Op} {t : Task} (h : Why base ops t) (room : Bool) (hd : ClientDone ops) : Why base ops (t.shutdown room).1 := by
  unfold Task.shutdown
  split
  · exact h
  · exact ⟨h.ended, h.low, h.cur, h.peer, fun _ => hd⟩

/-- What `handle_packet` does to the highest number. -/
theorem handlePacket_highest (s : Inbound) (seq : Nat) (payload : Bytes) :
    match s.handlePacket seq payload with
    | .ok u => u.closeRequested = s.closeRequested ∧ s.cur ≤ u.cur ∧ (u.cur = s.cur ∨ u.cur = seq)
    | .tooHigh => seq > s.cur + 1 + 512
    | .panic => s.cur + 1 ≥ 2 ^ 32 := by
  unfold Inbound.handlePacket
  by_cases h0 : s.cur + 1 ≥ 2 ^ 32
  · simp only [h0, if_true]
  · simp only [h0, if_false]
    by_cases h1 : seq = s.cur + 1
    · simp only [h1, if_true]
      split
      · rename_i heq; split at heq <;> cases heq <;> exact ⟨rfl, by simp, Or.inr rfl⟩
      · rename_i heq; split at heq <;> cases heq
      · rename_i heq; split at heq <;> cases heq
    · simp only [h1, if_false]
      by_cases h2 : seq > s.cur + 1
      · simp only [h2, if_true]
        by_cases h3 : seq - s.cur - 1 > maxLookahead
        · simp only [h3, if_true]
          have : maxLookahead = 512 := by decide
          omega
        · simp only [h3, if_false]
          exact ⟨trivial, by omega, Or.inr trivial⟩
      · simp only [h2, if_false]
        by_cases h3 : OSet.first s.missing = some seq
        · simp only [h3, if_true]
          exact ⟨trivial, Nat.le_refl _, Or.inl trivial⟩
        · simp only [h3, if_false]
          exact ⟨trivial, Nat.le_refl _, Or.inl trivial⟩

theorem Why.onPacket {base : Nat} {ops : List Op} {t : Task} (h : Why base ops t) (he : t.ended = none) (p : Pkt.Packet) (room : Bool)
    (hp : Op.packet (some p) room ∈ ops) : Why base ops (t.onPacket p room).1 := by
  unfold Task.onPacket
  have over : t.inb.cur + 1 ≥ 2 ^ 32 → Reason base ops .panic := fun hc => by
    rcases h.cur with hb | ⟨q, r, hq, hne, hs⟩
    · exact Or.inr (Or.inl (by rw [← hb]; exact hc))
    · exact Or.inr (Or.inr ⟨q, r, hq, hne, by rw [hs]; exact hc⟩)
  split
  · rename_i hs
    simp only [Bool.and_eq_true, Bool.not_eq_true'] at hs
    exact ⟨fun e hee => by cases hee; exact Or.inl ⟨p, room, hp, hs⟩, h.low, h.cur, h.peer, h.client⟩
  · by_cases hr : p.flags.reset = true
    · simp only [hr, if_true]
      exact ⟨fun e hee => by cases hee; exact ⟨p, room, hp, hr⟩, h.low, h.cur, h.peer, h.client⟩
    · simp only [hr, if_false]
      -- after CLOSE and acknowledgements
      have h1 : Why base ops (if p.flags.close then { t with readClosed := true, inb := { t.inb with closeRequested := true }, ackTimer := true } else t) ∧
          (if p.flags.close then { t with readClosed := true, inb := { t.inb with closeRequested := true }, ackTimer := true } else t).inb.cur = t.inb.cur ∧
          (if p.flags.close then { t with readClosed := true, inb := { t.inb with closeRequested := true }, ackTimer := true } else t).ended = none := by
        split
        · rename_i hc
          exact ⟨⟨h.ended, h.low, h.cur, fun _ => ⟨p, room, hp, hc⟩, h.client⟩, rfl, he⟩
        · exact ⟨h, rfl, he⟩
      generalize (if p.flags.close then { t with readClosed := true, inb := { t.inb with closeRequested := true }, ackTimer := true } else t) = t1 at h1 ⊢
      obtain ⟨w1, c1, e1⟩ := h1
      have h2 : Why base ops (if p.flags.noAck then t1 else { t1 with tx := t1.tx.handleAcks p.ackThrough p.nacks }) ∧
          (if p.flags.noAck then t1 else { t1 with tx := t1.tx.handleAcks p.ackThrough p.nacks }).inb.cur = t.inb.cur ∧
          (if p.flags.noAck then t1 else { t1 with tx := t1.tx.handleAcks p.ackThrough p.nacks }).ended = none := by
        split
        · exact ⟨w1, c1, e1⟩
        · exact ⟨w1.congr rfl rfl rfl rfl, c1, e1⟩
      generalize (if p.flags.noAck then t1 else { t1 with tx := t1.tx.handleAcks p.ackThrough p.nacks }) = t2 at h2 ⊢
      obtain ⟨w2, c2, e2⟩ := h2
      have h3 : match (if p.payload.isEmpty then RxResult.ok t2.inb else t2.inb.handlePacket p.seq p.payload) with
          | .ok u => u.closeRequested = t2.inb.closeRequested ∧ t2.inb.cur ≤ u.cur ∧ (u.cur = t2.inb.cur ∨ p.payload ≠ [] ∧ u.cur = p.seq)
          | .tooHigh => p.payload ≠ [] ∧ p.seq > t2.inb.cur + 1 + 512
          | .panic => t2.inb.cur + 1 ≥ 2 ^ 32 := by
        by_cases hpe : p.payload = []
        · simp [hpe]
        · have hx : p.payload.isEmpty = false := by simpa using hpe
          have := handlePacket_highest t2.inb p.seq p.payload
          simp only [hx, Bool.false_eq_true, if_false]
          generalize t2.inb.handlePacket p.seq p.payload = r at this ⊢
          cases r with
          | ok u => exact ⟨this.1, this.2.1, this.2.2.imp id fun x => ⟨hpe, x⟩⟩
          | tooHigh => exact ⟨hpe, this⟩
          | panic => exact this
      generalize (if p.payload.isEmpty then RxResult.ok t2.inb else t2.inb.handlePacket p.seq p.payload) = r at h3 ⊢
      have hlow := h.low
      cases r with
      | tooHigh => exact ⟨fun e hee => by cases hee; exact ⟨p, room, hp, h3.1, by have := h3.2; omega⟩, w2.low, w2.cur, w2.peer, w2.client⟩
      | panic => exact ⟨fun e hee => by cases hee; exact over (by rw [← c2]; exact h3), w2.low, w2.cur, w2.peer, w2.client⟩
      | ok u =>
        have w3 : Why base ops { t2 with inb := u, ackTimer := t2.ackTimer || !p.payload.isEmpty } := by
          refine ⟨w2.ended, Nat.le_trans w2.low h3.2.1, ?_, fun hc => w2.peer (by rw [← h3.1]; exact hc), w2.client⟩
          rcases h3.2.2 with hx | ⟨hne, hx⟩
          · show u.cur = base ∨ Gave ops fun p _ => p.payload ≠ [] ∧ p.seq = u.cur
            rw [hx]; exact w2.cur
          · exact Or.inr ⟨p, room, hp, hne, hx.symm⟩
        by_cases hc : (t2.closeRequested && t2.tx.unacked.isEmpty && t2.tx.pending.isEmpty) = true
        · simp only [hc, if_true]
          simp only [Bool.and_eq_true] at hc
          exact ⟨fun e hee => by cases hee; exact w2.client hc.1.1, w3.low, w3.cur, w3.peer, w3.client⟩
        · simp only [hc, if_false]
          exact w3

theorem Why.step {base : Nat} {ops : List Op} {t : Task} (h : Why base ops t) (op : Op) : Why base (ops ++ [op]) (t.step op).1 := by
  have hin : op ∈ ops ++ [op] := by simp
  replace h : Why base (ops ++ [op]) t := h.mono
  generalize ops ++ [op] = all at h hin
  unfold Task.step
  by_cases hs : t.ended.isSome = true
  · rw [if_pos hs]; exact h
  · have he : t.ended = none := by simpa using hs
    rw [if_neg hs]
    cases op with
    | packet p room =>
      simp only
      split
      · exact h
      · cases p with
        | none => exact h
        | some p =>
          simp only
          have hw := h.onPacket he p room hin
          split
          · exact hw
          · exact hw.pop
    | shutDown room =>
      have hd : ClientDone all := ⟨_, hin, room, Or.inr (Or.inl rfl)⟩
      simp only
      split
      · exact h
      · split
        · exact h.congr rfl rfl rfl rfl
        · refine Why.shutdown (Why.congr h ?_ ?_ ?_ ?_) room hd
          all_goals rfl
    | dropped =>
      simp only
      split
      · exact h
      · exact ⟨fun e hee => by cases hee; exact hin, h.low, h.cur, h.peer, h.client⟩
    | pathGone => exact ⟨fun e hee => by cases hee; exact hin, h.low, h.cur, h.peer, h.client⟩
    | pollEmpty =>
      simp only
      split
      · exact h
      · exact h.pop
    | written n room =>
      simp only
      split
      · exact h
      · split
        · rename_i hn
          subst hn
          refine Why.shutdown (Why.congr h ?_ ?_ ?_ ?_) room ⟨_, hin, room, Or.inr (Or.inr rfl)⟩
          all_goals rfl
        · exact h.congr rfl rfl rfl rfl
    | read data oks =>
      simp only
      split
      · exact h
      · exact h.congr rfl rfl rfl rfl
    | eof room =>
      simp only
      split
      · exact h
      · refine Why.shutdown (Why.congr h ?_ ?_ ?_ ?_) room ⟨_, hin, room, Or.inl rfl⟩
        all_goals rfl
    | flush oks => exact h.congr rfl rfl rfl rfl
    | resend e path oks => exact h.congr rfl rfl rfl rfl
    | ackTimer room =>
      simp only
      split
      · split
        · rename_i hc
          simp only [Inbound.canClose, Bool.and_eq_true] at hc
          exact ⟨fun e hee => by cases hee; exact h.peer hc.1, h.low, h.cur, h.peer, h.client⟩
        · exact h.congr rfl rfl rfl rfl
      · exact h

theorem Why.run {base : Nat} : ∀ (rest : List Op) {ops : List Op} {t : Task}, Why base ops t → Why base (ops ++ rest) (t.run rest).1
  | [], ops, t, h => by simpa [Task.run] using h
  | op :: rest, ops, t, h => by
    have := Why.run rest (h.step op)
    simpa [Task.run, List.append_assoc] using this

/-- However a stream ends, there is a reason for it in what has come before. -/
theorem C300_reason (base : Nat) (initial : Option Bytes) (ops : List Op) (e : End) (he : ((Task.new base initial).run ops).1.ended = some e) : Reason base ops e := by
  have h0 : Why base [] (Task.new base initial) :=
    ⟨by simp [Task.new], Nat.le_refl _, Or.inl rfl, by simp [Task.new, Inbound.new], by simp [Task.new]⟩
  have := (Why.run ops h0).ended e he
  simpa using this

/-- Nothing that ends a stream: no `RESET` or `CLOSE`, room for the answer to a `SYN`, a number that is at most 512 beyond the next one after `highest` and not the last there
is; no end of the path, of the manager or of the client. -/
def Quiet (highest : Nat) : Op → Prop
  | .packet none _ => True
  | .packet (some p) room => p.flags.reset = false ∧ p.flags.close = false ∧ (p.flags.synchronize = true → room = true) ∧
      (p.payload ≠ [] → p.seq ≤ highest + 1 + 512 ∧ p.seq + 1 < 2 ^ 32)
  | .pathGone | .dropped | .eof _ | .shutDown _ => False
  | .written n _ => n ≠ 0
  | _ => True

/-- A task that nothing is about to end. -/
structure Open (t : Task) : Prop where
  ended : t.ended = none
  peer : t.inb.closeRequested = false
  client : t.closeRequested = false
  low : t.inb.cur + 1 < 2 ^ 32

theorem Open.congr {t u : Task} (h : Open t) (h1 : u.ended = t.ended) (h2 : u.inb.cur = t.inb.cur) (h3 : u.inb.closeRequested = t.inb.closeRequested)
    (h4 : u.closeRequested = t.closeRequested) : Open u :=
  ⟨h1.trans h.ended, h3.trans h.peer, h4.trans h.client, by rw [h2]; exact h.low⟩

theorem Open.pop {t : Task} (h : Open t) : Open t.pop := by
  unfold Task.pop
  split
  · exact h
  · exact h.congr rfl rfl rfl rfl

theorem Open.onPacket {t : Task} (h : Open t) (p : Pkt.Packet) (room : Bool) (hq : Quiet t.inb.cur (.packet (some p) room)) : Open (t.onPacket p room).1 := by
  obtain ⟨hr, hc, hs, hn⟩ := hq
  have hsr : (p.flags.synchronize && !room) = false := by
    cases hx : p.flags.synchronize with
    | false => rfl
    | true => rw [hs hx]; rfl
  unfold Task.onPacket
  simp only [hsr, hr, hc, Bool.false_eq_true, if_false]
  have h2 : Open (if p.flags.noAck then t else { t with tx := t.tx.handleAcks p.ackThrough p.nacks }) ∧
      (if p.flags.noAck then t else { t with tx := t.tx.handleAcks p.ackThrough p.nacks }).inb.cur = t.inb.cur := by
    split
    · exact ⟨h, rfl⟩
    · exact ⟨h.congr rfl rfl rfl rfl, rfl⟩
  generalize (if p.flags.noAck then t else { t with tx := t.tx.handleAcks p.ackThrough p.nacks }) = t2 at h2 ⊢
  obtain ⟨w2, c2⟩ := h2
  have hw := w2.low
  have h3 : ∃ u, (if p.payload.isEmpty then RxResult.ok t2.inb else t2.inb.handlePacket p.seq p.payload) = .ok u ∧ u.closeRequested = false ∧ u.cur + 1 < 2 ^ 32 := by
    by_cases hpe : p.payload = []
    · exact ⟨t2.inb, by simp [hpe], w2.peer, w2.low⟩
    · have hx : p.payload.isEmpty = false := by simpa using hpe
      have := handlePacket_highest t2.inb p.seq p.payload
      obtain ⟨n1, n2⟩ := hn hpe
      simp only [hx, Bool.false_eq_true, if_false]
      generalize t2.inb.handlePacket p.seq p.payload = r at this ⊢
      cases r with
      | ok u => exact ⟨u, rfl, this.1.trans w2.peer, by rcases this.2.2 with e | e <;> rw [e] <;> omega⟩
      | tooHigh => simp only at this; omega
      | panic => simp only at this; omega
  obtain ⟨u, hu, u1, u2⟩ := h3
  rw [hu]
  simp only [w2.client, Bool.false_and, Bool.false_eq_true, if_false]
  exact ⟨w2.ended, u1, rfl, u2⟩

theorem Open.step {t : Task} (h : Open t) (op : Op) (hq : Quiet t.inb.cur op) : Open (t.step op).1 := by
  unfold Task.step
  rw [if_neg (by rw [h.ended]; decide)]
  cases op with
  | packet p room =>
    simp only
    split
    · exact h
    · cases p with
      | none => exact h
      | some p =>
        simp only
        have hw := h.onPacket p room hq
        split
        · exact hw
        · exact hw.pop
  | shutDown room => cases hq
  | dropped => cases hq
  | pathGone => cases hq
  | eof room => cases hq
  | pollEmpty =>
    simp only
    split
    · exact h
    · exact h.pop
  | written n room =>
    simp only
    split
    · exact h
    · rw [if_neg hq]; exact h.congr rfl rfl rfl rfl
  | read data oks =>
    simp only
    split
    · exact h
    · exact h.congr rfl rfl rfl rfl
  | flush oks => exact h.congr rfl rfl rfl rfl
  | resend e path oks => exact h.congr rfl rfl rfl rfl
  | ackTimer room =>
    simp only [Inbound.canClose, h.peer, Bool.false_and, Bool.false_eq_true, if_false]
    split
    · exact h.congr rfl rfl rfl rfl
    · exact h

theorem Open.run : ∀ (ops : List Op) (t : Task), Open t → (∀ pre op post, ops = pre ++ op :: post → Quiet (t.run pre).1.inb.cur op) → Open (t.run ops).1
  | [], _, h, _ => h
  | op :: ops, t, h, hq => by
    have h1 := h.step op (hq [] op ops rfl)
    exact Open.run ops _ h1 fun pre o post e => hq (op :: pre) o post (by rw [e]; rfl)

/-- A stream goes on, however much is sent, as long as neither side has closed it, its path is there, its manager runs, the answers to the `SYN`s of the peer find room, and
the number of each packet with data is at most 512 beyond the next one (`inb.cur` is what the stream acknowledges) and not the last of all numbers. -/
theorem C300_goes_on_partial (base : Nat) (initial : Option Bytes) (ops : List Op) (hb : base + 1 < 2 ^ 32)
    (hq : ∀ pre op post, ops = pre ++ op :: post → Quiet ((Task.new base initial).run pre).1.inb.cur op) :
    ((Task.new base initial).run ops).1.ended = none :=
  (Open.run ops _ ⟨rfl, rfl, rfl, hb⟩ hq).ended

/-- The code fails where it should not: a `SYN` that the peer sends again ends a running stream with a panic, if the channel to the session is full when it comes. -/
theorem C300_syn_violated (t : Task) (he : t.ended = none) (hw : t.writing = none) (p : Pkt.Packet) (hs : p.flags.synchronize = true) :
    (t.step (.packet (some p) false)).1.ended = some .panic ∧ (t.step (.packet (some p) false)).2 = [] := by
  simp [Task.step, he, hw, Task.onPacket, hs]

/-- So does a packet with data after the last number: one more byte from a peer whose numbers have reached the end ends the stream with a panic, in builds that
check overflows. -/
theorem C300_last_number_violated (t : Task) (he : t.ended = none) (hw : t.writing = none) (hn : t.inb.cur = 2 ^ 32 - 1) (p : Pkt.Packet)
    (hs : p.flags.synchronize = false) (hr : p.flags.reset = false) (hd : p.payload ≠ []) (room : Bool) :
    (t.step (.packet (some p) room)).1.ended = some .panic := by
  have hx : p.payload.isEmpty = false := by simpa using hd
  have key : ∀ s : Inbound, s.cur = 2 ^ 32 - 1 → s.handlePacket p.seq p.payload = .panic := fun s h => by
    simp [Inbound.handlePacket, h]
  simp only [Task.step, he, hw, Option.isSome_none, Bool.false_eq_true, if_false, Task.onPacket, hs, hr, hx, Bool.false_and]
  rw [key _ (by repeat' split
                all_goals exact hn)]
  simp

-- Ends of three kinds, and one history that meets the conditions of `C300_goes_on_partial`.
example : ((Task.new 0 none).run [.packet (some (dataPkt 514 0 [1])) true]).1.ended = some .tooHigh ∧
    ((Task.new 0 none).run [.packet (some (dataPkt 513 0 [1])) true]).1.ended = none ∧
    ((Task.new 0 none).run [.read [1, 2, 3] [true], .eof true, .packet (some (dataPkt 0 1 [])) true, .flush [true], .packet (some (dataPkt 0 2 [])) true]).1.ended = some .acked := by decide +kernel
example : let t := Task.new 0 none
    let ops := [Op.packet (some (dataPkt 500 0 [2, 3])) true, .packet (some (dataPkt 1000 0 [1])) true, .packet (some (dataPkt 1 0 [1])) true, .written 1 true, .read [7] [true]]
    Quiet t.inb.cur ops[0] ∧ Quiet (t.run (ops.take 1)).1.inb.cur ops[1] ∧ Quiet (t.run (ops.take 2)).1.inb.cur ops[2] ∧
    Quiet (t.run (ops.take 3)).1.inb.cur ops[3] ∧ Quiet (t.run (ops.take 4)).1.inb.cur ops[4] ∧ (t.run ops).1.out = [1] := by
  refine ⟨⟨by decide, by decide, by decide, fun _ => ?_⟩, ⟨by decide, by decide, by decide, fun _ => ?_⟩, ⟨by decide, by decide, by decide, fun _ => ?_⟩, Nat.one_ne_zero, trivial, ?_⟩ <;>
    decide +kernel
-- A `SYN` again, with and without room.
example : ((Task.new 0 none).run [.packet (some { closePkt 0 [] with flags := ⟨none, 1, none, none, none, none⟩ }) false]).1.ended = some .panic ∧
    ((Task.new 0 none).run [.packet (some { closePkt 0 [] with flags := ⟨none, 1, none, none, none, none⟩ }) true]).2 = [.syn] := by decide +kernel

end Emissary.StreamTask
