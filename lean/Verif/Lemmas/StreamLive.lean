import Verif.Lemmas.StreamSys
/-!
# Lemmas for the liveness of a stream (C244)
-/
namespace Emissary.Stream

/-- The state after the first `n` events of a schedule. -/
def st (ev : Nat → SysEvent) : Nat → Sys
  | 0 => Sys.init
  | n + 1 => (st ev n).step (ev n)

theorem st_inv (ev : Nat → SysEvent) (n : Nat) : ∃ rcv, SysInv (st ev n) rcv := by
  induction n with
  | zero => exact ⟨_, SysInv.init⟩
  | succ n ih =>
    obtain ⟨rcv, h⟩ := ih
    obtain ⟨rcv', h', -⟩ := h.step (ev n)
    exact ⟨rcv', h'⟩

/-- The receiver has packet `k`. -/
def Got (s : Sys) (k : Nat) : Prop := 1 ≤ k ∧ k ≤ s.rx.inb.cur ∧ k ∉ s.rx.inb.missing

theorem SysInv.got {s : Sys} {rcv : Nat → Prop} (h : SysInv s rcv) {k : Nat} : Got s k ↔ 1 ≤ k ∧ rcv k := by
  obtain ⟨popped, n, hr⟩ := h.rx
  unfold Got
  constructor
  · rintro ⟨h1, h2⟩; exact ⟨h1, (hr.inb.recvd k (by omega)).2 h2⟩
  · rintro ⟨h1, h2⟩; exact ⟨h1, (hr.inb.recvd k (by omega)).1 h2⟩

theorem got_step (ev : Nat → SysEvent) (n k : Nat) (h : Got (st ev n) k) : Got (st ev (n + 1)) k := by
  obtain ⟨rcv, hi⟩ := st_inv ev n
  obtain ⟨rcv', h', hm, -⟩ := hi.step (ev n)
  have := hi.got.1 h
  exact h'.got.2 ⟨this.1, hm _ this.2⟩

theorem got_mono (ev : Nat → SysEvent) (k : Nat) {n m : Nat} (hnm : n ≤ m) (h : Got (st ev n) k) : Got (st ev m) k := by
  induction hnm with
  | refl => exact h
  | step _ ih => exact got_step ev _ k ih

theorem pop_inb (r : Rx) : r.pop.inb.cur = r.inb.cur ∧ r.pop.inb.missing = r.inb.missing ∧ r.pop.status = r.status ∧
    r.pop.sockClosed = r.sockClosed ∧ r.pop.out = r.out := by
  unfold Rx.pop; split <;> simp

theorem rx_status (r : Rx) (e : RxEvent) (h : r.status = .running) (hc : r.inb.cur + 1 < 2 ^ 32) (ha : e ≠ .ackTimer) :
    (r.step e).status = .running ∨ (r.step e).status = .tooHigh := by
  cases e with
  | packet seq p =>
    simp only [Rx.step]
    split
    · exact .inl h
    · split
      · split
        · exact .inl h
        · exact .inl (by rw [(pop_inb r).2.2.1]; exact h)
      · split
        · exact .inr rfl
        · rename_i hp
          exfalso
          unfold Inbound.handlePacket at hp
          rw [if_neg (by omega)] at hp
          split at hp
          · dsimp only at hp; split at hp <;> cases hp
          split at hp
          · split at hp <;> cases hp
          split at hp <;> cases hp
        · split
          · exact .inl h
          · exact .inl (by rw [(pop_inb _).2.2.1]; exact h)
  | close =>
    simp only [Rx.step]
    split
    · exact .inl h
    · split
      · exact .inl h
      · exact .inl (by rw [(pop_inb _).2.2.1]; exact h)
  | ackTimer => exact absurd rfl ha
  | pollEmpty =>
    simp only [Rx.step]
    split
    · exact .inl h
    · exact .inl (by rw [(pop_inb _).2.2.1]; exact h)
  | write n =>
    simp only [Rx.step]
    split
    · exact .inl h
    · split
      · exact .inl h
      · split <;> exact .inl h

/-- The stream runs as long as its sequence numbers do not. -/
theorem st_running (ev : Nat → SysEvent) (hlen : ∀ n, (st ev n).chunks.length + 1 < 2 ^ 32) (n : Nat) :
    (st ev n).rx.status = .running := by
  induction n with
  | zero => rfl
  | succ n ih =>
    obtain ⟨rcv, hi⟩ := st_inv ev n
    obtain ⟨rcv', hi'⟩ := st_inv ev (n + 1)
    have hth := hi'.status
    obtain ⟨popped, q, hr⟩ := hi.rx
    have hc : (st ev n).rx.inb.cur + 1 < 2 ^ 32 := by have := hr.inb.cur_le; have := hlen n; omega
    have key : ∀ e, e ≠ .ackTimer → ((st ev n).rx.step e).status = .running ∨ ((st ev n).rx.step e).status = .tooHigh :=
      fun e he => rx_status _ e ih hc he
    simp only [st] at hth ⊢
    cases he : ev n with
    | write d o => rw [he] at hth; simp only [Sys.step] at hth ⊢; split <;> exact ih
    | flush o => simp only [Sys.step]; exact ih
    | resend a b c => simp only [Sys.step]; exact ih
    | deliver i =>
      rw [he] at hth
      simp only [Sys.step] at hth ⊢
      split at hth
      · exact ih
      · exact (key _ (by simp)).resolve_right hth
    | deliverZero p => rw [he] at hth; exact (key _ (by simp)).resolve_right hth
    | emitAck => simp only [Sys.step]; split <;> exact ih
    | deliverAck j =>
      simp only [Sys.step]
      split <;> exact ih
    | rxPoll => rw [he] at hth; exact (key _ (by simp)).resolve_right hth
    | rxWrite k => rw [he] at hth; exact (key _ (by simp)).resolve_right hth
    | rxSockFail => rw [he] at hth; exact (key _ (by simp)).resolve_right hth

/-! ### Acknowledgements -/

theorem acks_step (s : Sys) (e : SysEvent) : (s.step e).acks = s.acks ∨ (s.step e).acks = s.acks ++ [s.rx.inb.ackFields] := by
  cases e <;> simp only [Sys.step] <;> (try split) <;> simp

theorem acks_len (ev : Nat → SysEvent) {n m : Nat} (h : n ≤ m) : (st ev n).acks.length ≤ (st ev m).acks.length := by
  induction h with
  | refl => exact Nat.le_refl _
  | @step m _ ih =>
    have := acks_step (st ev m) (ev m)
    simp only [st]
    rcases this with h | h <;> rw [h] <;> simp <;> omega

/-- Acknowledgements sent after the receiver had packet `k` cover it. -/
theorem acks_cover (ev : Nat → SysEvent) (n k : Nat) (hg : Got (st ev n) k) {m : Nat} (h : n ≤ m) (j a : Nat) (ns : List Nat)
    (hj : (st ev n).acks.length ≤ j) (ha : (st ev m).acks[j]? = some (a, ns)) : k ≤ a ∧ k ∉ ns := by
  induction h with
  | refl => rw [List.getElem?_eq_none hj] at ha; cases ha
  | @step m hm ih =>
    simp only [st] at ha
    rcases acks_step (st ev m) (ev m) with h | h
    · rw [h] at ha; exact ih ha
    · rw [h] at ha
      rcases Nat.lt_or_ge j (st ev m).acks.length with hl | hl
      · rw [List.getElem?_append_left hl] at ha; exact ih ha
      · rw [List.getElem?_append_right hl] at ha
        have h0 : j - (st ev m).acks.length = 0 := by
          rcases Nat.eq_zero_or_pos (j - (st ev m).acks.length) with h | h
          · exact h
          · rw [List.getElem?_eq_none (by simp; omega)] at ha; cases ha
        rw [h0] at ha
        simp only [List.getElem?_cons_zero, Option.some.injEq, Inbound.ackFields, Prod.mk.injEq] at ha
        have := got_mono ev k hm hg
        rw [← ha.1, ← ha.2]
        exact ⟨this.2.1, fun hk => this.2.2 (List.mem_of_mem_take hk)⟩

theorem chunks_step (s : Sys) (e : SysEvent) : ∃ more, (s.step e).chunks = s.chunks ++ more := by
  cases e <;> simp only [Sys.step] <;> (try split) <;> first | exact ⟨_, rfl⟩ | exact ⟨[], by simp⟩

theorem chunks_mono (ev : Nat → SysEvent) {n m : Nat} (h : n ≤ m) : ∃ more, (st ev m).chunks = (st ev n).chunks ++ more := by
  induction h with
  | refl => exact ⟨[], by simp⟩
  | @step m _ ih =>
    obtain ⟨x, hx⟩ := ih
    obtain ⟨y, hy⟩ := chunks_step (st ev m) (ev m)
    exact ⟨x ++ y, by simp only [st]; rw [hy, hx, List.append_assoc]⟩

theorem chunks_len (ev : Nat → SysEvent) {n m : Nat} (h : n ≤ m) : (st ev n).chunks.length ≤ (st ev m).chunks.length := by
  obtain ⟨x, hx⟩ := chunks_mono ev h
  rw [hx]; simp

/-- No acknowledgement is for more than was sent. -/
theorem acks_le (ev : Nat → SysEvent) (n : Nat) : ∀ x ∈ (st ev n).acks, x.1 ≤ (st ev n).chunks.length := by
  induction n with
  | zero => intro x hx; cases hx
  | succ n ih =>
    intro x hx
    have hc := chunks_len ev (Nat.le_succ n)
    simp only [st] at hx hc ⊢
    rcases acks_step (st ev n) (ev n) with h | h
    · rw [h] at hx; exact Nat.le_trans (ih x hx) hc
    · rw [h] at hx
      rcases List.mem_append.1 hx with hx | hx
      · exact Nat.le_trans (ih x hx) hc
      · obtain ⟨rcv, hi⟩ := st_inv ev n
        obtain ⟨popped, q, hr⟩ := hi.rx
        simp only [List.mem_singleton] at hx
        subst hx
        have := hr.inb.cur_le
        simp only [Inbound.ackFields]
        omega

/-! ### The queues of the sender -/

theorem sendNew_unacked (s : Tx) (ps : List DataPkt) (oks : List Bool) (k : Nat) (h : s.unacked.has k = true) :
    (Tx.sendNew s ps oks).1.unacked.has k = true := by
  induction ps generalizing s oks with
  | nil => exact h
  | cons e ps ih =>
    obtain ⟨seq, p⟩ := e
    simp only [Tx.sendNew]
    split
    · exact ih _ _ h
    · split
      · exact ih _ _ (by simp only [OMap.has_ins, h, Bool.or_true])
      · exact ih _ _ h

theorem flushKeys_unacked (s : Tx) (ks : List Nat) (oks : List Bool) (k : Nat) (h : s.unacked.has k = true) :
    (Tx.flushKeys s ks oks).1.unacked.has k = true := by
  induction ks generalizing s oks with
  | nil => exact h
  | cons x ks ih =>
    simp only [Tx.flushKeys]
    split
    · exact ih _ _ h
    · split
      · exact ih _ _ (by simp only [OMap.has_ins, h, Bool.or_true])
      · exact ih _ _ h

theorem flush_holds (s : Tx) (oks : List Bool) (k : Nat) : (s.flush oks).1.holds k ↔ s.holds k := by
  unfold Tx.flush
  dsimp only
  split
  · exact Iff.rfl
  · exact (flushKeys_spec s _ oks).2.2.2.2.2.2.1 k

theorem resend_queues (s : Tx) (e : Nat) (p : Bool) (oks : List Bool) :
    (s.resend e p oks).1.unacked = s.unacked ∧ (s.resend e p oks).1.pending = s.pending := by
  unfold Tx.resend
  dsimp only
  split <;> exact ⟨rfl, rfl⟩

theorem has_filter {β : Type} (p : Nat × β → Bool) (m : OMap β) (k : Nat) (h : OMap.has k (m.filter p) = true) : OMap.has k m = true := by
  rw [← OMap.mem_keys] at h ⊢
  obtain ⟨e, he, rfl⟩ := List.mem_map.1 h
  exact List.mem_map.2 ⟨e, (List.mem_filter.1 he).1, rfl⟩

/-- A packet that the sender has let go of is not held again. -/
theorem unheld_step (ev : Nat → SysEvent) (n k : Nat) (hk : k ≤ (st ev n).chunks.length) (h : ¬ (st ev n).tx.holds k) :
    ¬ (st ev (n + 1)).tx.holds k := by
  obtain ⟨rcv, hi⟩ := st_inv ev n
  simp only [st]
  cases ev n with
  | write d o =>
    simp only [Sys.step]
    split
    · simp only [Tx.packetize]
      intro hh
      rcases ((sendNew_spec _ _ _).2.2.2.2.2.2.1 k).1 hh with h1 | ⟨v, hv⟩
      · exact h h1
      · have := (mem_number.1 hv).1
        have := hi.tx.next
        simp only at *
        omega
    · exact h
  | flush o => simp only [Sys.step]; rw [flush_holds]; exact h
  | resend a b c =>
    simp only [Sys.step]
    unfold Tx.holds
    rw [(resend_queues _ a b c).1, (resend_queues _ a b c).2]
    exact h
  | deliver i => simp only [Sys.step]; split <;> exact h
  | deliverZero p => exact h
  | emitAck => simp only [Sys.step]; split <;> exact h
  | deliverAck j =>
    simp only [Sys.step]
    split
    · exact h
    · dsimp only [Tx.handleAcks]
      split
      · exact h
      · rintro (h1 | h1)
        · exact h (.inl (has_filter _ _ _ h1))
        · exact h (.inr h1)
  | rxPoll => exact h
  | rxWrite k => exact h
  | rxSockFail => exact h

theorem unheld_mono (ev : Nat → SysEvent) (k : Nat) {n m : Nat} (hnm : n ≤ m) (hk : k ≤ (st ev n).chunks.length)
    (h : ¬ (st ev n).tx.holds k) : ¬ (st ev m).tx.holds k := by
  induction hnm with
  | refl => exact h
  | step hm ih => exact unheld_step ev _ k (Nat.le_trans hk (chunks_len ev hm)) ih

/-- A packet that was sent does not go back to those that wait. -/
theorem unacked_step (ev : Nat → SysEvent) (n k : Nat) (h : (st ev n).tx.unacked.has k = true) :
    (st ev (n + 1)).tx.unacked.has k = true ∨ ¬ (st ev (n + 1)).tx.holds k := by
  obtain ⟨rcv, hi⟩ := st_inv ev n
  simp only [st]
  cases ev n with
  | write d o =>
    simp only [Sys.step]
    split
    · exact .inl (sendNew_unacked _ _ _ k h)
    · exact .inl h
  | flush o =>
    simp only [Sys.step, Tx.flush]
    split
    · exact .inl h
    · exact .inl (flushKeys_unacked _ _ _ k h)
  | resend a b c => simp only [Sys.step]; rw [(resend_queues _ a b c).1]; exact .inl h
  | deliver i => simp only [Sys.step]; split <;> exact .inl h
  | deliverZero p => exact .inl h
  | emitAck => simp only [Sys.step]; split <;> exact .inl h
  | deliverAck j =>
    simp only [Sys.step]
    split
    · exact .inl h
    · dsimp only [Tx.handleAcks]
      split
      · exact .inl h
      · rename_i a ns _ _
        by_cases hf : OMap.has k (List.filter (fun e => !acks a ns e.1) (st ev n).tx.unacked) = true
        · exact .inl hf
        · right
          rintro (h1 | h1)
          · exact hf h1
          · rw [hi.tx.disj k h] at h1; cases h1
  | rxPoll => exact .inl h
  | rxWrite k => exact .inl h
  | rxSockFail => exact .inl h

/-- What is left to do for the sender if nothing is written. -/
def mu (t : Tx) : Nat := t.unacked.length + 2 * t.pending.length

theorem flushKeys_mu (s : Tx) (ks : List Nat) (oks : List Bool) :
    (Tx.flushKeys s ks oks).1 = s ∨ mu (Tx.flushKeys s ks oks).1 < mu s := by
  induction ks generalizing s oks with
  | nil => exact .inl rfl
  | cons x ks ih =>
    simp only [Tx.flushKeys]
    split
    · exact ih _ _
    · rename_i p hp
      split
      · right
        have h1 : mu { s with pending := s.pending.del x, unacked := s.unacked.ins x p } < mu s := by
          have h2 := OMap.length_del_lt (k := x) (m := s.pending) (by simp [OMap.has, hp])
          have h3 := OMap.length_ins_le x p s.unacked
          unfold mu
          simp only
          omega
        rcases ih { s with pending := s.pending.del x, unacked := s.unacked.ins x p } oks.tail with h | h
        · dsimp only; rw [h]; exact h1
        · dsimp only; omega
      · exact ih _ _

/-- A step while something waits changes nothing of the queues or leaves less to do. -/
theorem step_mu (s : Sys) (e : SysEvent) (hp : s.tx.pending ≠ []) :
    ((s.step e).tx.unacked = s.tx.unacked ∧ (s.step e).tx.pending = s.tx.pending) ∨ mu (s.step e).tx < mu s.tx := by
  cases e with
  | write d o =>
    simp only [Sys.step]
    rw [if_neg (fun h => hp (List.isEmpty_iff.1 h.1))]
    exact .inl ⟨rfl, rfl⟩
  | flush o =>
    simp only [Sys.step, Tx.flush]
    split
    · exact .inl ⟨rfl, rfl⟩
    · rcases flushKeys_mu s.tx (s.tx.pending.keys.take (min s.tx.pending.length (s.tx.window - s.tx.unacked.length))) o with h | h
      · rw [h]; exact .inl ⟨rfl, rfl⟩
      · exact .inr h
  | resend a b c => exact .inl (resend_queues _ a b c)
  | deliver i => simp only [Sys.step]; split <;> exact .inl ⟨rfl, rfl⟩
  | deliverZero p => exact .inl ⟨rfl, rfl⟩
  | emitAck => simp only [Sys.step]; split <;> exact .inl ⟨rfl, rfl⟩
  | deliverAck j =>
    simp only [Sys.step]
    split
    · exact .inl ⟨rfl, rfl⟩
    · dsimp only [Tx.handleAcks]
      split
      · exact .inl ⟨rfl, rfl⟩
      · rename_i a ns _ _
        rcases Nat.lt_or_ge (List.filter (fun e => !acks a ns e.1) s.tx.unacked).length s.tx.unacked.length with h | h
        · right; unfold mu; simp only; omega
        · left
          refine ⟨?_, rfl⟩
          dsimp only
          exact (List.filter_sublist (l := s.tx.unacked)).eq_of_length (Nat.le_antisymm (List.length_filter_le _ _) h)
  | rxPoll => exact .inl ⟨rfl, rfl⟩
  | rxWrite k => exact .inl ⟨rfl, rfl⟩
  | rxSockFail => exact .inl ⟨rfl, rfl⟩

theorem chain_mu (ev : Nat → SysEvent) {n m : Nat} (h : n ≤ m) (hp : ∀ i, n ≤ i → (st ev i).tx.pending ≠ []) :
    ((st ev m).tx.unacked = (st ev n).tx.unacked ∧ (st ev m).tx.pending = (st ev n).tx.pending) ∨ mu (st ev m).tx < mu (st ev n).tx := by
  induction h with
  | refl => exact .inl ⟨rfl, rfl⟩
  | @step m hm ih =>
    rcases step_mu (st ev m) (ev m) (hp m hm) with h | h
    · rcases ih with ih | ih
      · exact .inl ⟨h.1.trans ih.1, h.2.trans ih.2⟩
      · right; simp only [st]; unfold mu at *; rw [h.1, h.2]; exact ih
    · right
      simp only [st]
      rcases ih with ih | ih
      · have : mu (st ev m).tx = mu (st ev n).tx := by unfold mu; rw [ih.1, ih.2]
        omega
      · omega

/-- A flush that may send does send. -/
theorem flush_moves (s : Tx) (oks : List Bool) (h : oks.headD true = true) (hp : s.pending ≠ []) (hw : s.unacked.length < s.window) :
    mu (s.flush oks).1 < mu s := by
  unfold Tx.flush
  dsimp only
  rw [if_neg (by omega)]
  cases hpe : s.pending with
  | nil => exact absurd hpe hp
  | cons e t =>
    obtain ⟨x, v⟩ := e
    have hk : (OMap.keys ((x, v) :: t)).take (min ((x, v) :: t).length (s.window - s.unacked.length)) =
        x :: (OMap.keys t).take (min ((x, v) :: t).length (s.window - s.unacked.length) - 1) := by
      have : ∃ q, min ((x, v) :: t).length (s.window - s.unacked.length) = q + 1 := ⟨min ((x, v) :: t).length (s.window - s.unacked.length) - 1, by
        simp only [List.length_cons]; omega⟩
      obtain ⟨q, hq⟩ := this
      rw [hq]
      simp [OMap.keys]
    rw [hk]
    simp only [Tx.flushKeys]
    have hg : OMap.get? x s.pending = some v := by rw [hpe]; simp [OMap.get?]
    rw [hg]
    dsimp only
    rw [if_pos h]
    have h1 : mu { s with pending := s.pending.del x, unacked := s.unacked.ins x v } < mu s := by
      have h2 := OMap.length_del_lt (k := x) (m := s.pending) (by simp [OMap.has, hg])
      have h3 := OMap.length_ins_le x v s.unacked
      unfold mu
      simp only
      omega
    dsimp only
    rcases flushKeys_mu { s with pending := s.pending.del x, unacked := s.unacked.ins x v }
      ((OMap.keys t).take (min ((x, v) :: t).length (s.window - s.unacked.length) - 1)) oks.tail with h | h
    · rw [h]; exact h1
    · exact Nat.lt_trans h h1

/-- A packet that arrives while the receiver takes packets is received. -/
theorem deliver_got (ev : Nat → SysEvent) (hlen : ∀ n, (st ev n).chunks.length + 1 < 2 ^ 32) (n i u : Nat) (p : Bytes) (he : ev n = .deliver i)
    (hn : (st ev n).net[i]? = some (u, p)) (hw : (st ev n).rx.writing = none) : Got (st ev (n + 1)) u := by
  obtain ⟨rcv, hi⟩ := st_inv ev n
  obtain ⟨rcv', hi'⟩ := st_inv ev (n + 1)
  obtain ⟨popped, q, hr⟩ := hi.rx
  have hrun := st_running ev hlen n
  have hrun' := st_running ev hlen (n + 1)
  have hnet := hi.net _ (List.mem_of_getElem? hn)
  have hpne : p ≠ [] := hi.chunk_ne p (List.mem_of_getElem? hnet.2)
  have hpe : p.isEmpty = false := by cases p with | nil => exact absurd rfl hpne | cons _ _ => rfl
  have key : ∀ s', (st ev n).rx.inb.handlePacket u p = .ok s' → u ≤ s'.cur ∧ u ∉ s'.missing := by
    intro s' hs
    unfold Inbound.handlePacket at hs
    split at hs
    · cases hs
    split at hs
    · dsimp only at hs; split at hs <;> cases hs <;> exact ⟨Nat.le_refl _, fun h => (OSet.mem_del.1 h).2 rfl⟩
    split at hs
    · split at hs
      · cases hs
      · cases hs; exact ⟨Nat.le_refl _, fun h => (OSet.mem_del.1 h).2 rfl⟩
    split at hs <;> cases hs <;> exact ⟨by dsimp only; omega, fun h => (OSet.mem_del.1 h).2 rfl⟩
  simp only [st, he, Sys.step, hn] at hrun' ⊢
  unfold Got
  refine ⟨hnet.1, ?_⟩
  dsimp only
  simp only [Rx.step, hrun, hw, hpe] at hrun' ⊢
  simp only [ne_eq, not_true_eq_false, Option.isSome_none, Bool.false_eq_true, or_self, if_false] at hrun' ⊢
  cases hh : (st ev n).rx.inb.handlePacket u p with
  | tooHigh => rw [hh] at hrun'; simp at hrun'
  | panic => rw [hh] at hrun'; simp at hrun'
  | ok s' =>
    have := key s' hh
    dsimp only
    split
    · exact this
    · rw [(pop_inb _).1, (pop_inb _).2.1]; exact this

end Emissary.Stream
