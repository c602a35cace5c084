import Verif.Lemmas.StreamLive
/-!
# C244: everything that is written to a stream arrives
-/
namespace Emissary.Stream
open scoped List

/-! ## Specification -/

/-- The packets that step `n` of the schedule puts on the wire. -/
def sentAt (ev : Nat → SysEvent) (n : Nat) : List DataPkt := (st ev (n + 1)).net.drop (st ev n).net.length

/-- A schedule in which nobody stops for good. -/
structure Fair (ev : Nat → SysEvent) : Prop where
  /-- again and again the sender looks for packets that wait, and the channel takes the first -/
  flush : ∀ n, ∃ m, n ≤ m ∧ ∃ oks, ev m = .flush oks ∧ oks.headD true = true
  /-- again and again the timer of the oldest unacknowledged packet runs out, there is a path, and the channel takes it -/
  resend : ∀ n, ∃ m, n ≤ m ∧ ∃ e oks, ev m = .resend (e + 1) true oks ∧ oks.getD 0 true = true
  /-- a packet that is sent again and again arrives, again and again, while the receiver takes packets -/
  network : ∀ x, (∀ n, ∃ m, n ≤ m ∧ x ∈ sentAt ev m) → ∀ n, ∃ m, n ≤ m ∧ ∃ i, ev m = .deliver i ∧ (st ev m).net[i]? = some x ∧
    (st ev m).rx.writing = none
  /-- after any time, some acknowledgement is sent and arrives -/
  ack : ∀ n, ∃ m, n ≤ m ∧ ∃ j, ev m = .deliverAck j ∧ (st ev n).acks.length ≤ j ∧ j < (st ev m).acks.length
  /-- the receiver is polled, and its application reads, again and again -/
  poll : ∀ n, ∃ m, n ≤ m ∧ ev m = .rxPoll
  read : ∀ n, ∃ m, n ≤ m ∧ ∃ k, ev m = .rxWrite k
  /-- and its socket does not fail -/
  socket : ∀ n, ev n ≠ .rxSockFail

/-! ## Lemmas -/

/-- The oldest unacknowledged packet does not stay the same for ever. -/
theorem head_changes {ev : Nat → SysEvent} (hf : Fair ev) (hlen : ∀ n, (st ev n).chunks.length + 1 < 2 ^ 32) (n u : Nat) (p : Bytes)
    (h : ∀ m, n ≤ m → (st ev m).tx.unacked.head? = some (u, p)) : False := by
  have hsent : ∀ N, ∃ m, N ≤ m ∧ (u, p) ∈ sentAt ev m := by
    intro N
    obtain ⟨m, hm, e, oks, he, hok⟩ := hf.resend (max N n)
    refine ⟨m, by omega, ?_⟩
    have hh := h m (by omega)
    obtain ⟨rcv, hi⟩ := st_inv ev m
    have hw := hi.tx.w1
    unfold sentAt
    simp only [st, he, Sys.step, Tx.resend]
    generalize (st ev m).tx = t at *
    cases hu : t.unacked with
    | nil => rw [hu] at hh; cases hh
    | cons x xs =>
      rw [hu] at hh
      simp only [List.head?_cons, Option.some.injEq] at hh
      subst hh
      obtain ⟨w, hw'⟩ : ∃ w, t.window = w + 1 := ⟨t.window - 1, by omega⟩
      rw [hw']
      simp only [List.take_succ_cons, List.isEmpty_cons, Bool.not_true, Bool.or_self, Bool.false_eq_true, if_false]
      rw [List.drop_left]
      simp only [List.zipIdx_cons, List.filter_cons, hok, if_true, List.map_cons]
      exact List.mem_cons_self
  obtain ⟨m1, hm1, i, he1, hn1, hw1⟩ := hf.network (u, p) hsent n
  have hg := deliver_got ev hlen m1 i u p he1 hn1 hw1
  obtain ⟨m2, hm2, j, he2, hj1, hj2⟩ := hf.ack (m1 + 1)
  have hl := acks_le ev m2
  obtain ⟨⟨a, ns⟩, hx⟩ : ∃ x, (st ev m2).acks[j]? = some x := ⟨_, List.getElem?_eq_getElem hj2⟩
  have hc := acks_cover ev (m1 + 1) u hg hm2 j a ns hj1 hx
  have ha := hl _ (List.mem_of_getElem? hx)
  obtain ⟨rcv, hi⟩ := st_inv ev m2
  have hnx := hi.tx.next
  have hh := h (m2 + 1) (by omega)
  simp only [st, he2, Sys.step, hx, Tx.handleAcks] at hh
  rw [if_neg (by simp only at ha; omega)] at hh
  have := List.mem_of_head? hh
  have := (List.mem_filter.1 this).2
  simp [acks, hc.1, hc.2] at this

/-- No packet waits for ever behind others. -/
theorem pending_ends {ev : Nat → SysEvent} (hf : Fair ev) (hlen : ∀ n, (st ev n).chunks.length + 1 < 2 ^ 32) (n : Nat)
    (h : ∀ m, n ≤ m → (st ev m).tx.pending ≠ []) : False := by
  have desc : ∀ i, n ≤ i → ∃ m, i ≤ m ∧ mu (st ev m).tx < mu (st ev i).tx := by
    intro i hi
    obtain ⟨m, hm, oks, he, hok⟩ := hf.flush i
    have hc := chain_mu ev hm (fun x hx => h x (by omega))
    rcases hc with hc | hc
    · rcases Nat.lt_or_ge (st ev m).tx.unacked.length (st ev m).tx.window with hw | hw
      · have := flush_moves (st ev m).tx oks hok (h m (by omega)) hw
        refine ⟨m + 1, by omega, ?_⟩
        simp only [st, he, Sys.step]
        have hmu : mu (st ev m).tx = mu (st ev i).tx := by unfold mu; rw [hc.1, hc.2]
        omega
      · obtain ⟨rcv, hinv⟩ := st_inv ev m
        have := hinv.tx.w1
        cases hu : (st ev m).tx.unacked with
        | nil => rw [hu] at hw; simp at hw; omega
        | cons x xs =>
          obtain ⟨u, p⟩ := x
          by_cases hall : ∀ q, m ≤ q → (st ev q).tx.unacked.head? = some (u, p)
          · exact (head_changes hf hlen m u p hall).elim
          · have : ∃ q, m ≤ q ∧ (st ev q).tx.unacked.head? ≠ some (u, p) := by
              refine Classical.byContradiction fun hno => hall fun q hq => ?_
              exact Classical.byContradiction fun hne => hno ⟨q, hq, hne⟩
            obtain ⟨q, hq, hne⟩ := this
            rcases chain_mu ev hq (fun x hx => h x (by omega)) with hc2 | hc2
            · rw [hc2.1, hu] at hne; exact absurd rfl hne
            · have hmu : mu (st ev m).tx = mu (st ev i).tx := by unfold mu; rw [hc.1, hc.2]
              exact ⟨q, by omega, by omega⟩
    · exact ⟨m, hm, hc⟩
  have : ∀ b i, n ≤ i → mu (st ev i).tx ≤ b → False := by
    intro b
    induction b with
    | zero => intro i hi hb; obtain ⟨m, -, hlt⟩ := desc i hi; omega
    | succ b ih => intro i hi hb; obtain ⟨m, hm, hlt⟩ := desc i hi; exact ih m (by omega) (by omega)
  exact this _ n (Nat.le_refl _) (Nat.le_refl _)

theorem zero_unheld (ev : Nat → SysEvent) (n : Nat) : ¬ (st ev n).tx.holds 0 := by
  obtain ⟨rcv, hi⟩ := st_inv ev n
  rintro (h | h)
  · obtain ⟨v, hv⟩ := Option.isSome_iff_exists.1 h
    have := (hi.tx.uval _ (OMap.mem_of_get? hv)).1; simp at this
  · obtain ⟨v, hv⟩ := Option.isSome_iff_exists.1 h
    have := (hi.tx.pval _ (OMap.mem_of_get? hv)).1; simp at this

/-- The sender lets go of all packets. -/
theorem all_released {ev : Nat → SysEvent} (hf : Fair ev) (hlen : ∀ n, (st ev n).chunks.length + 1 < 2 ^ 32) (K t : Nat)
    (hK : K ≤ (st ev t).chunks.length) : ∃ T, t ≤ T ∧ ∀ j, j ≤ K → ¬ (st ev T).tx.holds j := by
  induction K with
  | zero => exact ⟨t, Nat.le_refl _, fun j hj => by have : j = 0 := by omega
                                                    subst this; exact zero_unheld ev t⟩
  | succ K ih =>
    obtain ⟨T, hT, hrel⟩ := ih (by omega)
    have hcl := chunks_len ev hT
    refine Classical.byContradiction fun hno => ?_
    have hold : ∀ m, T ≤ m → (st ev m).tx.holds (K + 1) := by
      intro m hm
      refine Classical.byContradiction fun hn => hno ⟨m, by omega, ?_⟩
      intro j hj
      rcases Nat.lt_or_ge j (K + 1) with hlt | hge
      · exact unheld_mono ev j hm (by omega) (hrel j (by omega))
      · have : j = K + 1 := by omega
        subst this; exact hn
    by_cases hun : ∃ n, T ≤ n ∧ (st ev n).tx.unacked.has (K + 1) = true
    · obtain ⟨n, hn, hu⟩ := hun
      have hun : ∀ m, n ≤ m → (st ev m).tx.unacked.has (K + 1) = true := by
        intro m hm
        induction hm with
        | refl => exact hu
        | @step m hm ih2 =>
          rcases unacked_step ev m (K + 1) ih2 with h | h
          · exact h
          · exact absurd (hold (m + 1) (by have : n ≤ m := hm; omega)) h
      obtain ⟨rcv, hi⟩ := st_inv ev n
      obtain ⟨p, hp⟩ := Option.isSome_iff_exists.1 hu
      have hval := (hi.tx.uval _ (OMap.mem_of_get? hp)).2
      apply head_changes hf hlen n (K + 1) p
      intro m hm
      have hm2 := hun m hm
      obtain ⟨rcv', hi'⟩ := st_inv ev m
      obtain ⟨more, hmore⟩ := chunks_mono ev hm
      obtain ⟨p', hp'⟩ := Option.isSome_iff_exists.1 hm2
      have hmem := OMap.mem_of_get? hp'
      have hval' := (hi'.tx.uval _ hmem).2
      simp only [Nat.add_sub_cancel] at hval hval'
      rw [hmore, List.getElem?_append_left (by have := lt_of_getElem?_some hval; omega), hval] at hval'
      simp only [Option.some.injEq] at hval'
      subst hval'
      cases hq : (st ev m).tx.unacked with
      | nil => rw [hq] at hmem; cases hmem
      | cons x xs =>
        rw [hq] at hmem
        rcases List.mem_cons.1 hmem with hx | hx
        · simp [hx]
        · exfalso
          have hs := hi'.tx.su
          rw [hq] at hs
          have hlt := (List.pairwise_cons.1 hs).1 _ hx
          simp only at hlt
          refine unheld_mono ev x.1 (Nat.le_trans hn hm) (by omega) (hrel x.1 (by omega)) (.inl ?_)
          rw [← OMap.mem_keys, hq]
          simp [OMap.keys]
    · apply pending_ends hf hlen T
      intro m hm hpe
      rcases hold m hm with h | h
      · exact hun ⟨m, hm, h⟩
      · rw [hpe] at h; simp [OMap.has] at h

/-! ### The receiving application -/

theorem sock_open {ev : Nat → SysEvent} (hs : ∀ n, ev n ≠ .rxSockFail) (n : Nat) : (st ev n).rx.sockClosed = false := by
  induction n with
  | zero => rfl
  | succ n ih =>
    have key : ∀ e, e ≠ .write 0 → ((st ev n).rx.step e).sockClosed = false := by
      intro e he
      cases e with
      | packet seq p =>
        simp only [Rx.step]
        split
        · exact ih
        · split
          · split
            · exact ih
            · rw [(pop_inb _).2.2.2.1]; exact ih
          · split
            · exact ih
            · exact ih
            · split
              · exact ih
              · rw [(pop_inb _).2.2.2.1]; exact ih
      | close =>
        simp only [Rx.step]
        split
        · exact ih
        · split
          · exact ih
          · rw [(pop_inb _).2.2.2.1]; exact ih
      | ackTimer => simp only [Rx.step]; split <;> exact ih
      | pollEmpty =>
        simp only [Rx.step]
        split
        · exact ih
        · rw [(pop_inb _).2.2.2.1]; exact ih
      | write k =>
        simp only [Rx.step]
        split
        · exact ih
        · split
          · exact ih
          · split
            · rename_i hk; subst hk; exact absurd rfl he
            · exact ih
    simp only [st]
    have hs' := hs n
    cases he : ev n with
    | write d o => simp only [Sys.step]; split <;> exact ih
    | flush o => exact ih
    | resend a b c => exact ih
    | deliver i =>
      simp only [Sys.step]
      split
      · exact ih
      · exact key _ (by simp)
    | deliverZero p => exact key _ (by simp)
    | emitAck => simp only [Sys.step]; split <;> exact ih
    | deliverAck j => simp only [Sys.step]; split <;> exact ih
    | rxPoll => exact key _ (by simp)
    | rxWrite k => exact key _ (by simp)
    | rxSockFail => exact absurd he hs'

/-- The message that is being written is not used up, and no message is empty. -/
structure RxOk (r : Rx) : Prop where
  writing : ∀ off m, r.writing = some (off, m) → off < m.length
  ready : ∀ m ∈ r.inb.ready, m ≠ []
  pending : ∀ x v, r.inb.pending.get? x = some v → v ≠ []

theorem pop_ok {r : Rx} (h : RxOk r) : RxOk r.pop := by
  unfold Rx.pop
  split
  · exact h
  · rename_i m rest hm
    refine ⟨?_, fun x hx => h.ready x (by rw [hm]; exact List.mem_cons_of_mem _ hx), h.pending⟩
    intro off m' he
    simp only [Option.some.injEq, Prod.mk.injEq] at he
    obtain ⟨rfl, rfl⟩ := he
    exact List.length_pos_iff.2 (h.ready m (by rw [hm]; exact List.mem_cons_self))

theorem drain_ok : ∀ (fuel next : Nat) (p : OMap Bytes) (r : List Bytes), (∀ x v, p.get? x = some v → v ≠ []) → (∀ m ∈ r, m ≠ []) →
    (∀ x v, (drain fuel next p r).1.get? x = some v → v ≠ []) ∧ ∀ m ∈ (drain fuel next p r).2, m ≠ [] := by
  intro fuel
  induction fuel with
  | zero => intro next p r h1 h2; exact ⟨h1, h2⟩
  | succ fuel ih =>
    intro next p r h1 h2
    simp only [drain]
    split
    · exact ⟨h1, h2⟩
    · rename_i v hv
      refine ih _ _ _ ?_ ?_
      · intro x w hw
        rw [OMap.get?_del] at hw
        split at hw
        · cases hw
        · exact h1 x w hw
      · intro m hm
        rcases List.mem_append.1 hm with hm | hm
        · exact h2 m hm
        · simp only [List.mem_singleton] at hm; subst hm; exact h1 _ _ hv

theorem handle_ok {r : Rx} (h : RxOk r) {seq : Nat} {p : Bytes} {inb : Inbound} (hp : p ≠ []) (hk : r.inb.handlePacket seq p = .ok inb) :
    RxOk { r with inb := inb } := by
  have hins : ∀ x v, (r.inb.pending.ins seq p).get? x = some v → v ≠ [] := by
    intro x v hv
    rw [OMap.get?_ins] at hv
    split at hv
    · simp only [Option.some.injEq] at hv; subst hv; exact hp
    · exact h.pending x v hv
  have happ : ∀ m ∈ r.inb.ready ++ [p], m ≠ [] := by
    intro m hm
    rcases List.mem_append.1 hm with hm | hm
    · exact h.ready m hm
    · simp only [List.mem_singleton] at hm; subst hm; exact hp
  unfold Inbound.handlePacket at hk
  split at hk
  · cases hk
  split at hk
  · dsimp only at hk
    split at hk <;> cases hk
    · exact ⟨h.writing, happ, h.pending⟩
    · exact ⟨h.writing, h.ready, hins⟩
  split at hk
  · split at hk
    · cases hk
    · cases hk; exact ⟨h.writing, h.ready, hins⟩
  split at hk
  · cases hk
    have := drain_ok r.inb.pending.length (seq + 1) r.inb.pending (r.inb.ready ++ [p]) h.pending happ
    exact ⟨h.writing, this.2, this.1⟩
  · cases hk; exact ⟨h.writing, h.ready, hins⟩

theorem rx_step_ok {r : Rx} (h : RxOk r) (e : RxEvent) : RxOk (r.step e) := by
  cases e with
  | packet seq p =>
    simp only [Rx.step]
    split
    · exact h
    · split
      · split
        · exact h
        · exact pop_ok h
      · rename_i hpe
        have hne : p ≠ [] := fun e => hpe (by simp [e])
        split
        · exact ⟨h.writing, h.ready, h.pending⟩
        · exact ⟨h.writing, h.ready, h.pending⟩
        · rename_i inb hok
          split
          · exact handle_ok h hne hok
          · exact pop_ok (handle_ok h hne hok)
  | close =>
    have : RxOk { r with inb := { r.inb with closeRequested := true } } := ⟨h.writing, h.ready, h.pending⟩
    simp only [Rx.step]
    split
    · exact h
    · split
      · exact this
      · exact pop_ok this
  | ackTimer =>
    simp only [Rx.step]
    split
    · exact ⟨h.writing, h.ready, h.pending⟩
    · exact h
  | pollEmpty =>
    simp only [Rx.step]
    split
    · exact h
    · exact pop_ok h
  | write k =>
    simp only [Rx.step]
    split
    · exact h
    · split
      · exact h
      · rename_i off m hw
        split
        · exact ⟨fun o m' he => by simp at he, h.ready, h.pending⟩
        · have hlt := h.writing off m hw
          refine ⟨?_, h.ready, h.pending⟩
          intro o m' he
          dsimp only at he
          split at he
          · cases he
          · rename_i hne
            simp only [Option.some.injEq, Prod.mk.injEq] at he
            obtain ⟨rfl, rfl⟩ := he
            omega

/-- The receiver's part of a step. -/
theorem rx_of_step (s : Sys) (e : SysEvent) : (s.step e).rx = s.rx ∨ ∃ x, (s.step e).rx = s.rx.step x ∧ x ≠ .ackTimer ∧
    ((∀ k, e ≠ .rxWrite k) → e ≠ .rxSockFail → ∀ k, x ≠ .write k) := by
  cases e with
  | write d o => simp only [Sys.step]; split <;> exact .inl rfl
  | flush o => exact .inl rfl
  | resend a b c => exact .inl rfl
  | deliver i =>
    simp only [Sys.step]
    split
    · exact .inl rfl
    · rename_i seq p _
      exact .inr ⟨.packet seq p, rfl, by simp, by simp⟩
  | deliverZero p => exact .inr ⟨.packet 0 p, rfl, by simp, by simp⟩
  | emitAck => simp only [Sys.step]; split <;> exact .inl rfl
  | deliverAck j => simp only [Sys.step]; split <;> exact .inl rfl
  | rxPoll => exact .inr ⟨.pollEmpty, rfl, by simp, by simp⟩
  | rxWrite k => exact .inr ⟨.write (k + 1), rfl, by simp, fun h => absurd rfl (h k)⟩
  | rxSockFail => exact .inr ⟨.write 0, rfl, by simp, fun _ h => absurd rfl h⟩

theorem st_ok (ev : Nat → SysEvent) (n : Nat) : RxOk (st ev n).rx := by
  induction n with
  | zero => exact ⟨by simp [st, Sys.init, Rx.new], by simp [st, Sys.init, Rx.new, Inbound.new], by simp [st, Sys.init, Rx.new, Inbound.new]⟩
  | succ n ih =>
    simp only [st]
    rcases rx_of_step (st ev n) (ev n) with h | ⟨x, h, -⟩
    · rw [h]; exact ih
    · rw [h]; exact rx_step_ok ih x

theorem rx_out (r : Rx) (e : RxEvent) : r.out <+: (r.step e).out := by
  cases e with
  | packet seq p =>
    simp only [Rx.step]
    split
    · exact List.prefix_refl _
    · split
      · split
        · exact List.prefix_refl _
        · rw [(pop_inb r).2.2.2.2]; exact List.prefix_refl _
      · split
        · exact List.prefix_refl _
        · exact List.prefix_refl _
        · split
          · exact List.prefix_refl _
          · rw [(pop_inb _).2.2.2.2]; exact List.prefix_refl _
  | close =>
    simp only [Rx.step]
    split
    · exact List.prefix_refl _
    · split
      · exact List.prefix_refl _
      · rw [(pop_inb _).2.2.2.2]; exact List.prefix_refl _
  | ackTimer => simp only [Rx.step]; split <;> exact List.prefix_refl _
  | pollEmpty =>
    simp only [Rx.step]
    split
    · exact List.prefix_refl _
    · rw [(pop_inb _).2.2.2.2]; exact List.prefix_refl _
  | write k =>
    simp only [Rx.step]
    split
    · exact List.prefix_refl _
    · split
      · exact List.prefix_refl _
      · split
        · exact List.prefix_refl _
        · exact List.prefix_append _ _

theorem out_mono (ev : Nat → SysEvent) {n m : Nat} (h : n ≤ m) : (st ev n).rx.out <+: (st ev m).rx.out := by
  induction h with
  | refl => exact List.prefix_refl _
  | @step m _ ih =>
    refine ih.trans ?_
    simp only [st]
    rcases rx_of_step (st ev m) (ev m) with h | ⟨x, h, -⟩
    · rw [h]; exact List.prefix_refl _
    · rw [h]; exact rx_out _ x

/-- A message that is being written stays until the application reads. -/
theorem writing_stays (r : Rx) (e : RxEvent) (hw : r.writing.isSome) (ha : e ≠ .ackTimer) (h : ∀ k, e ≠ .write k) : r.step e = r := by
  cases e with
  | packet seq p => simp [Rx.step, hw]
  | close => simp [Rx.step, hw]
  | ackTimer => exact absurd rfl ha
  | pollEmpty => simp [Rx.step, hw]
  | write k => exact absurd rfl (h k)

/-- Reading brings at least one byte. -/
theorem read_grows {r : Rx} (h : RxOk r) (hr : r.status = .running) (hw : r.writing.isSome) (k : Nat) :
    r.out.length + 1 ≤ (r.step (.write (k + 1))).out.length := by
  obtain ⟨⟨off, m⟩, hw⟩ := Option.isSome_iff_exists.1 hw
  have := h.writing off m hw
  simp only [Rx.step, hr, hw]
  simp only [ne_eq, not_true_eq_false, if_false, Nat.add_eq_zero_iff, Nat.one_ne_zero, and_false, List.length_append, List.length_take,
    List.length_drop]
  omega

/-- While not all is read, there is something to read. -/
theorem available {ev : Nat → SysEvent} (hs : ∀ n, ev n ≠ .rxSockFail) {t T n : Nat} (hT : t ≤ T) (hn : T ≤ n)
    (hrel : ∀ j, j ≤ (st ev t).chunks.length → ¬ (st ev T).tx.holds j) (hout : (st ev n).rx.out.length < (st ev t).written.length) :
    (st ev n).rx.writing.isSome ∨ (st ev n).rx.inb.ready ≠ [] := by
  obtain ⟨rcv, hi⟩ := st_inv ev n
  obtain ⟨rcvt, hit⟩ := st_inv ev t
  obtain ⟨popped, q, hr⟩ := hi.rx
  obtain ⟨more, hmore⟩ := chunks_mono ev (Nat.le_trans hT hn)
  have hcl := chunks_len ev hT
  refine Classical.byContradiction fun hno => ?_
  simp only [not_or, Bool.not_eq_true, Option.isSome_eq_false_iff, Option.isNone_iff_eq_none, ne_eq, Classical.not_not] at hno
  have hgot : ∀ j, 1 ≤ j → j ≤ (st ev t).chunks.length → j ≤ (st ev n).rx.inb.cur ∧ j ∉ (st ev n).rx.inb.missing := by
    intro j h1 h2
    rcases hi.retained j h1 (by rw [hmore, List.length_append]; omega) with h | h
    · exact (hi.got.2 ⟨h1, h⟩).2
    · exact absurd h (unheld_mono ev j hn (by omega) (hrel j h2))
  have hq : (st ev t).chunks.length ≤ q := by
    rcases Nat.lt_or_ge q (st ev t).chunks.length with hlt | hge
    · exfalso
      have h1 := hgot (q + 1) (by omega) (by omega)
      have := hr.inb.n_le
      have := hr.inb.head (by omega)
      rw [Nat.zero_add] at this
      exact h1.2 this
    · exact hge
  have h1 := hr.out_eq (sock_open hs n)
  have h2 := hr.inb.released
  rw [hno.2, List.append_nil] at h2
  have h3 : (st ev n).rx.remaining = [] := by simp [Rx.remaining, hno.1]
  rw [h3, List.append_nil, List.nil_append, h2, hmore] at h1
  rw [h1, hit.written, List.take_append, List.take_of_length_le hq, List.flatten_append, List.length_append] at hout
  omega

/-- After some time as much is read as was written. -/
theorem read_all {ev : Nat → SysEvent} (hf : Fair ev) (hlen : ∀ n, (st ev n).chunks.length + 1 < 2 ^ 32) (t d : Nat) :
    d ≤ (st ev t).written.length → ∃ m, t ≤ m ∧ d ≤ (st ev m).rx.out.length := by
  obtain ⟨T, hT, hrel⟩ := all_released hf hlen (st ev t).chunks.length t (Nat.le_refl _)
  suffices h : d ≤ (st ev t).written.length → ∃ m, T ≤ m ∧ d ≤ (st ev m).rx.out.length by
    intro hd
    obtain ⟨m, hm, h⟩ := h hd
    exact ⟨m, by omega, h⟩
  induction d with
  | zero => intro _; exact ⟨T, Nat.le_refl _, Nat.zero_le _⟩
  | succ d ih =>
    intro hd
    obtain ⟨m, hm, hle⟩ := ih (by omega)
    refine Classical.byContradiction fun hno => ?_
    have hlt : ∀ i, T ≤ i → (st ev i).rx.out.length ≤ d := by
      intro i hi
      refine Classical.byContradiction fun h => hno ⟨i, hi, by omega⟩
    obtain ⟨m1, hm1, he1⟩ := hf.poll m
    have hw : (st ev (m1 + 1)).rx.writing.isSome := by
      have hav := available hf.socket hT (by omega : T ≤ m1) hrel (by have := hlt m1 (by omega); omega)
      simp only [st, he1, Sys.step]
      rcases hav with hav | hav
      · rw [writing_stays _ _ hav (by simp) (by simp)]; exact hav
      · by_cases hw : (st ev m1).rx.writing.isSome
        · rw [writing_stays _ _ hw (by simp) (by simp)]; exact hw
        · simp only [Rx.step, st_running ev hlen m1, sock_open hf.socket m1]
          simp only [Bool.not_eq_true] at hw
          simp only [hw, ne_eq, not_true_eq_false, Bool.false_eq_true, or_self, if_false]
          unfold Rx.pop
          split
          · rename_i hr; exact absurd hr hav
          · rfl
    obtain ⟨m2, hm2, k, he2⟩ := hf.read (m1 + 1)
    have hgrow : ∀ i k, T ≤ i → (st ev i).rx.writing.isSome → d ≤ (st ev i).rx.out.length → ev i = .rxWrite k → False := by
      intro i k hi hwi hdi hei
      have h1 := read_grows (st_ok ev i) (st_running ev hlen i) hwi k
      have h2 := hlt (i + 1) (by omega)
      simp only [st, hei, Sys.step] at h2
      omega
    have hout : ∀ i, m ≤ i → d ≤ (st ev i).rx.out.length := fun i hi => Nat.le_trans hle (out_mono ev hi).length_le
    have hstay : (st ev m2).rx.writing.isSome := by
      clear he2
      induction hm2 with
      | refl => exact hw
      | @step i hi ih2 =>
        have hi' : m1 + 1 ≤ i := hi
        simp only [st]
        rcases rx_of_step (st ev i) (ev i) with h | ⟨x, h, hx, hx2⟩
        · rw [h]; exact ih2
        · rw [h, writing_stays _ _ ih2 hx (hx2 (fun k hk => hgrow i k (by omega) ih2 (hout i (by omega)) hk) (hf.socket i))]
          exact ih2
    exact hgrow m2 k (by omega) hstay (hout m2 (by omega)) he2

theorem out_pre (ev : Nat → SysEvent) (n : Nat) : (st ev n).rx.out <+: (st ev n).written := by
  obtain ⟨rcv, h⟩ := st_inv ev n
  obtain ⟨popped, q, hr⟩ := h.rx
  rw [h.written]
  refine hr.out_pre.trans ?_
  have h1 : popped <+: (st ev n).chunks := (List.prefix_append popped _).trans (hr.inb.released ▸ List.take_prefix _ _)
  obtain ⟨t, ht⟩ := h1
  rw [← ht]; simp

theorem written_mono (ev : Nat → SysEvent) {n m : Nat} (h : n ≤ m) : (st ev n).written <+: (st ev m).written := by
  obtain ⟨more, hm⟩ := chunks_mono ev h
  obtain ⟨_, h1⟩ := st_inv ev n
  obtain ⟨_, h2⟩ := st_inv ev m
  rw [h1.written, h2.written, hm, List.flatten_append]
  exact List.prefix_append _ _

/-! ## C244 -/

/-- **C244**: in every fair schedule, whatever was written at some time has been read, in order and unchanged, at some later time, on
streams of fewer than 2^32 - 1 packets. -/
theorem C244_everything_arrives {ev : Nat → SysEvent} (hf : Fair ev) (hlen : ∀ n, (st ev n).chunks.length + 1 < 2 ^ 32) (t : Nat) :
    ∃ m, t ≤ m ∧ (st ev t).written <+: (st ev m).rx.out := by
  obtain ⟨m, hm, h⟩ := read_all hf hlen t _ (Nat.le_refl _)
  exact ⟨m, hm, List.prefix_of_prefix_length_le (written_mono ev hm) (out_pre ev m) h⟩

/-- **C244**: once nothing more is written, all that was written has been read after some time, and the sender holds nothing. -/
theorem C244_done {ev : Nat → SysEvent} (hf : Fair ev) (hlen : ∀ n, (st ev n).chunks.length + 1 < 2 ^ 32) (t : Nat)
    (hw : ∀ n, t ≤ n → (st ev n).written = (st ev t).written) :
    ∃ T, ∀ m, T ≤ m → (st ev m).rx.out = (st ev t).written ∧ (st ev m).tx.unacked = [] ∧ (st ev m).tx.pending = [] := by
  obtain ⟨T1, hT1, h⟩ := C244_everything_arrives hf hlen t
  obtain ⟨T2, hT2, hrel⟩ := all_released hf hlen (st ev t).chunks.length t (Nat.le_refl _)
  refine ⟨max T1 T2, fun m hm => ⟨?_, ?_⟩⟩
  · have h1 := h.trans (out_mono ev (by omega : T1 ≤ m))
    have h2 := out_pre ev m
    rw [hw m (by omega)] at h2
    exact (h2.eq_of_length (Nat.le_antisymm h2.length_le h1.length_le))
  · obtain ⟨rcvt, hit⟩ := st_inv ev t
    obtain ⟨rcv, hi⟩ := st_inv ev m
    obtain ⟨more, hmore⟩ := chunks_mono ev (by omega : t ≤ m)
    have hcl : (st ev m).chunks.length = (st ev t).chunks.length := by
      have h1 := hw m (by omega)
      rw [hi.written, hit.written, hmore, List.flatten_append] at h1
      have hnil : more.flatten = [] := by
        have := congrArg List.length h1
        simp only [List.length_append] at this
        exact List.eq_nil_of_length_eq_zero (by omega)
      cases hmo : more with
      | nil => rw [hmore, hmo, List.append_nil]
      | cons c cs =>
        have := hi.chunk_ne c (by rw [hmore, hmo]; simp)
        rw [hmo] at hnil
        simp at hnil
        exact absurd hnil.1 this
    have hno : ∀ k, ¬ (st ev m).tx.holds k := by
      intro k
      rcases Nat.lt_or_ge (st ev t).chunks.length k with hk | hk
      · rintro (h | h)
        · obtain ⟨v, hv⟩ := Option.isSome_iff_exists.1 h
          have := lt_of_getElem?_some (hi.tx.uval _ (OMap.mem_of_get? hv)).2
          simp only at this; omega
        · obtain ⟨v, hv⟩ := Option.isSome_iff_exists.1 h
          have := lt_of_getElem?_some (hi.tx.pval _ (OMap.mem_of_get? hv)).2
          simp only at this; omega
      · exact unheld_mono ev k (by omega : T2 ≤ m) (by have := chunks_len ev hT2; omega) (hrel k hk)
    have hkeys : ∀ q : OMap Bytes, (∀ k, OMap.has k q ≠ true) → q = [] := by
      intro q hq
      cases q with
      | nil => rfl
      | cons x xs => exact absurd (OMap.mem_keys.1 (by simp [OMap.keys] : x.1 ∈ OMap.keys (x :: xs))) (hq x.1)
    exact ⟨hkeys _ fun k hk => hno k (.inl hk), hkeys _ fun k hk => hno k (.inr hk)⟩

/-! ## Example: a fair schedule -/

/-- Three bytes are written; from then on everybody does their part in turn. -/
def turns (n : Nat) : SysEvent :=
  if n = 0 then .write [1, 2, 3] []
  else if n % 7 = 1 then .flush []
  else if n % 7 = 2 then .resend 1 true []
  else if n % 7 = 3 then .deliver 0
  else if n % 7 = 4 then .rxPoll
  else if n % 7 = 5 then .rxWrite 9
  else if n % 7 = 6 then .emitAck
  else .deliverAck (n / 7 - 1)

/-- The state when all is done, but for the acknowledgements that go on. -/
def rest (k : Nat) : Sys :=
  { tx := { next := 2, unacked := [], pending := [], window := 2 }
    rx := { inb := { cur := 1, missing := [], pending := [(1, [1, 2, 3])], ready := [] }, out := [1, 2, 3] }
    net := [(1, [1, 2, 3]), (1, [1, 2, 3])], acks := List.replicate k (1, []), written := [1, 2, 3], chunks := [[1, 2, 3]] }

theorem turns_rest (n : Nat) : st turns (n + 15) = rest ((n + 15) / 7) := by
  induction n with
  | zero =>
    have : (st turns 15).tx = (rest 2).tx ∧ (st turns 15).rx = (rest 2).rx ∧ (st turns 15).net = (rest 2).net ∧
      (st turns 15).acks = (rest 2).acks ∧ (st turns 15).written = (rest 2).written ∧ (st turns 15).chunks = (rest 2).chunks := by
      decide +kernel
    show st turns 15 = rest 2
    cases h : st turns 15
    rw [h] at this
    obtain ⟨h1, h2, h3, h4, h5, h6⟩ := this
    simp only at h1 h2 h3 h4 h5 h6
    subst h1 h2 h3 h4 h5 h6
    rfl
  | succ n ih =>
    have e : st turns (n + 1 + 15) = (st turns (n + 15)).step (turns (n + 15)) := by
      rw [show n + 1 + 15 = (n + 15) + 1 by omega]; rfl
    rw [e, ih]
    generalize hm : n + 15 = m
    rw [show n + 1 + 15 = m + 1 by omega]
    unfold turns
    rw [if_neg (by omega)]
    have hlt : m % 7 < 7 := Nat.mod_lt _ (by decide)
    by_cases h1 : m % 7 = 1
    · rw [if_pos h1, show (m + 1) / 7 = m / 7 by omega]; rfl
    rw [if_neg h1]
    by_cases h2 : m % 7 = 2
    · rw [if_pos h2, show (m + 1) / 7 = m / 7 by omega]; rfl
    rw [if_neg h2]
    by_cases h3 : m % 7 = 3
    · rw [if_pos h3, show (m + 1) / 7 = m / 7 by omega]; rfl
    rw [if_neg h3]
    by_cases h4 : m % 7 = 4
    · rw [if_pos h4, show (m + 1) / 7 = m / 7 by omega]; rfl
    rw [if_neg h4]
    by_cases h5 : m % 7 = 5
    · rw [if_pos h5, show (m + 1) / 7 = m / 7 by omega]; rfl
    rw [if_neg h5]
    by_cases h6 : m % 7 = 6
    · rw [if_pos h6, show (m + 1) / 7 = m / 7 + 1 by omega]
      have : List.replicate (m / 7) ((1 : Nat), ([] : List Nat)) ++ [(1, [])] = List.replicate (m / 7 + 1) (1, []) :=
        List.replicate_succ'.symm
      simp only [Sys.step, rest, if_true, Inbound.ackFields, List.take_nil, this]
    · rw [if_neg h6, show (m + 1) / 7 = m / 7 by omega]
      simp only [Sys.step, rest, List.getElem?_replicate]
      split
      · rfl
      · rename_i a ns hx
        split at hx
        · simp only [Option.some.injEq, Prod.mk.injEq] at hx
          obtain ⟨rfl, rfl⟩ := hx
          rfl
        · cases hx

theorem turns_at (n : Nat) (h : 15 ≤ n) : st turns n = rest (n / 7) := by
  have := turns_rest (n - 15)
  rwa [show n - 15 + 15 = n by omega] at this

theorem turns_fair : Fair turns where
  flush n := ⟨7 * n + 1, by omega, [], by simp [turns, Nat.add_mod], rfl⟩
  resend n := ⟨7 * n + 2, by omega, 0, [], by simp [turns, Nat.add_mod], rfl⟩
  network x hx := by
    obtain ⟨m, hm, h⟩ := hx 15
    unfold sentAt at h
    rw [turns_at m hm, turns_at (m + 1) (by omega)] at h
    simp [rest] at h
  ack n := by
    refine ⟨7 * (n + 15), by omega, n + 15 - 1, ?_, ?_, ?_⟩
    · unfold turns
      rw [if_neg (by omega), if_neg (by omega), if_neg (by omega), if_neg (by omega), if_neg (by omega), if_neg (by omega), if_neg (by omega),
        show 7 * (n + 15) / 7 = n + 15 by omega]
    · have := acks_len turns (show n ≤ n + 15 by omega)
      rw [turns_at (n + 15) (by omega)] at this
      simp only [rest, List.length_replicate] at this
      omega
    · rw [turns_at _ (by omega)]
      simp only [rest, List.length_replicate]
      omega
  poll n := ⟨7 * n + 4, by omega, by simp [turns, Nat.add_mod]⟩
  read n := ⟨7 * n + 5, by omega, 9, by simp [turns, Nat.add_mod]⟩
  socket n := by unfold turns; split <;> (try split) <;> (try split) <;> (try split) <;> (try split) <;> (try split) <;> (try split) <;> simp

theorem turns_short (n : Nat) : (st turns n).chunks.length + 1 < 2 ^ 32 := by
  have := chunks_len turns (show n ≤ n + 15 by omega)
  rw [turns_at (n + 15) (by omega)] at this
  simp only [rest, List.length_singleton] at this
  omega

example := C244_everything_arrives turns_fair turns_short 1
example : (st turns 1).written = [1, 2, 3] ∧ (st turns 1).rx.out = [] := by decide +kernel
example := C244_done turns_fair turns_short 15 (fun n hn => by rw [turns_at n hn, turns_at 15 (by omega)]; rfl)

end Emissary.Stream
