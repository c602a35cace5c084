import Verif.Model.StreamTx
import Verif.Lemmas.StreamRx
import Verif.Lemmas.ListExtra
/-! Invariants of the receive path with its socket, the sender, and the joined system. -/
namespace Emissary.Stream
open Emissary

/-- The part of the current message the socket has not accepted yet. -/
def Rx.remaining (r : Rx) : Bytes :=
  match r.writing with
  | none => []
  | some (off, m) => m.drop off

/-- Invariant of the receive path. -/
structure RxInv (base : Nat) (initial : Bytes) (chunks : List Bytes) (rcv : Nat → Prop) (r : Rx)
    (popped : List Bytes) (n : Nat) : Prop where
  inb : Inv base chunks rcv popped n r.inb
  out_pre : r.out <+: initial ++ popped.flatten
  out_eq : r.sockClosed = false → r.out ++ r.remaining = initial ++ popped.flatten
  closed : r.sockClosed = true → r.writing = none

theorem RxInv.new (base : Nat) (initial : Option Bytes) (chunks : List Bytes) :
    RxInv base (initial.getD []) chunks (fun x => x ≤ base) (Rx.new base initial) [] 0 where
  inb := Inv.init _ _ _ (fun x hx => by omega)
  out_pre := by simp [Rx.new]
  out_eq := by cases initial <;> simp [Rx.new, Rx.remaining]
  closed := by simp [Rx.new]

theorem RxInv.mono {base : Nat} {initial : Bytes} {chunks more : List Bytes} {rcv : Nat → Prop} {r : Rx}
    {popped : List Bytes} {n : Nat} (h : RxInv base initial chunks rcv r popped n) :
    RxInv base initial (chunks ++ more) rcv r popped n :=
  ⟨h.inb.mono, h.out_pre, h.out_eq, h.closed⟩

theorem Inv.pop {base : Nat} {chunks : List Bytes} {rcv : Nat → Prop} {popped : List Bytes} {n : Nat}
    {s : Inbound} {m : Bytes} {rest : List Bytes} (h : Inv base chunks rcv popped n s)
    (hr : s.ready = m :: rest) : Inv base chunks rcv (popped ++ [m]) n { s with ready := rest } where
  n_le := h.n_le
  cur_le := h.cur_le
  released := by rw [← h.released, hr]; simp
  sorted := h.sorted
  miss_rng := h.miss_rng
  cover := h.cover
  head := h.head
  pend_rng := h.pend_rng
  pend_val := h.pend_val
  recvd := h.recvd

theorem RxInv.pop {base : Nat} {initial : Bytes} {chunks : List Bytes} {rcv : Nat → Prop} {r : Rx}
    {popped : List Bytes} {n : Nat} (h : RxInv base initial chunks rcv r popped n)
    (hc : r.sockClosed = false) (hw : r.writing = none) :
    ∃ popped', RxInv base initial chunks rcv r.pop popped' n := by
  unfold Rx.pop
  cases hr : r.inb.ready with
  | nil => exact ⟨popped, h⟩
  | cons m rest =>
    refine ⟨popped ++ [m], h.inb.pop hr, ?_, ?_, ?_⟩
    · simp only [List.flatten_append, List.flatten_cons, List.flatten_nil, List.append_nil]
      rw [← List.append_assoc]
      exact List.IsPrefix.trans h.out_pre (List.prefix_append _ _)
    · intro _
      have := h.out_eq hc
      simp only [Rx.remaining, hw, List.append_nil] at this
      simp [Rx.remaining, this]
    · intro hcl; simp [hc] at hcl

/-- Effect of one event on the invariant. -/
theorem RxInv.step {base : Nat} {initial : Bytes} {chunks : List Bytes} {rcv : Nat → Prop} {r : Rx}
    {popped : List Bytes} {n : Nat} (h : RxInv base initial chunks rcv r popped n) (e : RxEvent)
    (he : ∀ seq p, e = .packet seq p → p ≠ [] → base < seq → chunks[seq - base - 1]? = some p) :
    ∃ rcv' popped' n', RxInv base initial chunks rcv' (r.step e) popped' n' ∧ (∀ x, rcv x → rcv' x) ∧
      (∀ x, rcv' x → rcv x ∨ ∃ p, e = .packet x p) := by
  cases e with
  | packet seq p =>
    simp only [Rx.step]
    split
    · exact ⟨rcv, popped, n, h, fun _ => id, fun _ => .inl⟩
    · rename_i hrun
      have hw : r.writing = none := by
        cases hh : r.writing with
        | none => rfl
        | some _ => exact absurd (.inr (by simp [hh])) hrun
      split
      · split
        · exact ⟨rcv, popped, n, h, fun _ => id, fun _ => .inl⟩
        · rename_i hc
          obtain ⟨popped', h'⟩ := h.pop (by simpa using hc) hw
          exact ⟨rcv, popped', n, h', fun _ => id, fun _ => .inl⟩
      · rename_i hne
        split
        · exact ⟨rcv, popped, n, ⟨h.inb, h.out_pre, h.out_eq, h.closed⟩, fun _ => id, fun _ => .inl⟩
        · exact ⟨rcv, popped, n, ⟨h.inb, h.out_pre, h.out_eq, h.closed⟩, fun _ => id, fun _ => .inl⟩
        · rename_i inb hok
          obtain ⟨n', h', _⟩ := h.inb.handlePacket
            (fun hb => he seq p rfl (by intro hp; simp [hp] at hne) hb) hok
          have h2 : RxInv base initial chunks (fun x => rcv x ∨ x = seq) { r with inb := inb } popped n' :=
            ⟨h', h.out_pre, h.out_eq, h.closed⟩
          split
          · exact ⟨_, popped, n', h2, fun _ => .inl, fun x hx => hx.imp id (fun e => ⟨p, by rw [e]⟩)⟩
          · rename_i hc
            obtain ⟨popped', h3⟩ := h2.pop (by simpa using hc) hw
            exact ⟨_, popped', n', h3, fun _ => .inl, fun x hx => hx.imp id (fun e => ⟨p, by rw [e]⟩)⟩
  | close =>
    simp only [Rx.step]
    split
    · exact ⟨rcv, popped, n, h, fun _ => id, fun _ => .inl⟩
    · rename_i hrun
      have hw : r.writing = none := by
        cases hh : r.writing with
        | none => rfl
        | some _ => exact absurd (.inr (by simp [hh])) hrun
      have h2 : RxInv base initial chunks rcv { r with inb := { r.inb with closeRequested := true } } popped n :=
        ⟨⟨h.inb.n_le, h.inb.cur_le, h.inb.released, h.inb.sorted, h.inb.miss_rng, h.inb.cover, h.inb.head,
          h.inb.pend_rng, h.inb.pend_val, h.inb.recvd⟩, h.out_pre, h.out_eq, h.closed⟩
      split
      · exact ⟨rcv, popped, n, h2, fun _ => id, fun _ => .inl⟩
      · rename_i hc
        obtain ⟨popped', h'⟩ := h2.pop (by simpa using hc) hw
        exact ⟨rcv, popped', n, h', fun _ => id, fun _ => .inl⟩
  | ackTimer =>
    simp only [Rx.step]
    split
    · exact ⟨rcv, popped, n, ⟨h.inb, h.out_pre, h.out_eq, h.closed⟩, fun _ => id, fun _ => .inl⟩
    · exact ⟨rcv, popped, n, h, fun _ => id, fun _ => .inl⟩
  | pollEmpty =>
    simp only [Rx.step]
    split
    · exact ⟨rcv, popped, n, h, fun _ => id, fun _ => .inl⟩
    · rename_i hrun
      have hw : r.writing = none := by
        cases hh : r.writing with
        | none => rfl
        | some _ => exact absurd (.inr (.inl (by simp [hh]))) hrun
      have hc : r.sockClosed = false := by
        cases hh : r.sockClosed with
        | false => rfl
        | true => exact absurd (.inr (.inr hh)) hrun
      obtain ⟨popped', h'⟩ := h.pop hc hw
      exact ⟨rcv, popped', n, h', fun _ => id, fun _ => .inl⟩
  | write k =>
    simp only [Rx.step]
    split
    · exact ⟨rcv, popped, n, h, fun _ => id, fun _ => .inl⟩
    · split
      · exact ⟨rcv, popped, n, h, fun _ => id, fun _ => .inl⟩
      · rename_i off m hw
        split
        · exact ⟨rcv, popped, n, ⟨h.inb, h.out_pre, by simp, by simp⟩, fun _ => id, fun _ => .inl⟩
        · have hc : r.sockClosed = false := by
            cases hh : r.sockClosed with
            | false => rfl
            | true => have := h.closed hh; rw [hw] at this; cases this
          have heq := h.out_eq hc
          simp only [Rx.remaining, hw] at heq
          refine ⟨rcv, popped, n, ⟨h.inb, ?_, ?_, ?_⟩, fun _ => id, fun _ => .inl⟩
          · simp only
            rw [← heq]
            exact (List.prefix_append_right_inj _).mpr (List.take_prefix _ _)
          · intro _
            simp only
            rw [← heq, List.append_assoc]
            congr 1
            by_cases hk : min k (m.length - off) + off = m.length
            · simp only [hk, if_true, Rx.remaining]
              rw [List.append_nil, List.take_of_length_le (by simp; omega)]
            · simp only [hk, if_false, Rx.remaining]
              rw [Nat.add_comm off, Nat.add_comm _ off, ← List.drop_drop]
              exact List.take_append_drop _ _
          · intro hcl; simp [hc] at hcl

/-! ### Sender -/

/-- Sequence numbers the sender still holds. -/
def Tx.holds (t : Tx) (k : Nat) : Prop := t.unacked.has k = true ∨ t.pending.has k = true

/-- Invariant of the sender. -/
structure TxInv (chunks : List Bytes) (t : Tx) : Prop where
  su : OMap.Sorted t.unacked
  sp : OMap.Sorted t.pending
  disj : ∀ k, t.unacked.has k = true → t.pending.has k = false
  w1 : 1 ≤ t.window
  w2 : t.window ≤ maxWindowSize
  ulen : t.unacked.length ≤ maxWindowSize
  plen : t.pending.length ≤ 37
  next : t.next = chunks.length + 1
  uval : ∀ e ∈ t.unacked, 1 ≤ e.1 ∧ chunks[e.1 - 1]? = some e.2
  pval : ∀ e ∈ t.pending, 1 ≤ e.1 ∧ chunks[e.1 - 1]? = some e.2

theorem growWindow_bounds {w : Nat} (h1 : 1 ≤ w) (h2 : w ≤ maxWindowSize) :
    w ≤ growWindow w ∧ growWindow w ≤ maxWindowSize := by
  unfold growWindow expGrowthStop maxWindowSize at *
  split
  · omega
  · split <;> omega

theorem growN_bounds {n w : Nat} (h1 : 1 ≤ w) (h2 : w ≤ maxWindowSize) :
    w ≤ growN n w ∧ growN n w ≤ maxWindowSize := by
  induction n generalizing w with
  | zero => exact ⟨Nat.le_refl _, h2⟩
  | succ n ih =>
    have hb := growWindow_bounds h1 h2
    have := ih (w := growWindow w) (by omega) hb.2
    simp only [growN]; omega

theorem chunksOf_flatten (n fuel : Nat) (hn : 0 < n) (l : Bytes) (hf : l.length ≤ fuel) :
    (chunksOf n fuel l).flatten = l := by
  induction fuel generalizing l with
  | zero => have : l = [] := List.eq_nil_of_length_eq_zero (by omega); subst this; rfl
  | succ fuel ih =>
    simp only [chunksOf]
    split
    · rename_i h; rw [List.isEmpty_iff.mp h]; rfl
    · rename_i h
      have : l ≠ [] := fun e => h (by simp [e])
      have hp : 0 < l.length := List.length_pos_iff.mpr this
      rw [List.flatten_cons, ih _ (by simp; omega), List.take_append_drop]

theorem chunksOf_length (n fuel : Nat) (hn : 0 < n) (l : Bytes) (hf : l.length ≤ fuel) :
    (chunksOf n fuel l).length = (l.length + n - 1) / n := by
  induction fuel generalizing l with
  | zero =>
    have : l = [] := List.eq_nil_of_length_eq_zero (by omega); subst this
    simp [chunksOf]; rw [Nat.div_eq_of_lt (by omega)]
  | succ fuel ih =>
    simp only [chunksOf]
    split
    · rename_i h; rw [List.isEmpty_iff.mp h]; simp; rw [Nat.div_eq_of_lt (by omega)]
    · rename_i h
      have : l ≠ [] := fun e => h (by simp [e])
      have hp : 0 < l.length := List.length_pos_iff.mpr this
      rw [List.length_cons, ih _ (by simp; omega), List.length_drop]
      rcases Nat.lt_or_ge l.length n with h | h
      · have h0 : l.length - n = 0 := by omega
        rw [h0, Nat.div_eq_of_lt (by omega)]
        have : l.length + n - 1 = (l.length - 1) + n := by omega
        rw [this, Nat.add_div_right _ hn, Nat.div_eq_of_lt (by omega)]
      · have : l.length + n - 1 = (l.length - n + n - 1) + n := by omega
        rw [this, Nat.add_div_right _ hn]

theorem chunksOf_ne_nil (n fuel : Nat) (hn : 0 < n) (l : Bytes) : ∀ c ∈ chunksOf n fuel l, c ≠ [] := by
  induction fuel generalizing l with
  | zero => simp [chunksOf]
  | succ fuel ih =>
    simp only [chunksOf]
    split
    · simp
    · rename_i h
      intro c hc
      rcases List.mem_cons.mp hc with hc | hc
      · subst hc; intro e
        have : l ≠ [] := fun e => h (by simp [e])
        rcases List.take_eq_nil_iff.mp e with h | h
        · omega
        · exact this h
      · exact ih _ c hc

theorem mem_number {seq : Nat} {cs : List Bytes} {e : DataPkt} :
    e ∈ number seq cs ↔ seq ≤ e.1 ∧ cs[e.1 - seq]? = some e.2 := by
  induction cs generalizing seq with
  | nil => simp [number]
  | cons c cs ih =>
    simp only [number, List.mem_cons, ih]
    obtain ⟨k, v⟩ := e
    constructor
    · rintro (h | ⟨h1, h2⟩)
      · cases h; simp
      · refine ⟨by omega, ?_⟩
        simp only at h1 h2 ⊢
        rw [show k - seq = (k - (seq + 1)) + 1 by omega]; simpa using h2
    · rintro ⟨h1, h2⟩
      simp only at h1 h2 ⊢
      rcases Nat.lt_or_ge seq k with h | h
      · right
        refine ⟨by omega, ?_⟩
        rw [show k - seq = (k - (seq + 1)) + 1 by omega] at h2; simpa using h2
      · left
        have : k = seq := by omega
        subst this
        simp at h2; simp [h2]

/-- Effect of the packetize send loop. -/
theorem sendNew_spec (s : Tx) (ps : List DataPkt) (oks : List Bool) :
    let r := Tx.sendNew s ps oks
    r.1.next = s.next ∧ r.1.window = s.window ∧
    (OMap.Sorted s.unacked → OMap.Sorted r.1.unacked) ∧
    (OMap.Sorted s.pending → OMap.Sorted r.1.pending) ∧
    (s.unacked.length ≤ maxWindowSize → s.window ≤ maxWindowSize → r.1.unacked.length ≤ maxWindowSize) ∧
    r.1.pending.length ≤ s.pending.length + ps.length ∧
    (∀ k, r.1.holds k ↔ s.holds k ∨ ∃ v, (k, v) ∈ ps) ∧
    (∀ e ∈ r.1.unacked, e ∈ s.unacked ∨ e ∈ ps) ∧
    (∀ e ∈ r.1.pending, e ∈ s.pending ∨ e ∈ ps) ∧
    (∀ e ∈ r.2, e ∈ ps) ∧
    ((∀ k, s.unacked.has k = true → s.pending.has k = false) →
      (∀ e ∈ ps, ¬ s.holds e.1) → (ps.map (·.1)).Nodup →
      ∀ k, r.1.unacked.has k = true → r.1.pending.has k = false) := by
  induction ps generalizing s oks with
  | nil =>
    simp only [Tx.sendNew, List.length_nil, Nat.add_zero, Nat.le_refl, List.not_mem_nil, exists_false, or_false]
    grind
  | cons e ps ih =>
    obtain ⟨seq, p⟩ := e
    have toPending : ∀ oks, let r := Tx.sendNew { s with pending := s.pending.ins seq p } ps oks
        r.1.next = s.next ∧ r.1.window = s.window ∧
        (OMap.Sorted s.unacked → OMap.Sorted r.1.unacked) ∧
        (OMap.Sorted s.pending → OMap.Sorted r.1.pending) ∧
        (s.unacked.length ≤ maxWindowSize → s.window ≤ maxWindowSize → r.1.unacked.length ≤ maxWindowSize) ∧
        r.1.pending.length ≤ s.pending.length + ((seq, p) :: ps).length ∧
        (∀ k, r.1.holds k ↔ s.holds k ∨ ∃ v, (k, v) ∈ (seq, p) :: ps) ∧
        (∀ e ∈ r.1.unacked, e ∈ s.unacked ∨ e ∈ (seq, p) :: ps) ∧
        (∀ e ∈ r.1.pending, e ∈ s.pending ∨ e ∈ (seq, p) :: ps) ∧
        (∀ e ∈ r.2, e ∈ (seq, p) :: ps) ∧
        ((∀ k, s.unacked.has k = true → s.pending.has k = false) →
          (∀ e ∈ (seq, p) :: ps, ¬ s.holds e.1) → (((seq, p) :: ps).map (·.1)).Nodup →
          ∀ k, r.1.unacked.has k = true → r.1.pending.has k = false) := by
      intro oks
      obtain ⟨h1, h2, h3, h4, h5, h6, h7, h8, h9, h10, h11⟩ := ih { s with pending := s.pending.ins seq p } oks
      have hl := OMap.length_ins_le seq p s.pending
      have hholds : ∀ k, Tx.holds { s with pending := s.pending.ins seq p } k ↔ s.holds k ∨ k = seq := by
        intro k; simp only [Tx.holds, OMap.has_ins]; grind
      refine ⟨h1, h2, h3, fun hs => h4 (OMap.sorted_ins hs), h5, by simp only [List.length_cons] at *; omega, ?_, ?_, ?_, ?_, ?_⟩
      · intro k; rw [h7, hholds]; simp only [List.mem_cons, Prod.mk.injEq]; grind
      · intro e he; rcases h8 e he with h | h
        · exact .inl h
        · exact .inr (List.mem_cons_of_mem _ h)
      · intro e he; rcases h9 e he with h | h
        · rcases OMap.mem_ins h with h | h
          · subst h; exact .inr List.mem_cons_self
          · exact .inl h
        · exact .inr (List.mem_cons_of_mem _ h)
      · intro e he; exact List.mem_cons_of_mem _ (h10 e he)
      · intro hd hn hnd
        simp only [List.map_cons, List.nodup_cons] at hnd
        have h0 := hn (seq, p) List.mem_cons_self
        apply h11
        · intro k hk
          have := hd k hk
          rw [OMap.has_ins]
          have hks : k ≠ seq := fun e => h0 (by subst e; exact .inl hk)
          simp [hks, this]
        · intro e he
          rw [hholds]
          have := hn e (List.mem_cons_of_mem _ he)
          have : e.1 ≠ seq := fun h => hnd.1 (by rw [← h]; exact List.mem_map_of_mem he)
          grind
        · exact hnd.2
    simp only [Tx.sendNew]
    split
    · exact toPending oks
    · split
      · rename_i hwin _
        obtain ⟨h1, h2, h3, h4, h5, h6, h7, h8, h9, h10, h11⟩ :=
          ih { s with unacked := s.unacked.ins seq p } oks.tail
        have hl := OMap.length_ins_le seq p s.unacked
        have hholds : ∀ k, Tx.holds { s with unacked := s.unacked.ins seq p } k ↔ s.holds k ∨ k = seq := by
          intro k; simp only [Tx.holds, OMap.has_ins]; grind
        refine ⟨h1, h2, fun hs => h3 (OMap.sorted_ins hs), h4, ?_, by simp only [List.length_cons] at *; omega, ?_, ?_, ?_, ?_, ?_⟩
        · intro ha hb; exact h5 (by simp only; omega) hb
        · intro k; rw [h7, hholds]; simp only [List.mem_cons, Prod.mk.injEq]; grind
        · intro e he; rcases h8 e he with h | h
          · rcases OMap.mem_ins h with h | h
            · subst h; exact .inr List.mem_cons_self
            · exact .inl h
          · exact .inr (List.mem_cons_of_mem _ h)
        · intro e he; rcases h9 e he with h | h
          · exact .inl h
          · exact .inr (List.mem_cons_of_mem _ h)
        · intro e he; rcases List.mem_cons.mp he with h | h
          · subst h; exact List.mem_cons_self
          · exact List.mem_cons_of_mem _ (h10 e h)
        · intro hd hn hnd
          simp only [List.map_cons, List.nodup_cons] at hnd
          have h0 := hn (seq, p) List.mem_cons_self
          apply h11
          · intro k hk
            rw [OMap.has_ins] at hk
            by_cases hks : k = seq
            · subst hks
              cases hp : s.pending.has k with
              | false => rfl
              | true => exact absurd (.inr hp) h0
            · simp only [Bool.or_eq_true, beq_iff_eq, hks, false_or] at hk; exact hd k hk
          · intro e he
            rw [hholds]
            have := hn e (List.mem_cons_of_mem _ he)
            have : e.1 ≠ seq := fun h => hnd.1 (by rw [← h]; exact List.mem_map_of_mem he)
            grind
          · exact hnd.2
      · exact toPending oks.tail

theorem mem_del {β : Type} {k : Nat} {m : OMap β} {e : Nat × β} (h : e ∈ m.del k) : e ∈ m :=
  (List.mem_filter.mp h).1

theorem flushKeys_spec (s : Tx) (ks : List Nat) (oks : List Bool) :
    let r := Tx.flushKeys s ks oks
    r.1.next = s.next ∧ r.1.window = s.window ∧
    (OMap.Sorted s.unacked → OMap.Sorted r.1.unacked) ∧
    (OMap.Sorted s.pending → OMap.Sorted r.1.pending) ∧
    r.1.unacked.length ≤ s.unacked.length + ks.length ∧
    r.1.pending.length ≤ s.pending.length ∧
    (∀ k, r.1.holds k ↔ s.holds k) ∧
    (∀ e ∈ r.1.unacked, e ∈ s.unacked ∨ e ∈ s.pending) ∧
    (∀ e ∈ r.1.pending, e ∈ s.pending) ∧
    (∀ e ∈ r.2, e ∈ s.pending) ∧
    ((∀ k, s.unacked.has k = true → s.pending.has k = false) →
      ∀ k, r.1.unacked.has k = true → r.1.pending.has k = false) := by
  induction ks generalizing s oks with
  | nil => simp only [Tx.flushKeys]; grind
  | cons k ks ih =>
    simp only [Tx.flushKeys]
    have skip : ∀ oks, let r := Tx.flushKeys s ks oks
        r.1.next = s.next ∧ r.1.window = s.window ∧
        (OMap.Sorted s.unacked → OMap.Sorted r.1.unacked) ∧
        (OMap.Sorted s.pending → OMap.Sorted r.1.pending) ∧
        r.1.unacked.length ≤ s.unacked.length + (k :: ks).length ∧
        r.1.pending.length ≤ s.pending.length ∧
        (∀ k, r.1.holds k ↔ s.holds k) ∧
        (∀ e ∈ r.1.unacked, e ∈ s.unacked ∨ e ∈ s.pending) ∧
        (∀ e ∈ r.1.pending, e ∈ s.pending) ∧
        (∀ e ∈ r.2, e ∈ s.pending) ∧
        ((∀ k, s.unacked.has k = true → s.pending.has k = false) →
          ∀ k, r.1.unacked.has k = true → r.1.pending.has k = false) := by
      intro oks
      obtain ⟨h1, h2, h3, h4, h5, h6⟩ := ih s oks
      exact ⟨h1, h2, h3, h4, by simp only [List.length_cons]; omega, h6⟩
    split
    · exact skip oks
    · rename_i p hp
      split
      · obtain ⟨h1, h2, h3, h4, h5, h6, h7, h8, h9, h10, h11⟩ :=
          ih { s with pending := s.pending.del k, unacked := s.unacked.ins k p } oks.tail
        have hl := OMap.length_ins_le k p s.unacked
        have hd : (s.pending.del k).length ≤ s.pending.length := List.length_filter_le _ _
        have hmem := OMap.mem_of_get? hp
        have hhas : s.pending.has k = true := by simp [OMap.has, hp]
        refine ⟨h1, h2, fun h => h3 (OMap.sorted_ins h), fun h => h4 (OMap.sorted_del h),
          by simp only [List.length_cons] at *; omega, by simp only at *; omega, ?_, ?_, ?_, ?_, ?_⟩
        · intro x; rw [h7]; simp only [Tx.holds, OMap.has_ins, OMap.has_del]
          by_cases hx : x = k
          · subst hx; simp [hhas]
          · simp [hx]
        · intro e he; rcases h8 e he with h | h
          · rcases OMap.mem_ins h with h | h
            · subst h; exact .inr hmem
            · exact .inl h
          · exact .inr (mem_del h)
        · intro e he; exact mem_del (h9 e he)
        · intro e he; rcases List.mem_cons.mp he with h | h
          · subst h; exact hmem
          · exact mem_del (h10 e h)
        · intro hdj
          apply h11
          intro x hx
          rw [OMap.has_ins] at hx
          rw [OMap.has_del]
          by_cases hxk : x = k
          · simp [hxk]
          · simp only [Bool.or_eq_true, beq_iff_eq, hxk, false_or] at hx
            simp [hdj x hx]
      · exact skip oks.tail

/-! ### The joined system -/

/-- Invariant of the joined system; `rcv` is the set of sequence numbers the receiver has received. -/
structure SysInv (s : Sys) (rcv : Nat → Prop) : Prop where
  tx : TxInv s.chunks s.tx
  rx : ∃ popped n, RxInv 0 [] s.chunks rcv s.rx popped n
  written : s.written = s.chunks.flatten
  chunk_ne : ∀ c ∈ s.chunks, c ≠ []
  net : ∀ e ∈ s.net, 1 ≤ e.1 ∧ s.chunks[e.1 - 1]? = some e.2
  retained : ∀ k, 1 ≤ k → k ≤ s.chunks.length → rcv k ∨ s.tx.holds k
  acks : ∀ a ∈ s.acks, ∀ k, 1 ≤ k → k ≤ a.1 → k ∉ a.2 → rcv k
  status : s.rx.status ≠ .tooHigh

theorem getElem?_append_some {l m : List Bytes} {i : Nat} {v : Bytes} (h : l[i]? = some v) :
    (l ++ m)[i]? = some v := by
  rw [List.getElem?_append_left]
  · exact h
  · rcases Nat.lt_or_ge i l.length with h' | h'
    · exact h'
    · rw [List.getElem?_eq_none h'] at h; cases h

theorem lt_of_getElem?_some {l : List Bytes} {i : Nat} {v : Bytes} (h : l[i]? = some v) : i < l.length := by
  rcases Nat.lt_or_ge i l.length with h' | h'
  · exact h'
  · rw [List.getElem?_eq_none h'] at h; cases h

/-- The sender never holds more than 165 packets. -/
theorem TxInv.holds_bound {chunks : List Bytes} {t : Tx} (h : TxInv chunks t) {l : List Nat} (hn : l.Nodup)
    (hl : ∀ k ∈ l, t.holds k) : l.length ≤ 165 := by
  have := nodup_length_le (m := t.unacked.keys ++ t.pending.keys) hn (fun k hk => by
    rcases hl k hk with h | h
    · exact List.mem_append_left _ (OMap.mem_keys.mpr h)
    · exact List.mem_append_right _ (OMap.mem_keys.mpr h))
  have h1 := h.ulen; have h2 := h.plen
  simp only [OMap.keys, List.length_append, List.length_map, maxWindowSize] at *
  omega

/-- Packets not received are still held by the sender, so at most 165 are missing. -/
theorem SysInv.missing_bound {s : Sys} {rcv : Nat → Prop} (h : SysInv s rcv) :
    s.rx.inb.missing.length ≤ 165 := by
  obtain ⟨popped, n, hr⟩ := h.rx
  apply h.tx.holds_bound (OSet.nodup hr.inb.sorted)
  intro k hk
  have h1 := hr.inb.miss_rng k hk
  have h2 := hr.inb.cur_le
  rcases h.retained k (by omega) (by omega) with h3 | h3
  · exact absurd hk ((hr.inb.recvd k (by omega)).mp h3).2
  · exact h3

/-- No packet the sender can have sent is ahead of the receiver by more than 165. -/
theorem SysInv.lookahead {s : Sys} {rcv : Nat → Prop} (h : SysInv s rcv) {k : Nat}
    (hk : k ≤ s.chunks.length) : k ≤ s.rx.inb.cur + 166 := by
  obtain ⟨popped, n, hr⟩ := h.rx
  rcases Nat.lt_or_ge (s.rx.inb.cur) k with hlt | hge
  · have := h.tx.holds_bound (l := List.range' (s.rx.inb.cur + 1) (k - (s.rx.inb.cur + 1)))
      (List.nodup_range' ..) (by
        intro x hx
        rw [List.mem_range'_1] at hx
        rcases h.retained x (by omega) (by omega) with h3 | h3
        · have := ((hr.inb.recvd x (by omega)).mp h3).1; omega
        · exact h3)
    simp at this; omega
  · omega

theorem SysInv.init : SysInv Sys.init (fun x => x ≤ 0) where
  tx := by constructor <;> simp [Sys.init, OMap.Sorted, OMap.has, initialWindow, maxWindowSize]
  rx := ⟨[], 0, by simpa [Sys.init] using RxInv.new 0 none []⟩
  written := rfl
  chunk_ne := by simp [Sys.init]
  net := by simp [Sys.init]
  retained := by intro k h1 h2; simp [Sys.init] at h2; omega
  acks := by simp [Sys.init]
  status := by simp [Sys.init, Rx.new]

/-- Replacing the receiver by the result of a legal event. -/
theorem SysInv.rxStep {s : Sys} {rcv : Nat → Prop} (h : SysInv s rcv) (e : RxEvent)
    (he : ∀ seq p, e = .packet seq p → p ≠ [] → 0 < seq → s.chunks[seq - 0 - 1]? = some p) :
    ∃ rcv', SysInv { s with rx := s.rx.step e } rcv' ∧ (∀ x, rcv x → rcv' x) ∧
      (∀ x, rcv' x → rcv x ∨ ∃ p, e = .packet x p) := by
  obtain ⟨popped, n, hr⟩ := h.rx
  obtain ⟨rcv', popped', n', h', hm, hu⟩ := hr.step e he
  refine ⟨rcv', ⟨h.tx, ⟨popped', n', h'⟩, h.written, h.chunk_ne, h.net, ?_, ?_, ?_⟩, hm, hu⟩
  · intro k h1 h2
    rcases h.retained k h1 h2 with h3 | h3
    · exact .inl (hm k h3)
    · exact .inr h3
  · intro a ha k h1 h2 h3
    exact hm k (h.acks a ha k h1 h2 h3)
  · -- the packet is never too far ahead
    show (s.rx.step e).status ≠ .tooHigh
    have hst := h.status
    cases e with
    | packet seq p =>
      simp only [Rx.step]
      split
      · exact hst
      · split
        · split
          · exact hst
          · unfold Rx.pop; split <;> exact hst
        · rename_i hne
          split
          · rename_i hth
            exfalso
            unfold Inbound.handlePacket at hth
            split at hth
            · cases hth
            split at hth
            · simp only at hth; split at hth <;> cases hth
            split at hth
            · rename_i hgt
              split at hth
              · rename_i hla
                have hv := he seq p rfl (fun e => hne (by simp [e])) (by omega)
                have := h.lookahead (k := seq) (by have := lt_of_getElem?_some hv; omega)
                unfold maxLookahead maxWindowSize at hla
                omega
              · cases hth
            · split at hth <;> cases hth
          · simp
          · split
            · exact hst
            · unfold Rx.pop; split <;> exact hst
    | close =>
      simp only [Rx.step]
      split
      · exact hst
      · split
        · exact hst
        · unfold Rx.pop; split <;> exact hst
    | ackTimer =>
      simp only [Rx.step]
      split
      · simp
      · exact hst
    | pollEmpty =>
      simp only [Rx.step]
      split
      · exact hst
      · unfold Rx.pop; split <;> exact hst
    | write k =>
      simp only [Rx.step]
      split
      · exact hst
      · split
        · exact hst
        · split <;> exact hst

theorem SysInv.step {s : Sys} {rcv : Nat → Prop} (h : SysInv s rcv) (e : SysEvent) :
    ∃ rcv', SysInv (s.step e) rcv' ∧ (∀ x, rcv x → rcv' x) ∧
      (∀ x, rcv' x → rcv x ∨ x = 0 ∨ ∃ i p, e = .deliver i ∧ s.net[i]? = some (x, p)) := by
  cases e with
  | write data oks =>
    simp only [Sys.step]
    split
    · rename_i hcond
      obtain ⟨hpe, hne, hlen⟩ := hcond
      refine ⟨rcv, ?_, fun _ => id, fun _ => .inl⟩
      have hpe' : s.tx.pending = [] := List.isEmpty_iff.mp hpe
      obtain ⟨popped, n, hr⟩ := h.rx
      have hcl := chunksOf_length mtu data.length (by decide) data (Nat.le_refl _)
      have hcf := chunksOf_flatten mtu data.length (by decide) data (Nat.le_refl _)
      have hcn := chunksOf_ne_nil mtu data.length (by decide) data
      simp only [Tx.packetize]
      generalize hcs : chunksOf mtu data.length data = cs at *
      have hclen : cs.length ≤ 37 := by
        rw [hcl]; unfold mtu readBufferSize at *; omega
      obtain ⟨h1, h2, h3, h4, h5, h6, h7, h8, h9, h10, h11⟩ :=
        sendNew_spec { s.tx with next := s.tx.next + cs.length } (number s.tx.next cs) oks
      have hnum : ∀ e ∈ number s.tx.next cs, 1 ≤ e.1 ∧ (s.chunks ++ cs)[e.1 - 1]? = some e.2 := by
        intro e he
        have := mem_number.mp he
        rw [h.tx.next] at this
        refine ⟨by omega, ?_⟩
        rw [List.getElem?_append_right (by omega), ← this.2]; congr 1; omega
      have hnl : (number s.tx.next cs).length = cs.length := by
        generalize s.tx.next = q
        clear hcl hcf hcn hcs hclen h1 h2 h3 h4 h5 h6 h7 h8 h9 h10 h11 hnum
        induction cs generalizing q with
        | nil => rfl
        | cons c cs ih => simp [number, ih]
      have hnn : ((number s.tx.next cs).map (·.1)).Nodup := by
        have : ∀ q, (number q cs).map (·.1) = List.range' q cs.length := by
          clear hcl hcf hcn hcs hclen h1 h2 h3 h4 h5 h6 h7 h8 h9 h10 h11 hnum hnl
          induction cs with
          | nil => intro q; rfl
          | cons c cs ih => intro q; simp [number, ih, List.range'_succ]
        rw [this]; exact List.nodup_range' ..
      have hfresh : ∀ e ∈ number s.tx.next cs, ¬ Tx.holds { s.tx with next := s.tx.next + cs.length } e.1 := by
        intro e he hh
        have hge := (mem_number.mp he).1
        have hnx := h.tx.next
        rcases hh with hh | hh
        · obtain ⟨v, hv⟩ := Option.isSome_iff_exists.mp hh
          have := h.tx.uval _ (OMap.mem_of_get? hv)
          have := lt_of_getElem?_some this.2
          simp only at this; omega
        · obtain ⟨v, hv⟩ := Option.isSome_iff_exists.mp hh
          have := h.tx.pval _ (OMap.mem_of_get? hv)
          have := lt_of_getElem?_some this.2
          simp only at this; omega
      constructor
      · constructor
        · exact h3 h.tx.su
        · exact h4 h.tx.sp
        · exact h11 h.tx.disj hfresh hnn
        · rw [h2]; exact h.tx.w1
        · rw [h2]; exact h.tx.w2
        · exact h5 h.tx.ulen h.tx.w2
        · exact Nat.le_trans h6 (by simp only [hpe', List.length_nil, hnl]; omega)
        · rw [h1]; simp only [List.length_append]; have := h.tx.next; omega
        · intro e he
          rcases h8 e he with he | he
          · exact ⟨(h.tx.uval e he).1, getElem?_append_some (h.tx.uval e he).2⟩
          · exact hnum e he
        · intro e he
          rcases h9 e he with he | he
          · exact ⟨(h.tx.pval e he).1, getElem?_append_some (h.tx.pval e he).2⟩
          · exact hnum e he
      · exact ⟨popped, n, hr.mono⟩
      · simp only [List.flatten_append, hcf]; rw [h.written]
      · intro c hc
        rcases List.mem_append.mp hc with hc | hc
        · exact h.chunk_ne c hc
        · exact hcn c hc
      · intro e he
        rcases List.mem_append.mp he with he | he
        · exact ⟨(h.net e he).1, getElem?_append_some (h.net e he).2⟩
        · exact hnum e (h10 e he)
      · intro k hk1 hk2
        simp only [List.length_append] at hk2
        rcases Nat.lt_or_ge s.chunks.length k with hlt | hge
        · right
          rw [h7]; right
          have : k - s.tx.next < cs.length := by have := h.tx.next; omega
          exact ⟨cs[k - s.tx.next], mem_number.mpr ⟨by have := h.tx.next; simp only; omega, by simp [this]⟩⟩
        · rcases h.retained k hk1 hge with h' | h'
          · exact .inl h'
          · right; rw [h7]; left; exact h'
      · exact h.acks
      · exact h.status
    · exact ⟨rcv, h, fun _ => id, fun _ => .inl⟩
  | flush oks =>
    refine ⟨rcv, ?_, fun _ => id, fun _ => .inl⟩
    simp only [Sys.step, Tx.flush]
    split
    · simpa using h
    · rename_i hav
      obtain ⟨h1, h2, h3, h4, h5, h6, h7, h8, h9, h10, h11⟩ :=
        flushKeys_spec s.tx (s.tx.pending.keys.take (min s.tx.pending.length (s.tx.window - s.tx.unacked.length))) oks
      constructor
      · constructor
        · exact h3 h.tx.su
        · exact h4 h.tx.sp
        · exact h11 h.tx.disj
        · rw [h2]; exact h.tx.w1
        · rw [h2]; exact h.tx.w2
        · have := h.tx.w2
          refine Nat.le_trans h5 ?_
          simp only [List.length_take]
          omega
        · exact Nat.le_trans h6 h.tx.plen
        · rw [h1]; exact h.tx.next
        · intro e he; rcases h8 e he with he | he
          · exact h.tx.uval e he
          · exact h.tx.pval e he
        · intro e he; exact h.tx.pval e (h9 e he)
      · exact h.rx
      · exact h.written
      · exact h.chunk_ne
      · intro e he; rcases List.mem_append.mp he with he | he
        · exact h.net e he
        · exact h.tx.pval e (h10 e he)
      · intro k hk1 hk2; rw [h7]; exact h.retained k hk1 hk2
      · exact h.acks
      · exact h.status
  | resend ex path oks =>
    refine ⟨rcv, ?_, fun _ => id, fun _ => .inl⟩
    simp only [Sys.step, Tx.resend]
    split
    · simpa using h
    · constructor
      · have hw1 := h.tx.w1
        have hw2 := h.tx.w2
        exact ⟨h.tx.su, h.tx.sp, h.tx.disj, by simp only; split <;> omega, by simp only; split <;> omega,
          h.tx.ulen, h.tx.plen, h.tx.next, h.tx.uval, h.tx.pval⟩
      · exact h.rx
      · exact h.written
      · exact h.chunk_ne
      · intro e he; rcases List.mem_append.mp he with he | he
        · exact h.net e he
        · obtain ⟨e', he', rfl⟩ := List.mem_map.mp he
          have h1 := (List.mem_filter.mp he').1
          have h2 := List.mem_of_mem_take (List.mem_of_mem_take (List.fst_mem_of_mem_zipIdx h1))
          exact h.tx.uval _ h2
      · exact h.retained
      · exact h.acks
      · exact h.status
  | deliver i =>
    simp only [Sys.step]
    split
    · exact ⟨rcv, h, fun _ => id, fun _ => .inl⟩
    · rename_i seq p hi
      have hmem := List.mem_of_getElem? hi
      have hv := h.net _ hmem
      obtain ⟨rcv', h1, h2, h3⟩ := h.rxStep (.packet seq p) (fun seq' p' e _ _ => by
        cases e; simpa using hv.2)
      refine ⟨rcv', h1, h2, fun x hx => (h3 x hx).imp id (fun ⟨p', e⟩ => ?_)⟩
      cases e
      exact .inr ⟨i, p, rfl, hi⟩
  | deliverZero p =>
    obtain ⟨rcv', h1, h2, h3⟩ := h.rxStep (.packet 0 p) (fun seq' p' e _ hs => by cases e; omega)
    refine ⟨rcv', h1, h2, fun x hx => (h3 x hx).imp id (fun ⟨p', e⟩ => ?_)⟩
    cases e
    exact .inl rfl
  | emitAck =>
    refine ⟨rcv, ?_, fun _ => id, fun _ => .inl⟩
    simp only [Sys.step]
    split
    · refine ⟨h.tx, h.rx, h.written, h.chunk_ne, h.net, h.retained, ?_, h.status⟩
      intro a ha
      rcases List.mem_append.mp ha with ha | ha
      · exact h.acks a ha
      · rw [List.mem_singleton] at ha
        subst ha
        intro k h1 h2 h3
        have hb := h.missing_bound
        obtain ⟨popped, n, hr⟩ := h.rx
        simp only [Inbound.ackFields] at h2 h3
        rw [List.take_of_length_le (by unfold maxNacks; omega)] at h3
        exact (hr.inb.recvd k (by omega)).mpr ⟨h2, h3⟩
    · exact h
  | deliverAck i =>
    refine ⟨rcv, ?_, fun _ => id, fun _ => .inl⟩
    simp only [Sys.step]
    split
    · exact h
    · rename_i a ns hi
      have hmem := List.mem_of_getElem? hi
      have hsound := h.acks _ hmem
      simp only [Tx.handleAcks]
      split
      · exact h
      · have hkeep : ∀ k, OMap.has k (s.tx.unacked.filter (fun e => !Stream.acks a ns e.1)) =
            (OMap.has k s.tx.unacked && !Stream.acks a ns k) := by
          intro k
          generalize s.tx.unacked = u
          induction u with
          | nil => simp [OMap.has]
          | cons e u ih =>
            obtain ⟨q, v⟩ := e
            simp only [List.filter_cons]
            by_cases hq : Stream.acks a ns q = true
            · simp only [hq, Bool.not_true, Bool.false_eq_true, if_false, ih]
              by_cases hk : k = q
              · subst hk; simp [hq]
              · simp [OMap.has, OMap.get?, hk]
            · simp only [hq, Bool.not_false, if_true]
              by_cases hk : k = q
              · subst hk; simp [OMap.has, OMap.get?, hq]
              · simp only [OMap.has, OMap.get?, hk, if_false] at ih ⊢
                exact ih
        have hg := growN_bounds (n := (s.tx.unacked.filter (fun e => Stream.acks a ns e.1)).length) h.tx.w1 h.tx.w2
        constructor
        · constructor
          · exact List.Pairwise.filter _ h.tx.su
          · exact h.tx.sp
          · intro k hk
            simp only [hkeep, Bool.and_eq_true] at hk
            exact h.tx.disj k hk.1
          · have := h.tx.w1; simp only; omega
          · exact hg.2
          · have := List.length_filter_le (fun e => !Stream.acks a ns e.1) s.tx.unacked
            have := h.tx.ulen
            simp only; omega
          · exact h.tx.plen
          · exact h.tx.next
          · intro e he; exact h.tx.uval e (List.mem_filter.mp he).1
          · exact h.tx.pval
        · exact h.rx
        · exact h.written
        · exact h.chunk_ne
        · exact h.net
        · intro k hk1 hk2
          rcases h.retained k hk1 hk2 with h' | h' | h'
          · exact .inl h'
          · cases hack : Stream.acks a ns k with
            | true =>
              left
              simp only [Stream.acks, Bool.and_eq_true, decide_eq_true_eq, Bool.not_eq_true',
                List.contains_eq_mem, decide_eq_false_iff_not] at hack
              exact hsound k hk1 hack.1 hack.2
            | false => right; left; simp only [hkeep]; simp [h', hack]
          · exact .inr (.inr h')
        · exact h.acks
        · exact h.status
  | rxPoll =>
    obtain ⟨rcv', h1, h2, h3⟩ := h.rxStep .pollEmpty (fun _ _ e => by cases e)
    exact ⟨rcv', h1, h2, fun x hx => (h3 x hx).imp id (fun ⟨p', e⟩ => by cases e)⟩
  | rxWrite n =>
    obtain ⟨rcv', h1, h2, h3⟩ := h.rxStep (.write (n + 1)) (fun _ _ e => by cases e)
    exact ⟨rcv', h1, h2, fun x hx => (h3 x hx).imp id (fun ⟨p', e⟩ => by cases e)⟩
  | rxSockFail =>
    obtain ⟨rcv', h1, h2, h3⟩ := h.rxStep (.write 0) (fun _ _ e => by cases e)
    exact ⟨rcv', h1, h2, fun x hx => (h3 x hx).imp id (fun ⟨p', e⟩ => by cases e)⟩

/-- Packets on the wire stay there. -/
theorem Sys.net_mono (s : Sys) (e : SysEvent) : s.net <+: (s.step e).net := by
  cases e <;> simp only [Sys.step] <;> (try split) <;> simp

/-- Every reachable state satisfies the invariant, for a set of received packets each of which was
delivered. -/
theorem SysInv.run (evs : List SysEvent) : ∃ rcv, SysInv (Sys.run evs) rcv ∧
    ∀ x, rcv x → x = 0 ∨ ∃ i p, SysEvent.deliver i ∈ evs ∧ (Sys.run evs).net[i]? = some (x, p) := by
  unfold Sys.run
  have : ∀ (rest done : List SysEvent) s rcv, SysInv s rcv →
      (∀ x, rcv x → x = 0 ∨ ∃ i p, SysEvent.deliver i ∈ done ∧ s.net[i]? = some (x, p)) →
      ∃ rcv', SysInv (rest.foldl Sys.step s) rcv' ∧
        ∀ x, rcv' x → x = 0 ∨ ∃ i p, SysEvent.deliver i ∈ done ++ rest ∧
          (rest.foldl Sys.step s).net[i]? = some (x, p) := by
    intro rest
    induction rest with
    | nil => intro done s rcv h h2; exact ⟨rcv, h, by simpa using h2⟩
    | cons e rest ih =>
      intro done s rcv h h2
      obtain ⟨rcv', h', _, h3⟩ := h.step e
      obtain ⟨more, hmore⟩ := s.net_mono e
      have hup : ∀ {i : Nat} {v : DataPkt}, s.net[i]? = some v → (s.step e).net[i]? = some v := by
        intro i v hv
        rw [← hmore, List.getElem?_append_left]
        · exact hv
        · rcases Nat.lt_or_ge i s.net.length with h' | h'
          · exact h'
          · rw [List.getElem?_eq_none h'] at hv; cases hv
      have := ih (done ++ [e]) (s.step e) rcv' h' (by
        intro x hx
        rcases h3 x hx with h4 | h4 | ⟨i, p, he, hi⟩
        · rcases h2 x h4 with h5 | ⟨i, p, hd, hi⟩
          · exact .inl h5
          · exact .inr ⟨i, p, List.mem_append_left _ hd, hup hi⟩
        · exact .inl h4
        · exact .inr ⟨i, p, by simp [he], hup hi⟩)
      simpa using this
  simpa using this evs [] Sys.init _ SysInv.init (by intro x hx; left; omega)

end Emissary.Stream
