import Verif.Lemmas.StreamSys
/-! Facts about the receive half that hold for arbitrary (also inconsistent) packets. -/
namespace Emissary.Stream
open Emissary

/-- Bookkeeping invariant that does not mention payloads. -/
structure BInv (base : Nat) (rcv : Nat → Prop) (s : Inbound) : Prop where
  base_le : base ≤ s.cur
  sorted : OSet.Sorted s.missing
  miss_rng : ∀ x ∈ s.missing, base < x ∧ x < s.cur
  pend_rng : ∀ x, s.pending.has x = true → x ≤ s.cur
  recvd : ∀ x, base < x → (rcv x ↔ x ≤ s.cur ∧ x ∉ s.missing)

theorem BInv.new (base : Nat) : BInv base (fun _ => False) (Inbound.new base) where
  base_le := by simp [Inbound.new]
  sorted := by simp [Inbound.new, OSet.Sorted]
  miss_rng := by simp [Inbound.new]
  pend_rng := by simp [Inbound.new, OMap.has]
  recvd := by intro x hx; simp [Inbound.new]; omega

theorem drain_has (fuel next : Nat) (p : OMap Bytes) (r : List Bytes) (x : Nat) :
    (drain fuel next p r).1.has x = true → p.has x = true := by
  induction fuel generalizing next p r with
  | zero => exact id
  | succ fuel ih =>
    simp only [drain]
    split
    · exact id
    · intro h
      have := ih _ _ _ h
      rw [OMap.has_del] at this
      simp only [Bool.and_eq_true] at this
      exact this.2

theorem BInv.handlePacket {base : Nat} {rcv : Nat → Prop} {s s' : Inbound} {seq : Nat} {p : Bytes}
    (h : BInv base rcv s) (hs : s.handlePacket seq p = .ok s') :
    BInv base (fun x => rcv x ∨ x = seq) s' := by
  have hb := h.base_le
  have hm := h.miss_rng
  have hp := h.pend_rng
  have hr := h.recvd
  unfold Inbound.handlePacket at hs
  split at hs
  · cases hs
  split at hs
  · rename_i hseq
    simp only at hs
    have hmem : ∀ x, x ∈ OSet.del seq s.missing ↔ x ∈ s.missing := by
      intro x; rw [OSet.mem_del]
      constructor
      · exact fun h => h.1
      · exact fun hx => ⟨hx, by have := hm x hx; omega⟩
    split at hs <;> cases hs
    · refine ⟨by simp only; omega, OSet.sorted_del h.sorted, ?_, ?_, ?_⟩
      · intro x hx; have := hm x ((hmem x).mp hx); simp only; omega
      · intro x hx; have := hp x hx; simp only; omega
      · intro x hx; have := hr x hx; simp only [hmem]
        have := hm x
        grind
    · refine ⟨by simp only; omega, OSet.sorted_del h.sorted, ?_, ?_, ?_⟩
      · intro x hx; have := hm x ((hmem x).mp hx); simp only; omega
      · intro x hx; simp only [OMap.has_ins] at hx
        have := hp x
        simp only; grind
      · intro x hx; have := hr x hx; simp only [hmem]
        have := hm x
        grind
  split at hs
  · rename_i hne hgt
    split at hs
    · cases hs
    · cases hs
      have hpf : ∀ x, s.cur < x → s.pending.has x = false := by
        intro x hx
        cases hh : s.pending.has x with
        | false => rfl
        | true => have := hp x hh; omega
      have hmem : ∀ x, x ∈ OSet.del seq (markMissing s.pending (s.cur + 1) (seq - (s.cur + 1)) s.missing) ↔
          x ∈ s.missing ∨ (s.cur < x ∧ x < seq) := by
        intro x; rw [OSet.mem_del, mem_markMissing]
        have := hm x
        have := hpf x
        constructor
        · rintro ⟨h1 | h1, h2⟩
          · exact .inl h1
          · right; omega
        · rintro (h1 | h1)
          · have := this
            exact ⟨.inl h1, by have := hm x h1; omega⟩
          · exact ⟨.inr ⟨by omega, by omega, hpf x h1.1⟩, by omega⟩
      refine ⟨by simp only; omega, OSet.sorted_del (sorted_markMissing h.sorted), ?_, ?_, ?_⟩
      · intro x hx
        rcases (hmem x).mp hx with hx | hx
        · have := hm x hx; simp only; omega
        · simp only; omega
      · intro x hx; simp only [OMap.has_ins] at hx
        have := hp x
        simp only; grind
      · intro x hx; have := hr x hx; simp only [hmem]
        have := hm x
        grind
  split at hs
  · simp only at hs
    cases hs
    refine ⟨hb, OSet.sorted_del h.sorted, ?_, ?_, ?_⟩
    · intro x hx; exact hm x (OSet.mem_del.mp hx).1
    · intro x hx; exact hp x (drain_has _ _ _ _ _ hx)
    · intro x hx; have := hr x hx; simp only [OSet.mem_del]
      grind
  · cases hs
    refine ⟨hb, OSet.sorted_del h.sorted, ?_, ?_, ?_⟩
    · intro x hx; exact hm x (OSet.mem_del.mp hx).1
    · intro x hx; simp only [OMap.has_ins] at hx
      have := hp x
      simp only; grind
    · intro x hx; have := hr x hx; simp only [OSet.mem_del]
      grind

theorem BInv.receive {base : Nat} (pkts : List (Nat × Bytes)) : ∀ {rcv : Nat → Prop} {s s' : Inbound},
    BInv base rcv s → s.receive pkts = .ok s' →
    BInv base (fun x => rcv x ∨ ∃ p, (x, p) ∈ pkts) s' := by
  induction pkts with
  | nil => intro rcv s s' h hs; cases hs; simpa using h
  | cons e pkts ih =>
    obtain ⟨seq, p⟩ := e
    intro rcv s s' h hs
    simp only [Inbound.receive] at hs
    split at hs
    · rename_i s1 h1
      have := ih (h.handlePacket h1) hs
      have heq : (fun x => (rcv x ∨ x = seq) ∨ ∃ p, (x, p) ∈ pkts) =
          (fun x => rcv x ∨ ∃ q, (x, q) ∈ (seq, p) :: pkts) := by
        funext x
        apply propext
        constructor
        · rintro ((h | h) | ⟨q, h⟩)
          · exact .inl h
          · exact .inr ⟨p, by simp [h]⟩
          · exact .inr ⟨q, by simp [h]⟩
        · rintro (h | ⟨q, h⟩)
          · exact .inl (.inl h)
          · rcases List.mem_cons.mp h with h | h
            · cases h; exact .inl (.inr rfl)
            · exact .inr ⟨q, h⟩
      rwa [heq] at this
    · cases hs
    · cases hs

theorem Inv.receive {base : Nat} {chunks : List Bytes} (pkts : List (Nat × Bytes)) :
    ∀ {rcv : Nat → Prop} {n : Nat} {s s' : Inbound},
    (∀ e ∈ pkts, base < e.1 → chunks[e.1 - base - 1]? = some e.2) →
    Inv base chunks rcv [] n s → s.receive pkts = .ok s' →
    ∃ n', Inv base chunks (fun x => rcv x ∨ ∃ p, (x, p) ∈ pkts) [] n' s' := by
  induction pkts with
  | nil => intro rcv n s s' _ h hs; cases hs; exact ⟨n, by simpa using h⟩
  | cons e pkts ih =>
    obtain ⟨seq, p⟩ := e
    intro rcv n s s' hc h hs
    simp only [Inbound.receive] at hs
    split at hs
    · rename_i s1 h1
      obtain ⟨n1, h2, _⟩ := h.handlePacket (hc (seq, p) (by simp)) h1
      obtain ⟨n2, h3⟩ := ih (fun e he => hc e (by simp [he])) h2 hs
      refine ⟨n2, ?_⟩
      have heq : (fun x => (rcv x ∨ x = seq) ∨ ∃ p, (x, p) ∈ pkts) =
          (fun x => rcv x ∨ ∃ q, (x, q) ∈ (seq, p) :: pkts) := by
        funext x
        apply propext
        constructor
        · rintro ((h | h) | ⟨q, h⟩)
          · exact .inl h
          · exact .inr ⟨p, by simp [h]⟩
          · exact .inr ⟨q, by simp [h]⟩
        · rintro (h | ⟨q, h⟩)
          · exact .inl (.inl h)
          · rcases List.mem_cons.mp h with h | h
            · cases h; exact .inl (.inr rfl)
            · exact .inr ⟨q, h⟩
      rwa [heq] at h3
    · cases hs
    · cases hs

theorem oset_ins_length (x : Nat) (m : OSet) : (OSet.ins x m).length ≤ m.length + 1 := by
  induction m with
  | nil => simp [OSet.ins]
  | cons y m ih => simp only [OSet.ins]; split <;> (try split) <;> simp <;> omega

theorem markMissing_length (p : OMap Bytes) (lo c : Nat) (m : OSet) :
    (markMissing p lo c m).length ≤ m.length + c := by
  induction c generalizing lo m with
  | zero => simp [markMissing]
  | succ c ih =>
    simp only [markMissing]
    refine Nat.le_trans (ih _ _) ?_
    split
    · omega
    · have := oset_ins_length lo m; omega

theorem oset_del_length (x : Nat) (m : OSet) : (OSet.del x m).length ≤ m.length := by
  exact List.length_filter_le _ _

/-- Receive-path runs keep the full invariant. -/
theorem RxInv.run {base : Nat} {initial : Bytes} {chunks : List Bytes} (evs : List RxEvent) :
    ∀ {rcv : Nat → Prop} {r : Rx} {popped : List Bytes} {n : Nat},
    (∀ seq p, RxEvent.packet seq p ∈ evs → p ≠ [] → base < seq → chunks[seq - base - 1]? = some p) →
    RxInv base initial chunks rcv r popped n →
    ∃ rcv' popped' n', RxInv base initial chunks rcv' (r.run evs) popped' n' := by
  induction evs with
  | nil => intro rcv r popped n _ h; exact ⟨rcv, popped, n, h⟩
  | cons e evs ih =>
    intro rcv r popped n he h
    obtain ⟨rcv', popped', n', h', _⟩ := h.step e (fun seq p hp => he seq p (by simp [hp]))
    exact ih (fun seq p hp => he seq p (by simp [hp])) h'

/-- A stream only finishes with a close request and nothing missing. -/
theorem Rx.finished_canClose (evs : List RxEvent) : ∀ {r : Rx},
    (r.status = .finished → r.inb.canClose = true) →
    ((r.run evs).status = .finished → (r.run evs).inb.canClose = true) := by
  induction evs with
  | nil => intro r h; exact h
  | cons e evs ih =>
    intro r h
    refine ih ?_
    have hpop : ∀ r : Rx, r.pop.status = r.status ∧ r.pop.inb.canClose = r.inb.canClose := by
      intro r; unfold Rx.pop; split <;> simp [Inbound.canClose]
    cases e with
    | packet seq p =>
      simp only [Rx.step]
      split
      · exact h
      · rename_i hr
        have hrun : r.status = .running := Classical.byContradiction fun hh => hr (.inl hh)
        split
        · split
          · exact h
          · rw [(hpop r).1, hrun]; intro hh; cases hh
        · split
          · intro hh; cases hh
          · intro hh; cases hh
          · split
            · intro hh; simp only [hrun] at hh; cases hh
            · rw [(hpop _).1]; intro hh; simp only [hrun] at hh; cases hh
    | close =>
      simp only [Rx.step]
      split
      · exact h
      · rename_i hr
        have hrun : r.status = .running := Classical.byContradiction fun hh => hr (.inl hh)
        split
        · intro hh; simp only [hrun] at hh; cases hh
        · rw [(hpop _).1]; intro hh; simp only [hrun] at hh; cases hh
    | ackTimer =>
      simp only [Rx.step]
      split
      · rename_i hc; intro _; exact hc.2
      · exact h
    | pollEmpty =>
      simp only [Rx.step]
      split
      · exact h
      · rw [(hpop r).1, (hpop r).2]; exact h
    | write k =>
      simp only [Rx.step]
      split
      · exact h
      · split
        · exact h
        · split <;> exact h

end Emissary.Stream
