import Verif.Lemmas.StreamSys
/-! Invariant of the sender facing an arbitrary peer. -/
namespace Emissary.Stream
open Emissary

/-- `has` after filtering by key. -/
theorem has_filter_key {β : Type} (f : Nat → Bool) (m : OMap β) (k : Nat) :
    OMap.has k (m.filter (fun e => f e.1)) = (OMap.has k m && f k) := by
  induction m with
  | nil => simp [OMap.has]
  | cons e u ih =>
    obtain ⟨q, v⟩ := e
    simp only [List.filter_cons]
    by_cases hq : f q = true
    · simp only [hq, if_true]
      by_cases hk : k = q
      · subst hk; simp [OMap.has, OMap.get?, hq]
      · simp only [OMap.has, OMap.get?, hk, if_false] at ih ⊢; exact ih
    · simp only [hq, Bool.false_eq_true, if_false, ih]
      by_cases hk : k = q
      · subst hk; simp [hq]
      · simp [OMap.has, OMap.get?, hk]

theorem number_keys (cs : List Bytes) : ∀ q, (number q cs).map (·.1) = List.range' q cs.length := by
  induction cs with
  | nil => intro q; rfl
  | cons c cs ih => intro q; simp [number, ih, List.range'_succ]

theorem number_length (cs : List Bytes) (q : Nat) : (number q cs).length = cs.length := by
  have := congrArg List.length (number_keys cs q); simpa using this

theorem TxInv.not_holds {chunks : List Bytes} {t : Tx} (h : TxInv chunks t) {k : Nat} (hk : chunks.length < k) :
    ¬ t.holds k := by
  rintro (hh | hh)
  · obtain ⟨v, hv⟩ := Option.isSome_iff_exists.mp hh
    have := lt_of_getElem?_some (h.uval _ (OMap.mem_of_get? hv)).2
    simp only at this; omega
  · obtain ⟨v, hv⟩ := Option.isSome_iff_exists.mp hh
    have := lt_of_getElem?_some (h.pval _ (OMap.mem_of_get? hv)).2
    simp only at this; omega

theorem TxInv.packetize {chunks : List Bytes} {t : Tx} (h : TxInv chunks t) (hp : t.pending = [])
    (data : Bytes) (hlen : data.length ≤ readBufferSize) (oks : List Bool) :
    TxInv (chunks ++ chunksOf mtu data.length data) (t.packetize data oks).1 ∧
    (∀ k, (t.packetize data oks).1.holds k ↔
      t.holds k ∨ (chunks.length < k ∧ k ≤ chunks.length + (chunksOf mtu data.length data).length)) := by
  have hcl := chunksOf_length mtu data.length (by decide) data (Nat.le_refl _)
  simp only [Tx.packetize]
  generalize hcs : chunksOf mtu data.length data = cs at *
  have hclen : cs.length ≤ 37 := by rw [hcl]; unfold mtu readBufferSize at *; omega
  obtain ⟨h1, h2, h3, h4, h5, h6, h7, h8, h9, h10, h11⟩ :=
    sendNew_spec { t with next := t.next + cs.length } (number t.next cs) oks
  have hnum : ∀ e ∈ number t.next cs, 1 ≤ e.1 ∧ (chunks ++ cs)[e.1 - 1]? = some e.2 := by
    intro e he
    have := mem_number.mp he
    rw [h.next] at this
    refine ⟨by omega, ?_⟩
    rw [List.getElem?_append_right (by omega), ← this.2]; congr 1; omega
  have hnn : ((number t.next cs).map (·.1)).Nodup := by
    rw [number_keys]; exact List.nodup_range' ..
  have hfresh : ∀ e ∈ number t.next cs, ¬ Tx.holds { t with next := t.next + cs.length } e.1 := by
    intro e he hh
    have hge := (mem_number.mp he).1
    have hnx := h.next
    exact h.not_holds (k := e.1) (by omega) hh
  refine ⟨⟨h3 h.su, h4 h.sp, h11 h.disj hfresh hnn, ?_, ?_, h5 h.ulen h.w2, ?_, ?_, ?_, ?_⟩, ?_⟩
  · rw [h2]; exact h.w1
  · rw [h2]; exact h.w2
  · exact Nat.le_trans h6 (by simp only [hp, List.length_nil, number_length]; omega)
  · rw [h1]; simp only [List.length_append]; have := h.next; omega
  · intro e he
    rcases h8 e he with he | he
    · exact ⟨(h.uval e he).1, getElem?_append_some (h.uval e he).2⟩
    · exact hnum e he
  · intro e he
    rcases h9 e he with he | he
    · exact ⟨(h.pval e he).1, getElem?_append_some (h.pval e he).2⟩
    · exact hnum e he
  · intro k
    rw [h7]
    have hnx := h.next
    constructor
    · rintro (h' | ⟨v, hv⟩)
      · exact .inl h'
      · right
        have := mem_number.mp hv
        have := lt_of_getElem?_some this.2
        simp only at *; omega
    · rintro (h' | ⟨h', h''⟩)
      · exact .inl h'
      · right
        have : k - t.next < cs.length := by omega
        exact ⟨cs[k - t.next], mem_number.mpr ⟨by simp only; omega, by simp [this]⟩⟩

theorem TxInv.flush {chunks : List Bytes} {t : Tx} (h : TxInv chunks t) (oks : List Bool) :
    TxInv chunks (t.flush oks).1 ∧ ∀ k, (t.flush oks).1.holds k ↔ t.holds k := by
  simp only [Tx.flush]
  split
  · exact ⟨h, fun _ => Iff.rfl⟩
  · obtain ⟨h1, h2, h3, h4, h5, h6, h7, h8, h9, h10, h11⟩ :=
      flushKeys_spec t (t.pending.keys.take (min t.pending.length (t.window - t.unacked.length))) oks
    refine ⟨⟨h3 h.su, h4 h.sp, h11 h.disj, ?_, ?_, ?_, Nat.le_trans h6 h.plen, ?_, ?_, ?_⟩, h7⟩
    · rw [h2]; exact h.w1
    · rw [h2]; exact h.w2
    · have := h.w2
      refine Nat.le_trans h5 ?_
      simp only [List.length_take]
      omega
    · rw [h1]; exact h.next
    · intro e he; rcases h8 e he with he | he
      · exact h.uval e he
      · exact h.pval e he
    · intro e he; exact h.pval e (h9 e he)

theorem TxInv.resend {chunks : List Bytes} {t : Tx} (h : TxInv chunks t) (e : Nat) (p : Bool) (oks : List Bool) :
    TxInv chunks (t.resend e p oks).1 ∧ ∀ k, (t.resend e p oks).1.holds k ↔ t.holds k := by
  simp only [Tx.resend]
  split
  · exact ⟨h, fun _ => Iff.rfl⟩
  · have hw1 := h.w1
    have hw2 := h.w2
    exact ⟨⟨h.su, h.sp, h.disj, by simp only; split <;> omega, by simp only; split <;> omega,
      h.ulen, h.plen, h.next, h.uval, h.pval⟩, fun _ => Iff.rfl⟩

theorem TxInv.handleAcks {chunks : List Bytes} {t : Tx} (h : TxInv chunks t) (a : Nat) (ns : List Nat) :
    TxInv chunks (t.handleAcks a ns) ∧
    (∀ k, t.holds k → (t.handleAcks a ns).holds k ∨ (k ≤ a ∧ k ∉ ns)) := by
  simp only [Tx.handleAcks]
  split
  · exact ⟨h, fun k hk => .inl hk⟩
  · have hkeep := has_filter_key (fun k => !acks a ns k) t.unacked
    have hg := growN_bounds (n := (t.unacked.filter (fun e => acks a ns e.1)).length) h.w1 h.w2
    refine ⟨⟨List.Pairwise.filter _ h.su, h.sp, ?_, ?_, hg.2, ?_, h.plen, h.next, ?_, h.pval⟩, ?_⟩
    · intro k hk
      simp only [hkeep, Bool.and_eq_true] at hk
      exact h.disj k hk.1
    · have := h.w1; simp only; omega
    · have := List.length_filter_le (fun e => !acks a ns e.1) t.unacked
      have := h.ulen
      simp only; omega
    · intro e he; exact h.uval e (List.mem_filter.mp he).1
    · rintro k (hk | hk)
      · cases hack : acks a ns k with
        | true =>
          right
          simpa [acks] using hack
        | false => left; left; simp only [hkeep]; simp [hk, hack]
      · exact .inl (.inr hk)

/-- Invariant of every reachable sender state, with what happened to every packet created. -/
theorem TxHist.inv (ops : List TxOp) :
    TxInv (TxHist.run ops).chunks (TxHist.run ops).tx ∧
    ∀ k, 1 ≤ k → k ≤ (TxHist.run ops).chunks.length →
      (TxHist.run ops).tx.holds k ∨ ∃ a ns, TxOp.ack a ns ∈ ops ∧ k ≤ a ∧ k ∉ ns := by
  have key : ∀ (rest done : List TxOp) (s : TxHist), TxInv s.chunks s.tx →
      (∀ k, 1 ≤ k → k ≤ s.chunks.length →
        s.tx.holds k ∨ ∃ a ns, TxOp.ack a ns ∈ done ∧ k ≤ a ∧ k ∉ ns) →
      TxInv (rest.foldl TxHist.step s).chunks (rest.foldl TxHist.step s).tx ∧
      ∀ k, 1 ≤ k → k ≤ (rest.foldl TxHist.step s).chunks.length →
        (rest.foldl TxHist.step s).tx.holds k ∨ ∃ a ns, TxOp.ack a ns ∈ done ++ rest ∧ k ≤ a ∧ k ∉ ns := by
    intro rest
    induction rest with
    | nil => intro done s h1 h2; simpa using ⟨h1, h2⟩
    | cons op rest ih =>
      intro done s h1 h2
      have hstep : TxInv (s.step op).chunks (s.step op).tx ∧
          ∀ k, 1 ≤ k → k ≤ (s.step op).chunks.length →
            (s.step op).tx.holds k ∨ ∃ a ns, TxOp.ack a ns ∈ done ++ [op] ∧ k ≤ a ∧ k ∉ ns := by
        have weaken : ∀ k, (∃ a ns, TxOp.ack a ns ∈ done ∧ k ≤ a ∧ k ∉ ns) →
            ∃ a ns, TxOp.ack a ns ∈ done ++ [op] ∧ k ≤ a ∧ k ∉ ns := by
          rintro k ⟨a, ns, hm, hh⟩; exact ⟨a, ns, List.mem_append_left _ hm, hh⟩
        cases op with
        | write data oks =>
          simp only [TxHist.step]
          split
          · rename_i hc
            obtain ⟨hi, hh⟩ := h1.packetize (List.isEmpty_iff.mp hc.1) data hc.2.2 oks
            refine ⟨hi, ?_⟩
            intro k hk1 hk2
            simp only [List.length_append] at hk2
            rw [hh]
            rcases Nat.lt_or_ge s.chunks.length k with hlt | hge
            · exact .inl (.inr ⟨hlt, hk2⟩)
            · rcases h2 k hk1 hge with h | h
              · exact .inl (.inl h)
              · exact .inr (weaken k h)
          · exact ⟨h1, fun k hk1 hk2 => (h2 k hk1 hk2).imp id (weaken k)⟩
        | flush oks =>
          obtain ⟨hi, hh⟩ := h1.flush oks
          exact ⟨hi, fun k hk1 hk2 => (h2 k hk1 hk2).imp (hh k).mpr (weaken k)⟩
        | resend e p oks =>
          obtain ⟨hi, hh⟩ := h1.resend e p oks
          exact ⟨hi, fun k hk1 hk2 => (h2 k hk1 hk2).imp (hh k).mpr (weaken k)⟩
        | ack a ns =>
          obtain ⟨hi, hh⟩ := h1.handleAcks a ns
          refine ⟨hi, fun k hk1 hk2 => ?_⟩
          rcases h2 k hk1 hk2 with h | h
          · rcases hh k h with h | h
            · exact .inl h
            · exact .inr ⟨a, ns, by simp, h⟩
          · exact .inr (weaken k h)
      have := ih (done ++ [op]) (s.step op) hstep.1 hstep.2
      simpa using this
  have h0 : TxInv ([] : List Bytes) ({} : Tx) := by
    constructor <;> simp [OMap.Sorted, OMap.has, initialWindow, maxWindowSize]
  have := key ops [] {} h0 (by intro k h1 h2; simp at h2; omega)
  simpa [TxHist.run] using this

theorem chunksOf_le (n fuel : Nat) (l : Bytes) : ∀ c ∈ chunksOf n fuel l, c.length ≤ n := by
  induction fuel generalizing l with
  | zero => simp [chunksOf]
  | succ fuel ih =>
    simp only [chunksOf]
    split
    · simp
    · intro c hc
      rcases List.mem_cons.mp hc with hc | hc
      · subst hc; simp; omega
      · exact ih _ c hc

/-- The packets created carry exactly the bytes read from the application. -/
theorem TxHist.chunks_spec (ops : List TxOp) :
    (TxHist.run ops).chunks.flatten = (TxHist.run ops).written ∧
    ∀ c ∈ (TxHist.run ops).chunks, c ≠ [] ∧ c.length ≤ mtu := by
  have key : ∀ (rest : List TxOp) (s : TxHist),
      (s.chunks.flatten = s.written ∧ ∀ c ∈ s.chunks, c ≠ [] ∧ c.length ≤ mtu) →
      ((rest.foldl TxHist.step s).chunks.flatten = (rest.foldl TxHist.step s).written ∧
       ∀ c ∈ (rest.foldl TxHist.step s).chunks, c ≠ [] ∧ c.length ≤ mtu) := by
    intro rest
    induction rest with
    | nil => intro s h; exact h
    | cons op rest ih =>
      intro s h
      refine ih _ ?_
      cases op with
      | write data oks =>
        simp only [TxHist.step]
        split
        · refine ⟨by simp [h.1, chunksOf_flatten mtu data.length (by decide) data (Nat.le_refl _)], ?_⟩
          intro c hc
          rcases List.mem_append.mp hc with hc | hc
          · exact h.2 c hc
          · exact ⟨chunksOf_ne_nil mtu _ (by decide) data c hc, chunksOf_le mtu _ data c hc⟩
        · exact h
      | flush oks => exact h
      | resend e p oks => exact h
      | ack a ns => exact h
  exact key ops {} (by simp)

end Emissary.Stream
