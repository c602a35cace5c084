import Verif.Model.StreamRx
import Verif.Lemmas.OMap
/-! Invariant of the receive half of a stream. -/
namespace Emissary.Stream
open Emissary

theorem mem_markMissing {p : OMap Bytes} {lo c : Nat} {m : OSet} {x : Nat} :
    x ∈ markMissing p lo c m ↔ x ∈ m ∨ (lo ≤ x ∧ x < lo + c ∧ p.has x = false) := by
  induction c generalizing lo m with
  | zero => simp only [markMissing]; constructor
            · exact .inl
            · rintro (h | h)
              · exact h
              · omega
  | succ c ih =>
    simp only [markMissing, ih]
    by_cases hp : p.has lo = true
    · simp only [hp, if_true]
      constructor
      · rintro (h | ⟨h1, h2, h3⟩)
        · exact .inl h
        · exact .inr ⟨by omega, by omega, h3⟩
      · rintro (h | ⟨h1, h2, h3⟩)
        · exact .inl h
        · by_cases hx : x = lo
          · subst hx; simp [hp] at h3
          · exact .inr ⟨by omega, by omega, h3⟩
    · simp only [hp, Bool.false_eq_true, if_false, OSet.mem_ins]
      constructor
      · rintro ((h | h) | ⟨h1, h2, h3⟩)
        · subst h; exact .inr ⟨by omega, by omega, by simpa using hp⟩
        · exact .inl h
        · exact .inr ⟨by omega, by omega, h3⟩
      · rintro (h | ⟨h1, h2, h3⟩)
        · exact .inl (.inr h)
        · by_cases hx : x = lo
          · exact .inl (.inl hx)
          · exact .inr ⟨by omega, by omega, h3⟩

theorem sorted_markMissing {p : OMap Bytes} {lo c : Nat} {m : OSet} (h : OSet.Sorted m) :
    OSet.Sorted (markMissing p lo c m) := by
  induction c generalizing lo m with
  | zero => exact h
  | succ c ih => simp only [markMissing]; split
                 · exact ih h
                 · exact ih (OSet.sorted_ins h)

/-- What the drain loop does: it removes a maximal run `next .. next+k-1` of pending keys, pushes their
payloads in order, and stops at a key that is not pending. -/
theorem drain_exact (fuel next : Nat) (p : OMap Bytes) (r : List Bytes) (hf : p.length ≤ fuel) :
    ∃ k vs, vs.length = k ∧ (drain fuel next p r).2 = r ++ vs ∧
      (∀ i, i < k → p.get? (next + i) = vs[i]?) ∧
      p.has (next + k) = false ∧
      (∀ x, (drain fuel next p r).1.get? x = if next ≤ x ∧ x < next + k then none else p.get? x) := by
  induction fuel generalizing next p r with
  | zero =>
    have : p = [] := List.eq_nil_of_length_eq_zero (by omega)
    subst this
    exact ⟨0, [], rfl, by simp [drain], by simp, by simp [OMap.has], by simp [drain]⟩
  | succ fuel ih =>
    simp only [drain]
    cases hg : p.get? next with
    | none =>
      refine ⟨0, [], rfl, by simp, by simp, by simp [OMap.has, hg], ?_⟩
      intro x; rw [if_neg (by omega)]
    | some v =>
      have hlt : (p.del next).length < p.length := OMap.length_del_lt (by simp [OMap.has, hg])
      obtain ⟨k, vs, h1, h2, h3, h4, h5⟩ := ih (next + 1) (p.del next) (r ++ [v]) (by omega)
      refine ⟨k + 1, v :: vs, by simp [h1], by simp [h2], ?_, ?_, ?_⟩
      · intro i hi
        cases i with
        | zero => simp [hg]
        | succ i =>
          have := h3 i (by omega)
          rw [OMap.get?_del, if_neg (by omega)] at this
          rw [show next + (i + 1) = next + 1 + i by omega, this]; simp
      · rw [OMap.has_del] at h4
        have : (next + 1 + k != next) = true := by simp; omega
        rw [this] at h4; rw [show next + (k + 1) = next + 1 + k by omega]; simpa using h4
      · intro x
        show OMap.get? x (drain fuel (next + 1) (p.del next) (r ++ [v])).1 = _
        rw [h5 x, OMap.get?_del]
        by_cases hx : x = next
        · subst hx; rw [if_neg (by omega), if_pos rfl, if_pos (by omega)]
        · rw [if_neg hx]
          by_cases h : next + 1 ≤ x ∧ x < next + 1 + k
          · rw [if_pos h, if_pos (by omega)]
          · rw [if_neg h, if_neg (by omega)]

/-- Invariant of the reorder state. `base` is the sequence number the stream started at, `chunks` the
payloads of packets `base+1, base+2, …`, `rcv` the sequence numbers received so far, `popped` the payloads
already handed to the socket writer and `n` how many packets have been released in total. -/
structure Inv (base : Nat) (chunks : List Bytes) (rcv : Nat → Prop) (popped : List Bytes) (n : Nat)
    (s : Inbound) : Prop where
  n_le : base + n ≤ s.cur
  cur_le : s.cur ≤ base + chunks.length
  released : popped ++ s.ready = chunks.take n
  sorted : OSet.Sorted s.missing
  miss_rng : ∀ x ∈ s.missing, base + n < x ∧ x < s.cur
  cover : ∀ x, base + n < x → x ≤ s.cur → (x ∈ s.missing ↔ s.pending.has x = false)
  head : base + n < s.cur → base + n + 1 ∈ s.missing
  pend_rng : ∀ x v, s.pending.get? x = some v → x ≤ s.cur
  pend_val : ∀ x v, s.pending.get? x = some v → base + n < x → chunks[x - base - 1]? = some v
  recvd : ∀ x, base < x → (rcv x ↔ x ≤ s.cur ∧ x ∉ s.missing)

theorem Inv.init (base : Nat) (chunks : List Bytes) (rcv : Nat → Prop) (h : ∀ x, base < x → ¬ rcv x) :
    Inv base chunks rcv [] 0 (Inbound.new base) where
  n_le := by simp [Inbound.new]
  cur_le := by simp [Inbound.new]
  released := by simp [Inbound.new]
  sorted := by simp [Inbound.new, OSet.Sorted]
  miss_rng := by simp [Inbound.new]
  cover := by intro x h1 h2; simp [Inbound.new] at *; omega
  head := by intro h; simp [Inbound.new] at h
  pend_rng := by simp [Inbound.new]
  pend_val := by simp [Inbound.new]
  recvd := by intro x hx; simp [Inbound.new]; constructor
              · intro hr; exact absurd hr (h x hx)
              · intro hr; omega

/-- More chunks may be appended (the sender keeps writing). -/
theorem Inv.mono {base : Nat} {chunks more : List Bytes} {rcv : Nat → Prop} {popped : List Bytes} {n : Nat}
    {s : Inbound} (h : Inv base chunks rcv popped n s) : Inv base (chunks ++ more) rcv popped n s where
  n_le := h.n_le
  cur_le := by have := h.cur_le; simp; omega
  released := by
    have h1 := h.n_le; have h2 := h.cur_le
    rw [h.released, List.take_append_of_le_length (by omega)]
  sorted := h.sorted
  miss_rng := h.miss_rng
  cover := h.cover
  head := h.head
  pend_rng := h.pend_rng
  pend_val := by
    intro x v hx hb
    have := h.pend_val x v hx hb
    have hlt : x - base - 1 < chunks.length := by
      rcases Nat.lt_or_ge (x - base - 1) chunks.length with h | h
      · exact h
      · rw [List.getElem?_eq_none h] at this; cases this
    rw [List.getElem?_append_left hlt]; exact this
  recvd := h.recvd

theorem Inv.n_le_len {base : Nat} {chunks : List Bytes} {rcv : Nat → Prop} {popped : List Bytes} {n : Nat}
    {s : Inbound} (h : Inv base chunks rcv popped n s) : n ≤ chunks.length := by
  have h1 := h.n_le; have h2 := h.cur_le; omega

/-- If nothing is missing, everything up to the highest packet has been released. -/
theorem Inv.all_released {base : Nat} {chunks : List Bytes} {rcv : Nat → Prop} {popped : List Bytes} {n : Nat}
    {s : Inbound} (h : Inv base chunks rcv popped n s) (hm : s.missing = []) : s.cur = base + n := by
  have := h.n_le
  rcases Nat.lt_or_ge (base + n) s.cur with h' | h'
  · have := h.head h'; rw [hm] at this; cases this
  · omega

theorem take_succ_of {α : Type} {l : List α} {n : Nat} {x : α} (h : l[n]? = some x) :
    l.take (n + 1) = l.take n ++ [x] := by
  rw [List.take_add_one, h]; rfl

theorem take_run {l vs : List Bytes} {n : Nat} (h : ∀ i, i < vs.length → l[n + i]? = vs[i]?) :
    l.take (n + vs.length) = l.take n ++ vs := by
  induction vs generalizing n with
  | nil => simp
  | cons v vs ih =>
    have h0 := h 0 (by simp)
    simp at h0
    have := ih (n := n + 1) (fun i hi => by
      have := h (i + 1) (by simp; omega)
      rw [show n + 1 + i = n + (i + 1) by omega, this]; simp)
    rw [List.length_cons, show n + (vs.length + 1) = n + 1 + vs.length by omega, this, take_succ_of h0]
    simp

/-- `handle_packet` preserves the invariant for any packet carrying the right payload. -/
theorem Inv.handlePacket {base : Nat} {chunks : List Bytes} {rcv : Nat → Prop} {popped : List Bytes} {n : Nat}
    {s s' : Inbound} {seq : Nat} {payload : Bytes} (h : Inv base chunks rcv popped n s)
    (hp : base < seq → chunks[seq - base - 1]? = some payload)
    (hs : s.handlePacket seq payload = .ok s') :
    ∃ n', Inv base chunks (fun x => rcv x ∨ x = seq) popped n' s' ∧ n ≤ n' := by
  have hn := h.n_le
  have hc := h.cur_le
  unfold Inbound.handlePacket at hs
  split at hs
  · cases hs
  split at hs
  · -- in order
    rename_i _ hseq
    have hb : base < seq := by omega
    have hpay := hp hb
    have hlen : seq ≤ base + chunks.length := by
      rcases Nat.lt_or_ge (seq - base - 1) chunks.length with h | h
      · omega
      · rw [List.getElem?_eq_none h] at hpay; cases hpay
    have hnm : seq ∉ s.missing := fun hm => by have := h.miss_rng _ hm; omega
    have hdel : ∀ x, x ∈ OSet.del seq s.missing ↔ x ∈ s.missing := by
      intro x; rw [OSet.mem_del]; constructor
      · exact And.left
      · intro hx; exact ⟨hx, fun e => hnm (e ▸ hx)⟩
    simp only at hs
    split at hs
    · rename_i hemp
      cases hs
      have hmiss : s.missing = [] := by
        apply List.eq_nil_iff_forall_not_mem.mpr
        intro x hx
        have := (hdel x).mpr hx
        rw [List.isEmpty_iff.mp hemp] at this; cases this
      have hcur := h.all_released hmiss
      refine ⟨n + 1, ?_, by omega⟩
      constructor
      · show base + (n + 1) ≤ seq; omega
      · exact hlen
      · show popped ++ (s.ready ++ [payload]) = _
        rw [← List.append_assoc, h.released]
        have : seq - base - 1 = n := by omega
        rw [this] at hpay
        rw [take_succ_of hpay]
      · exact OSet.sorted_del h.sorted
      · intro x hx; have := (hdel x).mp hx; rw [hmiss] at this; cases this
      · intro x h1 h2; exfalso; simp at h2; omega
      · intro h1; exfalso; simp at h1; omega
      · intro x v hx; have := h.pend_rng x v hx; show x ≤ seq; omega
      · intro x v hx hb; have := h.pend_rng x v hx; exfalso; omega
      · intro x hx
        simp only [h.recvd x hx, hdel]
        rw [hmiss]
        simp; omega
    · rename_i hemp
      cases hs
      refine ⟨n, ?_, by omega⟩
      have hlt : base + n < s.cur := by
        rcases Nat.lt_or_ge (base + n) s.cur with h' | h'
        · exact h'
        · exfalso
          apply hemp
          rw [List.isEmpty_iff]
          apply List.eq_nil_iff_forall_not_mem.mpr
          intro x hx
          have := h.miss_rng x ((hdel x).mp hx)
          omega
      constructor
      · show base + n ≤ seq; omega
      · exact hlen
      · exact h.released
      · exact OSet.sorted_del h.sorted
      · intro x hx; have := h.miss_rng x ((hdel x).mp hx); exact ⟨this.1, by show x < seq; omega⟩
      · intro x h1 h2
        rw [hdel, OMap.has_ins]
        by_cases hx : x = seq
        · subst hx; simp [hnm]
        · have hx2 : x ≤ s.cur := by simp at h2; omega
          simp [hx, h.cover x h1 hx2]
      · intro _; exact (hdel _).mpr (h.head hlt)
      · intro x v hx
        rw [OMap.get?_ins] at hx
        split at hx
        · subst_vars; exact Nat.le_refl _
        · have := h.pend_rng x v hx; show x ≤ seq; omega
      · intro x v hx hbx
        rw [OMap.get?_ins] at hx
        split at hx
        · cases hx; subst_vars; exact hpay
        · exact h.pend_val x v hx hbx
      · intro x hx
        show _ ↔ x ≤ seq ∧ x ∉ OSet.del seq s.missing
        rw [hdel, h.recvd x hx]
        constructor
        · rintro (⟨h1, h2⟩ | h1)
          · exact ⟨by omega, h2⟩
          · subst h1; exact ⟨Nat.le_refl _, hnm⟩
        · rintro ⟨h1, h2⟩
          by_cases hx : x = seq
          · exact .inr hx
          · exact .inl ⟨by omega, h2⟩
  split at hs
  · -- ahead
    rename_i _ hne hgt
    have hb : base < seq := by omega
    have hpay := hp hb
    have hlen : seq ≤ base + chunks.length := by
      rcases Nat.lt_or_ge (seq - base - 1) chunks.length with h | h
      · omega
      · rw [List.getElem?_eq_none h] at hpay; cases hpay
    split at hs
    · cases hs
    cases hs
    have hmm : ∀ x, x ∈ OSet.del seq (markMissing s.pending (s.cur + 1) (seq - (s.cur + 1)) s.missing) ↔
        x ∈ s.missing ∨ (s.cur < x ∧ x < seq) := by
      intro x
      rw [OSet.mem_del, mem_markMissing]
      constructor
      · rintro ⟨h1 | ⟨h1, h2, _⟩, h3⟩
        · exact .inl h1
        · exact .inr ⟨by omega, by omega⟩
      · rintro (h1 | ⟨h1, h2⟩)
        · have := h.miss_rng x h1; exact ⟨.inl h1, by omega⟩
        · refine ⟨.inr ⟨by omega, by omega, ?_⟩, by omega⟩
          cases hh : s.pending.has x with
          | false => rfl
          | true =>
            simp only [OMap.has, Option.isSome_iff_exists] at hh
            obtain ⟨v, hv⟩ := hh
            have := h.pend_rng x v hv; omega
    refine ⟨n, ?_, by omega⟩
    constructor
    · show base + n ≤ seq; omega
    · exact hlen
    · exact h.released
    · exact OSet.sorted_del (sorted_markMissing h.sorted)
    · intro x hx
      rcases (hmm x).mp hx with hx | hx
      · have := h.miss_rng x hx; exact ⟨this.1, by show x < seq; omega⟩
      · exact ⟨by omega, hx.2⟩
    · intro x h1 h2
      rw [hmm, OMap.has_ins]
      by_cases hx : x = seq
      · subst hx
        simp
        intro hm
        have := h.miss_rng x hm; omega
      · rcases Nat.lt_or_ge s.cur x with hx2 | hx2
        · have : s.pending.has x = false := by
            cases hh : s.pending.has x with
            | false => rfl
            | true =>
              simp only [OMap.has, Option.isSome_iff_exists] at hh
              obtain ⟨v, hv⟩ := hh
              have := h.pend_rng x v hv; omega
          have h2' : x ≤ seq := h2
          simp [hx, this]; right; omega
        · have := h.cover x h1 hx2
          rw [← Bool.not_eq_true] at this ⊢
          simp [hx, this]; omega
    · intro _
      rcases Nat.lt_or_ge (base + n) s.cur with h' | h'
      · exact (hmm _).mpr (.inl (h.head h'))
      · exact (hmm _).mpr (.inr ⟨by omega, by omega⟩)
    · intro x v hx
      rw [OMap.get?_ins] at hx
      split at hx
      · subst_vars; exact Nat.le_refl _
      · have := h.pend_rng x v hx; show x ≤ seq; omega
    · intro x v hx hbx
      rw [OMap.get?_ins] at hx
      split at hx
      · cases hx; subst_vars; exact hpay
      · exact h.pend_val x v hx hbx
    · intro x hx
      show _ ↔ x ≤ seq ∧ x ∉ OSet.del seq _
      rw [hmm, h.recvd x hx]
      constructor
      · rintro (⟨h1, h2⟩ | h1)
        · exact ⟨by omega, by rintro (h3 | h3); exact h2 h3; omega⟩
        · subst h1; refine ⟨Nat.le_refl _, ?_⟩
          rintro (h3 | h3)
          · have := h.miss_rng x h3; omega
          · omega
      · rintro ⟨h1, h2⟩
        by_cases hx : x = seq
        · exact .inr hx
        · refine .inl ⟨?_, fun h3 => h2 (.inl h3)⟩
          rcases Nat.lt_or_ge s.cur x with h4 | h4
          · exact absurd (.inr ⟨h4, by omega⟩) h2
          · exact h4
  split at hs
  · -- first missing
    rename_i _ hne hngt hfirst
    have hmem := OSet.first_mem hfirst
    have hr := h.miss_rng _ hmem
    have hseq : seq = base + n + 1 := by
      have h1 := h.head (by omega)
      have := OSet.first_le h.sorted hfirst h1
      omega
    have hb : base < seq := by omega
    have hpay := hp hb
    obtain ⟨k, vs, hk, hd2, hd3, hd4, hd5⟩ :=
      drain_exact s.pending.length (seq + 1) s.pending (s.ready ++ [payload]) (Nat.le_refl _)
    cases hs
    have hrun : ∀ i, i < k → s.pending.has (seq + 1 + i) = true := by
      intro i hi
      have := hd3 i hi
      simp only [OMap.has, this, List.getElem?_eq_getElem (by omega : i < vs.length), Option.isSome]
    have hkcur : seq + k ≤ s.cur := by
      cases k with
      | zero => omega
      | succ k =>
        have := hrun k (by omega)
        simp only [OMap.has, Option.isSome_iff_exists] at this
        obtain ⟨v, hv⟩ := this
        have := h.pend_rng _ v hv; omega
    refine ⟨n + 1 + k, ?_, by omega⟩
    constructor
    · show base + (n + 1 + k) ≤ s.cur; omega
    · exact hc
    · show popped ++ (drain _ _ _ _).2 = _
      rw [hd2, ← List.append_assoc, ← List.append_assoc, h.released, ← hk]
      have h0 : chunks[n]? = some payload := by rw [← hpay]; congr 1; omega
      rw [take_run (n := n + 1), take_succ_of h0]
      intro i hi
      have hh := hrun i (by omega)
      simp only [OMap.has, Option.isSome_iff_exists] at hh
      obtain ⟨v, hv⟩ := hh
      have hpv := h.pend_val _ v hv (by omega)
      rw [← hd3 i (by omega), hv, ← hpv]; congr 1; omega
    · exact OSet.sorted_del h.sorted
    · intro x hx
      rw [OSet.mem_del] at hx
      have h1 := h.miss_rng x hx.1
      refine ⟨?_, h1.2⟩
      rcases Nat.lt_or_ge (base + (n + 1 + k)) x with h2 | h2
      · exact h2
      · exfalso
        have h3 := hrun (x - seq - 1) (by omega)
        rw [show seq + 1 + (x - seq - 1) = x by omega] at h3
        have := (h.cover x h1.1 (by omega)).mp hx.1
        rw [this] at h3; cases h3
    · intro x h1 h2
      show x ∈ OSet.del seq s.missing ↔ OMap.has x (drain _ _ _ _).1 = false
      rw [OSet.mem_del, h.cover x (by omega) h2]
      simp only [OMap.has, hd5]
      rw [if_neg (by omega)]
      constructor
      · exact And.left
      · intro h3; exact ⟨h3, by omega⟩
    · intro h1
      have h1' : base + (n + 1 + k) < s.cur := h1
      show _ ∈ OSet.del seq s.missing
      rw [OSet.mem_del]
      refine ⟨?_, by omega⟩
      rw [h.cover _ (by omega) (by omega)]
      rw [show base + (n + 1 + k) + 1 = seq + 1 + k by omega]; exact hd4
    · intro x v hx
      have hx : OMap.get? x (drain _ _ _ _).1 = some v := hx
      rw [hd5] at hx
      split at hx
      · cases hx
      · exact h.pend_rng x v hx
    · intro x v hx hbx
      have hx : OMap.get? x (drain _ _ _ _).1 = some v := hx
      rw [hd5] at hx
      split at hx
      · cases hx
      · exact h.pend_val x v hx (by omega)
    · intro x hx
      show _ ↔ x ≤ s.cur ∧ x ∉ OSet.del seq s.missing
      rw [OSet.mem_del, h.recvd x hx]
      constructor
      · rintro (⟨h1, h2⟩ | h1)
        · exact ⟨h1, fun h3 => h2 h3.1⟩
        · subst h1; exact ⟨by omega, fun h3 => h3.2 rfl⟩
      · rintro ⟨h1, h2⟩
        by_cases hx : x = seq
        · exact .inr hx
        · exact .inl ⟨h1, fun h3 => h2 ⟨h3, hx⟩⟩
  · -- fills a later gap, or a duplicate
    rename_i _ hne hngt hnf
    cases hs
    have hle : seq ≤ s.cur := by omega
    have hnf' : seq ≠ base + n + 1 ∨ s.cur ≤ base + n := by
      rcases Nat.lt_or_ge (base + n) s.cur with h1 | h1
      · left
        intro he
        apply hnf
        have hm := h.head h1
        cases hfm : OSet.first s.missing with
        | none => rw [OSet.first_none] at hfm; rw [hfm] at hm; cases hm
        | some m =>
          have h2 := OSet.first_le h.sorted hfm hm
          have h3 := h.miss_rng m (OSet.first_mem hfm)
          congr 1; omega
      · exact .inr h1
    refine ⟨n, ?_, by omega⟩
    constructor
    · exact hn
    · exact hc
    · exact h.released
    · exact OSet.sorted_del h.sorted
    · intro x hx; exact h.miss_rng x (OSet.mem_del.mp hx).1
    · intro x h1 h2
      show x ∈ OSet.del seq s.missing ↔ _
      rw [OSet.mem_del, OMap.has_ins, h.cover x h1 h2]
      by_cases hx : x = seq <;> simp [hx]
    · intro h1
      show _ ∈ OSet.del seq s.missing
      have h1' : base + n < s.cur := h1
      rw [OSet.mem_del]; exact ⟨h.head h1, by omega⟩
    · intro x v hx
      rw [OMap.get?_ins] at hx
      split at hx
      · subst_vars; exact hle
      · exact h.pend_rng x v hx
    · intro x v hx hbx
      rw [OMap.get?_ins] at hx
      split at hx
      · cases hx; subst_vars; exact hp (by omega)
      · exact h.pend_val x v hx hbx
    · intro x hx
      show _ ↔ x ≤ s.cur ∧ x ∉ OSet.del seq s.missing
      rw [OSet.mem_del, h.recvd x hx]
      constructor
      · rintro (⟨h1, h2⟩ | h1)
        · exact ⟨h1, fun h3 => h2 h3.1⟩
        · subst h1; exact ⟨by omega, fun h3 => h3.2 rfl⟩
      · rintro ⟨h1, h2⟩
        by_cases hx : x = seq
        · exact .inr hx
        · exact .inl ⟨h1, fun h3 => h2 ⟨h3, hx⟩⟩

end Emissary.Stream
