import Verif.Props.HopLoop
/-!
# C237 to C240: what the tasks of transit tunnels and zero-hop tunnels do with whatever they are sent
-/
namespace Emissary.Hop
open Emissary Emissary.I2np Emissary.Tunnel

/-! ## Specification -/

/-- The task was created with padding bytes as `paddingBytes` draws them. -/
def Role.Ok : Role → Prop
  | .gateway _ padding => ∃ random : Bytes, random.length = 1028 ∧ padding = paddingBytes random
  | _ => True

/-- The random values drawn in a history have the sizes they should have. -/
def Drawn (os : List Op) : Prop := ∀ i, Op.message i ∈ os → i.rnd.Ok

/-- The operations before the task ends. -/
def live (os : List Op) : List Op := os.takeWhile fun | .expired => false | .closed => false | _ => true

/-- The bytes of messages that came in. -/
def bytesIn (os : List Op) : Nat := ((messages (live os)).map fun m => m.payload.length + 11).sum

/-- The bytes that were sent. -/
def bytesOut (t : Task) : Nat := (t.sent.map fun o => o.message.length).sum

/-! ## Lemmas -/

theorem short_isSome (m : Message) (hne : m.payload ≠ []) (hlen : m.payload.length ≤ 65526) :
    ∃ id e, Message.parseShort m.serializeShort = some (⟨m.type, id, e, m.payload⟩, []) := by
  have hb : ∀ k n, ∃ n', n' < 256 ^ k ∧ be k n = be k n' := by
    intro k n
    refine ⟨unbe (be k n), ?_, ?_⟩
    · have := unbe_lt (be k n); rwa [be_length] at this
    · have := be_unbe (be k n); rw [be_length] at this; exact this.symm
  obtain ⟨i, i1, i2⟩ := hb 4 m.id
  obtain ⟨s, s1, s2⟩ := hb 4 (asSecs m.expiration)
  have hd : s * 1000000000 / 1000000000 = s := Nat.mul_div_cancel _ (by decide)
  have := C16_short_header_roundtrip ⟨m.type, i, s * 1000000000, m.payload⟩ [] i1 (by rw [hd]; exact s1) hne hlen
  rw [List.append_nil] at this
  refine ⟨i, s * 1000000000 / 1000000000 * 1000000000, ?_⟩
  rw [← this]
  congr 1
  simp only [Message.serializeShort, i2, s2]
  rw [show asSecs (s * 1000000000) = s from hd]

theorem received_wrap (router : Bytes) (now : Duration) (ty : MessageType) (id : Nat) (p : Bytes) (hne : p ≠ []) (hlen : p.length ≤ 65526) :
    ∃ id' e, received ⟨router, wrap now ty id p⟩ = some ⟨ty, id', e, p⟩ := by
  obtain ⟨id', e, h⟩ := short_isSome ⟨ty, id, now + fromSecs 8, p⟩ hne hlen
  exact ⟨id', e, by unfold received wrap; rw [h]; rfl⟩

theorem run_inv {A : Aes} {sha : Sha} {chk : Bool} (I : Task → Prop) (os : List Op) (h : ∀ t o t', I t → o ∈ os → t.step A sha chk o = some t' → I t') :
    ∀ t t', I t → t.run A sha chk os = some t' → I t' := by
  induction os with
  | nil => intro t t' h0 h1; simp only [Task.run, List.foldlM_nil, pure, Option.some.injEq] at h1; exact h1 ▸ h0
  | cons o os ih =>
    intro t t' h0 h1
    simp only [Task.run, List.foldlM_cons] at h1
    unbind h1 with u e1
    exact ih (fun t o' t' h2 h3 h4 => h t o' t' h2 (List.mem_cons_of_mem _ h3) h4) u t' (h t o u h0 (by simp) e1) h1

/-- What holds of every entry of the handler, and so of every message it puts together. -/
theorem blocks_inv (P : Fragment → Prop) (Q : Block → Prop) (R : Message × DI → Prop) (h0 : P {})
    (hadd : ∀ f b, P f → Q b → P (f.add b.kind b.msg)) (hcons : ∀ f p, P f → f.construct = some p → R p)
    (hun : ∀ b di M r, Q b → b.kind = .unfragmented di → Message.parseStandard b.msg = some (M, r) → R (M, di)) :
    ∀ (bs : List Block) (h : Handler), (∀ mid f, h mid = some f → P f) → (∀ b ∈ bs, Q b) →
      (∀ mid f, (h.blocks bs).1 mid = some f → P f) ∧ ∀ p, some p ∈ (h.blocks bs).2 → R p := by
  have hfrag : ∀ (h : Handler) (mid : Nat) (b : Block), (∀ mid f, h mid = some f → P f) → Q b →
      (∀ mid' f, (h.fragment mid b.kind b.msg).1 mid' = some f → P f) ∧ ∀ p, (h.fragment mid b.kind b.msg).2 = some p → R p := by
    intro h mid b hh hb
    have hP : P (((h mid).getD {}).add b.kind b.msg) := by
      apply hadd _ _ _ hb
      cases hm : h mid with
      | none => exact h0
      | some f => exact hh mid f hm
    simp only [Handler.fragment]
    split
    · refine ⟨?_, fun p hp => hcons _ p hP hp⟩
      intro mid' f hf
      simp only [Handler.upd] at hf
      split at hf
      · cases hf
      · exact hh _ _ hf
    · refine ⟨?_, fun p hp => by cases hp⟩
      intro mid' f hf
      simp only [Handler.upd] at hf
      split at hf
      · injection hf with hf; exact hf ▸ hP
      · exact hh _ _ hf
  have hblock : ∀ (h : Handler) (b : Block), (∀ mid f, h mid = some f → P f) → Q b →
      (∀ mid' f, (h.block b).1 mid' = some f → P f) ∧ ∀ p, (h.block b).2 = some p → R p := by
    intro h b hh hb
    unfold Handler.block
    cases hk : b.kind with
    | unfragmented di =>
      refine ⟨hh, fun p hp => ?_⟩
      simp only [Option.map_eq_some_iff] at hp
      obtain ⟨⟨M, r⟩, h1, rfl⟩ := hp
      exact hun b di M r hb hk h1
    | first mid di => simp only [← hk]; exact hfrag h mid b hh hb
    | middle mid s => simp only [← hk]; exact hfrag h mid b hh hb
    | last mid s => simp only [← hk]; exact hfrag h mid b hh hb
  intro bs
  induction bs with
  | nil => intro h hh _; exact ⟨hh, fun p hp => by cases hp⟩
  | cons b bs ih =>
    intro h hh hb
    obtain ⟨a1, a2⟩ := hblock h b hh (hb b (by simp))
    obtain ⟨b1, b2⟩ := ih (h.block b).1 a1 (fun x hx => hb x (List.mem_cons_of_mem _ hx))
    refine ⟨b1, ?_⟩
    intro p hp
    simp only [Handler.blocks, List.mem_cons] at hp
    rcases hp with hp | hp
    · exact a2 p hp.symm
    · exact b2 p hp

theorem mem_ready {l : List (Option (Message × DI))} {x : Nat × (Message × DI)} (h : x ∈ ready l) : some x.2 ∈ l := by
  simp only [ready, List.mem_filterMap, List.mem_mapIdx, id] at h
  obtain ⟨o, ⟨k, hk, e⟩, rfl⟩ := h
  have hm := List.getElem_mem hk
  cases hl : l[k] with
  | none => rw [hl] at e; simp at e
  | some p =>
    rw [hl] at e hm
    simp only [Option.map_some, Option.some.injEq] at e
    rw [← e]; exact hm

theorem endpointOn_some {A : Aes} {sha : Sha} {chk : Bool} {keys : Keys} {h : Handler} {i : In} {r : Handler × List Out}
    (e : endpointOn A sha chk keys h i = some r) : r = ((h.blocks (opened A sha keys i.m)).1,
      (ready (h.blocks (opened A sha keys i.m)).2).filterMap fun p => deliver sha i.now (i.ids p.1) p.2) := by
  have hf := endpointOn_eq A sha keys h i
  have : endpointOn A sha chk keys h i = none ∨ endpointOn A sha chk keys h i = endpointOn A sha false keys h i := by
    cases chk with
    | false => exact .inr rfl
    | true =>
      unfold endpointOn
      cases i.m.type with
      | tunnelData =>
        dsimp only
        cases Encrypted.parse i.m.payload with
        | none => exact .inl rfl
        | some x => exact .inr rfl
      | _ => exact .inl rfl
  rcases this with h1 | h1
  · rw [h1] at e; cases e
  · rw [h1, hf] at e; exact (Option.some.inj e).symm

/-- What a gateway sends. -/
theorem gatewayOn_some {A : Aes} {sha : Sha} {chk : Bool} {n : Next} {padding : Bytes} {i : In} {os : List Out}
    (e : gatewayOn A sha chk n padding i = some os) : ∀ o ∈ os, ∃ k b t, b ∈ build sha n.id .loc t padding i.rnd ∧
      o = ⟨n.router, wrap i.now .tunnelData (i.ids k) (gatewaySend A n.keys b)⟩ := by
  have hnone : ∀ {c : Bool} {l : List Out}, (if c = true then none else some []) = some l → l = [] := by
    intro c l h; cases c <;> simp at h; exact h
  unfold gatewayOn at e
  cases ht : i.m.type with
  | tunnelGateway =>
    rw [ht] at e
    dsimp only at e
    cases hg : TunnelGateway.parse i.m.payload with
    | none => rw [hg] at e; intro o ho; rw [hnone e] at ho; cases ho
    | some x =>
      rw [hg] at e
      dsimp only at e
      cases hM : Message.parseStandard x.1.payload with
      | none => rw [hM] at e; injection e with e; intro o ho; rw [← e] at ho; cases ho
      | some y =>
        rw [hM] at e
        dsimp only at e
        split at e
        · injection e with e; intro o ho; rw [← e] at ho; cases ho
        · injection e with e
          intro o ho
          rw [← e, List.mem_mapIdx] at ho
          obtain ⟨k, hk, rfl⟩ := ho
          exact ⟨k, _, _, List.getElem_mem hk, rfl⟩
  | _ => rw [ht] at e; intro o ho; rw [hnone e] at ho; cases ho

/-! ### How much a message can be put together from -/

/-- A piece fits into a tunnel message. -/
def SmallB (b : Block) : Prop := b.msg.length ≤ 1003 ∧ ∀ mid seq, b.kind = .middle mid seq ∨ b.kind = .last mid seq → seq < 64

def SmallF (f : Fragment) : Prop :=
  (∀ b, f.first = some b → b.length ≤ 1003) ∧ (∀ e ∈ f.frags, e.1 < 64 ∧ e.2.length ≤ 1003) ∧ OMap.Sorted f.frags

theorem sorted_bound (l : OMap Bytes) : ∀ lo, OMap.Sorted l → (∀ e ∈ l, lo ≤ e.1 ∧ e.1 < 64 ∧ e.2.length ≤ 1003) →
    lo ≤ 64 → (l.map (·.2)).flatten.length ≤ 1003 * (64 - lo) := by
  induction l with
  | nil => intro lo _ _ _; simp
  | cons e l ih =>
    intro lo hs hb hlo
    obtain ⟨h1, h2, h3⟩ := hb e (by simp)
    have hs' := List.pairwise_cons.1 hs
    have := ih (e.1 + 1) hs'.2 (fun x hx => ⟨hs'.1 x hx, (hb x (List.mem_cons_of_mem _ hx)).2⟩) (by omega)
    simp only [List.map_cons, List.flatten_cons, List.length_append]
    omega

theorem parseSized_small {k : Kind} {i r : Bytes} {b : Block} (h : parseSized k i = some (b, r)) :
    b.kind = k ∧ i.length = b.msg.length + r.length + 2 := by
  unfold parseSized at h
  unbind h with x1 e1
  unbind h with x2 e2
  injection h with h
  injection h with h h'
  subst h h'
  have b1 := (beU_some e1).1
  have b2 := (takeN_some e2).1
  rw [b1, b2]
  refine ⟨rfl, ?_⟩
  simp only [List.length_append, be_length]
  omega

theorem parseBlock_small {i r : Bytes} {b : Block} (h : parseBlock i = some (b, r)) :
    b.msg.length + r.length ≤ i.length ∧ ∀ mid seq, b.kind = .middle mid seq ∨ b.kind = .last mid seq → seq < 64 := by
  unfold parseBlock at h
  unbind h with x1 e1
  have b1 := (beU_some e1).1
  split at h
  · unfold parseFollowOn at h
    unbind h with x2 e2
    have b2 := (beU_some e2).1
    obtain ⟨h1, h2⟩ := parseSized_small h
    refine ⟨by rw [b1, b2]; simp only [List.length_append, be_length]; omega, ?_⟩
    intro mid seq hk
    rw [h1] at hk
    split at hk <;> simp only [reduceCtorEq, Kind.middle.injEq, Kind.last.injEq, false_or, or_false] at hk <;> omega
  · unbind h with x2 e2
    unbind h with x3 e3
    obtain ⟨h1, h2⟩ := parseSized_small h
    have l2 : x2.2.length ≤ x1.2.length := by
      unfold parseDI at e2
      split at e2
      · injection e2 with e2; rw [← e2]; exact Nat.le_refl _
      · unbind e2 with y e3
        unbind e2 with z e4
        have := (beU_some e3).1
        have := (takeN_some e4).1
        injection e2 with e2
        rw [← e2]
        simp only [*, List.length_append]
        omega
      · unbind e2 with z e4
        have := (takeN_some e4).1
        injection e2 with e2
        rw [← e2]
        simp only [*, List.length_append]
        omega
      · cases e2
    have l3 : x3.2.length ≤ x2.2.length ∧ ∀ mid seq, x3.1 ≠ .middle mid seq ∧ x3.1 ≠ .last mid seq := by
      unfold parseKind at e3
      split at e3
      · unbind e3 with y e4
        have := (beU_some e4).1
        injection e3 with e3
        rw [← e3]
        refine ⟨?_, by simp⟩
        simp only [*, List.length_append]
        omega
      · injection e3 with e3; rw [← e3]; exact ⟨Nat.le_refl _, by simp⟩
    refine ⟨by rw [b1]; simp only [List.length_append, be_length]; omega, ?_⟩
    intro mid seq hk
    rw [h1] at hk
    rcases hk with hk | hk
    · exact absurd hk (l3.2 mid seq).1
    · exact absurd hk (l3.2 mid seq).2

theorem parseInner_small (fuel : Nat) : ∀ (i : Bytes) (bs : List Block), parseInner fuel i = some bs →
    ∀ b ∈ bs, b.msg.length ≤ i.length ∧ ∀ mid seq, b.kind = .middle mid seq ∨ b.kind = .last mid seq → seq < 64 := by
  induction fuel with
  | zero => intro i bs h; cases h
  | succ fuel ih =>
    intro i bs h
    simp only [parseInner] at h
    unbind h with x1 e1
    have hx := parseBlock_small (b := x1.1) (r := x1.2) e1
    split at h
    · injection h with h
      intro b hb
      rw [← h, List.mem_singleton] at hb
      subst hb
      exact ⟨by omega, hx.2⟩
    · unbind h with x2 e2
      injection h with h
      intro b hb
      rw [← h, List.mem_cons] at hb
      rcases hb with rfl | hb
      · exact ⟨by omega, hx.2⟩
      · have := ih _ _ e2 b hb
        exact ⟨by omega, this.2⟩

theorem opened_small {A : Aes} (hA : A.Lawful) (sha : Sha) (keys : Keys) (m : Message) : ∀ b ∈ opened A sha keys m, SmallB b := by
  intro b hb
  unfold opened at hb
  cases ht : m.type with
  | tunnelData =>
    rw [ht] at hb
    dsimp only at hb
    cases ho : endpointOpen A sha keys m.payload with
    | none => rw [ho] at hb; cases hb
    | some bs =>
      rw [ho] at hb
      have ho' := ho
      unfold endpointOpen at ho'
      unbind ho' with x e1
      unfold openPayload at ho'
      unbind ho' with st e2
      have hp : Sized (x.1.iv, x.1.ciphertext) := by
        unfold Encrypted.parse at e1
        unbind e1 with y1 f1
        unbind e1 with y2 f2
        unbind e1 with y3 f3
        injection e1 with e1
        have l2 := takeN_some f2
        have l3 := takeN_some f3
        rw [← e1]
        exact ⟨l2.2, l3.2⟩
      have hl := (addLayer_sized hA keys hp).2
      simp only [payloadLen] at hl
      have hst : 5 ≤ st := by
        unfold findPayloadStart at e2
        split at e2
        · cases e2
        · split at e2
          · cases e2
          · split at e2
            · cases e2
            · injection e2 with e2; omega
      obtain ⟨h1, h2⟩ := parseInner_small _ _ _ ho' b hb
      refine ⟨?_, h2⟩
      rw [List.length_drop, hl] at h1
      omega
  | _ => rw [ht] at hb; cases hb

theorem small_add (f : Fragment) (b : Block) (hf : SmallF f) (hb : SmallB b) : SmallF (f.add b.kind b.msg) := by
  obtain ⟨h1, h2, h3⟩ := hf
  have hins : ∀ seq, seq < 64 → (∀ e ∈ f.frags.ins seq b.msg, e.1 < 64 ∧ e.2.length ≤ 1003) := by
    intro seq hs e he
    rcases OMap.mem_ins he with rfl | he
    · exact ⟨hs, hb.1⟩
    · exact h2 e he
  cases hk : b.kind with
  | unfragmented di => exact ⟨h1, h2, h3⟩
  | first mid di => exact ⟨fun x hx => by injection hx with hx; exact hx ▸ hb.1, h2, h3⟩
  | middle mid seq => exact ⟨h1, hins seq (hb.2 mid seq (.inl hk)), OMap.sorted_ins h3⟩
  | last mid seq => exact ⟨h1, hins seq (hb.2 mid seq (.inr hk)), OMap.sorted_ins h3⟩

/-- The payload of a message that an endpoint puts together. -/
def SmallM (p : Message × DI) : Prop := p.1.payload ≠ [] ∧ p.1.payload.length ≤ 65179

theorem small_construct (f : Fragment) (p : Message × DI) (hf : SmallF f) (h : f.construct = some p) : SmallM p := by
  obtain ⟨h1, h2, h3⟩ := hf
  unfold Fragment.construct Fragment.raw at h
  unbind h with x e1
  unbind e1 with di e2
  unbind e1 with first e3
  injection e1 with e1
  unbind h with y e4
  injection h with h
  obtain ⟨-, -, -, b4, -, b6⟩ := standard_bounds (M := y.1) (r := y.2) e4
  rw [← h]
  refine ⟨b4, ?_⟩
  rw [← e1] at b6
  simp only [List.length_append] at b6
  have := h1 first e3
  have := sorted_bound f.frags 0 h3 (fun e he => ⟨Nat.zero_le _, h2 e he⟩) (by decide)
  show y.1.payload.length ≤ _
  omega

theorem deliver_readable (sha : Sha) (hsha : ShaOk sha) (now : Duration) (id : Nat) (p : Message × DI) (hp : SmallM p) (o : Out)
    (h : deliver sha now id p = some o) : (received o).isSome = true := by
  unfold deliver at h
  split at h
  · cases h
  · split at h
    · cases h
    · injection h with h
      obtain ⟨i, e, h1⟩ := short_isSome p.1 hp.1 (by have := hp.2; omega)
      rw [← h]
      unfold received
      rw [h1]; rfl
    · injection h with h
      rename_i tid hash _
      have hl2 : (TunnelGateway.serialize ⟨tid, p.1.serializeStandard sha⟩).length = p.1.payload.length + 22 := by
        simp only [TunnelGateway.serialize, Message.serializeStandard, List.length_append, be_length, List.length_take, hsha p.1.payload]
        omega
      obtain ⟨i, e, h1⟩ := received_wrap hash now .tunnelGateway id (TunnelGateway.serialize ⟨tid, p.1.serializeStandard sha⟩)
        (by intro h0; rw [h0] at hl2; simp at hl2) (by have := hp.2; omega)
      rw [← h, h1]; rfl

/-! ## C237: a transit tunnel goes on whatever it is sent -/

/-- **C237**: built for release, the task of a transit tunnel goes on whatever messages it takes, until its timer or its channel ends. -/
theorem C237_goes_on_partial (A : Aes) (sha : Sha) (os : List Op) : ∀ t : Task, ∃ t', t.run A sha false os = some t' ∧
    (t'.over = true ↔ t.over = true ∨ live os ≠ os) := by
  have hov : ∀ (os : List Op) (t : Task), t.over = true → t.run A sha false os = some t := by
    intro os
    induction os with
    | nil => intro t _; rfl
    | cons o os ih =>
      intro t h
      show (t.step A sha false o).bind (fun u => u.run A sha false os) = some t
      have : t.step A sha false o = some t := by simp [Task.step, h]
      rw [this]; exact ih t h
  have hon : ∀ (r : Role) (h : Handler) (i : In), ∃ x, r.on A sha false h i = some x := by
    intro r h i
    cases r with
    | participant n => exact ⟨_, rfl⟩
    | gateway n padding =>
      have : ∃ y, gatewayOn A sha false n padding i = some y := by
        unfold gatewayOn
        cases i.m.type with
        | tunnelGateway =>
          dsimp only
          cases TunnelGateway.parse i.m.payload with
          | none => exact ⟨_, rfl⟩
          | some x =>
            dsimp only
            cases Message.parseStandard x.1.payload with
            | none => exact ⟨_, rfl⟩
            | some y => dsimp only; split <;> exact ⟨_, rfl⟩
        | _ => exact ⟨_, rfl⟩
      obtain ⟨y, hy⟩ := this
      exact ⟨(h, y), by simp only [Role.on, hy, Option.map_some]⟩
    | endpoint keys => exact ⟨_, endpointOn_eq A sha keys h i⟩
  induction os with
  | nil => intro t; exact ⟨t, rfl, by simp [live]⟩
  | cons o os ih =>
    intro t
    by_cases ht : t.over = true
    · exact ⟨t, hov _ t ht, by simp [ht]⟩
    · have ht' : t.over = false := by simpa using ht
      have key : ∀ u : Task, t.step A sha false o = some u → u.over = false → live (o :: os) = o :: live os →
          ∃ t', t.run A sha false (o :: os) = some t' ∧ (t'.over = true ↔ t.over = true ∨ live (o :: os) ≠ o :: os) := by
        intro u hu ho hl
        obtain ⟨t', h1, h2⟩ := ih u
        refine ⟨t', ?_, ?_⟩
        · show (t.step A sha false o).bind (fun u => u.run A sha false os) = some t'
          rw [hu]; exact h1
        · rw [h2, hl, ht', ho]; simp
      cases o with
      | message i =>
        obtain ⟨x, hx⟩ := hon t.role t.handler i
        have e : t.step A sha false (.message i) = some { t with
            handler := x.1
            sent := t.sent ++ x.2
            bandwidth := t.bandwidth + i.m.serializedLenShort + (x.2.map fun o => o.message.length).sum } := by
          simp [Task.step, ht', hx]
        exact key _ e ht' rfl
      | tick => exact key { t with reported := t.reported + t.bandwidth, bandwidth := 0 } (by simp [Task.step, ht']) ht' rfl
      | expired =>
        refine ⟨{ t with over := true }, ?_, by simp [live]⟩
        show (t.step A sha false .expired).bind (fun u => u.run A sha false os) = _
        have : t.step A sha false .expired = some { t with over := true } := by simp [Task.step, ht']
        rw [this]; exact hov _ _ rfl
      | closed =>
        refine ⟨{ t with over := true }, ?_, by simp [live]⟩
        show (t.step A sha false .closed).bind (fun u => u.run A sha false os) = _
        have : t.step A sha false .closed = some { t with over := true } := by simp [Task.step, ht']
        rw [this]; exact hov _ _ rfl

/-- **C237**: every message that the task of a transit tunnel gives to the routing table can be read, in either build, whatever it
takes: pieces of any sizes under any numbers, in any order. -/
theorem C237_readable_partial {A : Aes} (hA : A.Lawful) (sha : Sha) (hsha : ShaOk sha) (chk : Bool) (role : Role) (hr : role.Ok)
    (os : List Op) (hd : Drawn os) (t : Task) (h : Task.run A sha chk { role := role } os = some t) :
    ∀ o ∈ t.sent, (received o).isSome = true := by
  have := run_inv (A := A) (sha := sha) (chk := chk) (fun t => t.role = role ∧ (∀ mid f, t.handler mid = some f → SmallF f) ∧
    ∀ o ∈ t.sent, (received o).isSome = true) os (by
      intro t o t' ⟨h1, h2, h3⟩ ho hs
      unfold Task.step at hs
      split at hs
      · injection hs with hs; exact hs ▸ ⟨h1, h2, h3⟩
      cases o with
      | tick => injection hs with hs; exact hs ▸ ⟨h1, h2, h3⟩
      | expired => injection hs with hs; exact hs ▸ ⟨h1, h2, h3⟩
      | closed => injection hs with hs; exact hs ▸ ⟨h1, h2, h3⟩
      | message i =>
        dsimp only at hs
        unbind hs with x e1
        injection hs with hs
        have hi := hd i ho
        rw [h1] at e1
        have hx : (∀ mid f, x.1 mid = some f → SmallF f) ∧ ∀ o ∈ x.2, (received o).isSome = true := by
          cases role with
          | participant n =>
            injection e1 with e1
            rw [← e1]
            refine ⟨h2, ?_⟩
            intro o ho
            unfold participantOn at ho
            split at ho
            · split at ho
              · rename_i b hb
                rw [List.mem_singleton] at ho
                have hl := participant_len hA hb
                obtain ⟨id', e, hw⟩ := received_wrap n.router i.now .tunnelData (i.ids 0) b (ne_nil_of_len hl) (by omega)
                rw [ho, hw]; rfl
              · cases ho
            · cases ho
          | gateway n padding =>
            obtain ⟨random, hlen, rfl⟩ := hr
            simp only [Role.on, Option.map_eq_some_iff] at e1
            obtain ⟨y, e1, rfl⟩ := e1
            refine ⟨h2, ?_⟩
            intro o ho
            obtain ⟨k, b, m, hb, rfl⟩ := gatewayOn_some e1 o ho
            have hl := C13_tunnel_data_fixed_size sha hsha n.id .loc trivial m random hlen i.rnd hi b hb
            obtain ⟨hs, -⟩ := split_message hl
            have hr := addLayer_sized hA n.keys hs
            have hol : (gatewaySend A n.keys b).length = 1028 := by
              have h1 := hr.1
              have h2 := hr.2
              simp only [payloadLen] at h2
              simp only [gatewaySend, List.length_append, List.length_take, hl, h1, h2]
              omega
            obtain ⟨id', e, hw⟩ := received_wrap n.router i.now .tunnelData (i.ids k) _ (ne_nil_of_len hol) (by omega)
            rw [hw]; rfl
          | endpoint keys =>
            have e2 := endpointOn_some e1
            obtain ⟨b1, b2⟩ := blocks_inv SmallF SmallB SmallM ⟨by simp, by simp, by simp [OMap.Sorted]⟩ small_add small_construct
              (by
                intro b di M r hb _ hM
                obtain ⟨-, -, -, b4, -, b6⟩ := standard_bounds hM
                have := hb.1
                exact ⟨b4, by show M.payload.length ≤ _; omega⟩)
              (opened A sha keys i.m) t.handler h2 (opened_small hA sha keys i.m)
            rw [e2]
            refine ⟨b1, ?_⟩
            intro o ho
            simp only [List.mem_filterMap] at ho
            obtain ⟨q, hq, ho⟩ := ho
            exact deliver_readable sha hsha _ _ _ (b2 _ (mem_ready hq)) o ho
        rw [← hs]
        refine ⟨h1, hx.1, ?_⟩
        intro o ho
        rcases List.mem_append.1 ho with ho | ho
        · exact h3 o ho
        · exact hx.2 o ho) { role := role } t ⟨rfl, (fun mid f hf => by cases hf), (fun o ho => by cases ho)⟩ h
  exact this.2.2

/-- **C237** fails in debug builds: a gateway or endpoint that is sent a message for the other kind of tunnel ends the process. -/
theorem C237_debug_violated (A : Aes) (sha : Sha) (t : Task) (i : In) (os : List Op) (ho : t.over = false) :
    ((∃ n padding, t.role = .gateway n padding) → i.m.type = .tunnelData → t.run A sha true (.message i :: os) = none) ∧
    ((∃ keys, t.role = .endpoint keys) → i.m.type = .tunnelGateway → t.run A sha true (.message i :: os) = none) := by
  constructor
  · rintro ⟨n, padding, hr⟩ ht
    show (t.step A sha true (.message i)).bind (fun u => u.run A sha true os) = none
    have : t.step A sha true (.message i) = none := by simp [Task.step, ho, hr, Role.on, gatewayOn, ht]
    rw [this]; rfl
  · rintro ⟨keys, hr⟩ ht
    show (t.step A sha true (.message i)).bind (fun u => u.run A sha true os) = none
    have : t.step A sha true (.message i) = none := by simp [Task.step, ho, hr, Role.on, endpointOn, ht]
    rw [this]; rfl

/-! ## C238: hops send only where they were told to -/

/-- **C238**, participants: one message to the next hop for every tunnel message of the right size, under the id agreed with
the next hop; none for anything else. -/
theorem C238_participant {A : Aes} (hA : A.Lawful) (n : Next) (i : In) :
    (participantOn A n i).length = (if i.m.type = .tunnelData ∧ 1028 ≤ i.m.payload.length then 1 else 0) ∧
    ∀ o ∈ participantOn A n i, o.router = n.router ∧ ∃ g, received o = some g ∧ g.type = .tunnelData ∧
      g.payload.length = 1028 ∧ g.payload.take 4 = be 4 n.id := by
  have hp : (participant A n.keys n.id i.m.payload).isSome = true ↔ 1028 ≤ i.m.payload.length := by
    constructor
    · intro h
      obtain ⟨b, hb⟩ := Option.isSome_iff_exists.1 h
      unfold participant at hb
      unbind hb with x e1
      unfold Encrypted.parse at e1
      unbind e1 with y1 f1
      unbind e1 with y2 f2
      unbind e1 with y3 f3
      have g1 := (beU_some f1).1
      have g2 := takeN_some f2
      have g3 := takeN_some f3
      have l3 := g3.2
      simp only [payloadLen] at l3
      rw [g1, g2.1, g3.1]
      simp only [List.length_append, be_length, g2.2, l3]
      omega
    · intro h
      have : Encrypted.parse i.m.payload = some (⟨unbe (i.m.payload.take 4), (i.m.payload.drop 4).take 16,
          ((i.m.payload.drop 4).drop 16).take 1008⟩, ((i.m.payload.drop 4).drop 16).drop 1008) := by
        have l1 : 4 ≤ i.m.payload.length := by omega
        have l2 : 16 ≤ (i.m.payload.drop 4).length := by rw [List.length_drop]; omega
        have l3 : 1008 ≤ ((i.m.payload.drop 4).drop 16).length := by rw [List.length_drop, List.length_drop]; omega
        simp only [Encrypted.parse, beU, takeN, payloadLen, l1, l2, l3, if_true, Option.bind_eq_bind, Option.bind_some, pure]
      unfold participant
      rw [this]; rfl
  unfold participantOn
  cases ht : i.m.type with
  | tunnelData =>
    dsimp only
    cases hb : participant A n.keys n.id i.m.payload with
    | none =>
      have : ¬ 1028 ≤ i.m.payload.length := by rw [← hp, hb]; simp
      simp [this]
    | some b =>
      have hl := participant_len hA hb
      have : 1028 ≤ i.m.payload.length := by rw [← hp, hb]; rfl
      refine ⟨by simp [this], ?_⟩
      intro o ho
      rw [List.mem_singleton] at ho
      obtain ⟨id', e, hw⟩ := received_wrap n.router i.now .tunnelData (i.ids 0) b (ne_nil_of_len hl) (by omega)
      refine ⟨by rw [ho], _, by rw [ho]; exact hw, rfl, hl, ?_⟩
      unfold participant at hb
      unbind hb with x e1
      injection hb with hb
      show b.take 4 = _
      rw [← hb, List.append_assoc]
      exact List.take_left' (by simp)
  | _ => simp

/-- **C238**, gateways: tunnel messages to the next hop, under the id agreed with it, and nothing else. -/
theorem C238_gateway {A : Aes} (hA : A.Lawful) (sha : Sha) (hsha : ShaOk sha) (chk : Bool) (n : Next) (random : Bytes)
    (hrandom : random.length = 1028) (i : In) (hi : i.rnd.Ok) (os : List Out)
    (h : gatewayOn A sha chk n (paddingBytes random) i = some os) :
    (os ≠ [] → i.m.type = .tunnelGateway) ∧
    ∀ o ∈ os, o.router = n.router ∧ ∃ g, received o = some g ∧ g.type = .tunnelData ∧
      g.payload.length = 1028 ∧ g.payload.take 4 = be 4 n.id := by
  refine ⟨?_, ?_⟩
  · intro hne
    cases ht : i.m.type with
    | tunnelGateway => rfl
    | _ =>
      exfalso
      unfold gatewayOn at h
      rw [ht] at h
      cases chk
      · exact hne (Option.some.inj h).symm
      · cases h
  · intro o ho
    obtain ⟨k, b, m, hb, rfl⟩ := gatewayOn_some h o ho
    have hl := C13_tunnel_data_fixed_size sha hsha n.id .loc trivial m random hrandom i.rnd hi b hb
    obtain ⟨hs, -⟩ := split_message hl
    have hr := addLayer_sized hA n.keys hs
    have hol : (gatewaySend A n.keys b).length = 1028 := by
      have h1 := hr.1
      have h2 := hr.2
      simp only [payloadLen] at h2
      simp only [gatewaySend, List.length_append, List.length_take, hl, h1, h2]
      omega
    obtain ⟨id', e, hw⟩ := received_wrap n.router i.now .tunnelData (i.ids k) _ (ne_nil_of_len hol) (by omega)
    refine ⟨rfl, _, hw, rfl, hol, ?_⟩
    show (gatewaySend A n.keys b).take 4 = _
    have hb4 : b.take 4 = be 4 n.id := by
      have hser : ∀ d s m p iv r, (serialize sha n.id d s m p iv r).take 4 = be 4 n.id := by
        intro d s m p iv r
        simp only [serialize, List.append_assoc]
        exact List.take_left' (by simp)
      have hfo : ∀ (cs : List Bytes) nn size idx, ∀ b ∈ followOn sha n.id nn size (paddingBytes random) i.rnd idx cs, b.take 4 = be 4 n.id := by
        intro cs
        induction cs with
        | nil => intro nn size idx b hb; cases hb
        | cons c cs ih =>
          intro nn size idx b hb
          simp only [followOn, List.mem_cons] at hb
          rcases hb with hb | hb
          · rw [hb]; split <;> exact hser ..
          · exact ih _ _ _ b hb
      unfold build at hb
      dsimp only at hb
      split at hb
      · rw [List.mem_singleton] at hb; rw [hb]; exact hser ..
      · simp only [serializeFragmented, List.mem_cons] at hb
        rcases hb with hb | hb
        · rw [hb]; exact hser ..
        · exact hfo _ _ _ _ b hb
    have ht4 : (b.take 4).length = 4 := by rw [List.length_take, hl]; rfl
    unfold gatewaySend
    rw [List.append_assoc, List.take_left' ht4, hb4]

/-- **C238**, endpoints: a message goes only to a router that the instructions in a piece which came through the tunnel named. -/
theorem C238_endpoint (A : Aes) (sha : Sha) (chk : Bool) (keys : Keys) (os : List Op) (t : Task)
    (h : Task.run A sha chk { role := .endpoint keys } os = some t) :
    ∀ o ∈ t.sent, ∃ b ∈ (messages os).flatMap (opened A sha keys), ∃ di,
      (b.kind = .unfragmented di ∨ ∃ mid, b.kind = .first mid di) ∧ (di = .router o.router ∨ ∃ tid, di = .tunnel tid o.router) := by
  let B := (messages os).flatMap (opened A sha keys)
  let P : Fragment → Prop := fun f => ∀ di, f.di = some di → ∃ b ∈ B, ∃ mid, b.kind = .first mid di
  let R : Message × DI → Prop := fun p => ∃ b ∈ B, b.kind = .unfragmented p.2 ∨ ∃ mid, b.kind = .first mid p.2
  have := run_inv (A := A) (sha := sha) (chk := chk) (fun t => t.role = .endpoint keys ∧ (∀ mid f, t.handler mid = some f → P f) ∧
    ∀ o ∈ t.sent, ∃ b ∈ B, ∃ di, (b.kind = .unfragmented di ∨ ∃ mid, b.kind = .first mid di) ∧
      (di = .router o.router ∨ ∃ tid, di = .tunnel tid o.router)) os (by
      intro t o t' ⟨h1, h2, h3⟩ ho hs
      unfold Task.step at hs
      split at hs
      · injection hs with hs; exact hs ▸ ⟨h1, h2, h3⟩
      cases o with
      | tick => injection hs with hs; exact hs ▸ ⟨h1, h2, h3⟩
      | expired => injection hs with hs; exact hs ▸ ⟨h1, h2, h3⟩
      | closed => injection hs with hs; exact hs ▸ ⟨h1, h2, h3⟩
      | message i =>
        dsimp only at hs
        unbind hs with x e1
        injection hs with hs
        rw [h1] at e1
        have e2 := endpointOn_some e1
        have hin : ∀ b ∈ opened A sha keys i.m, b ∈ B := by
          intro b hb
          refine List.mem_flatMap.2 ⟨i.m, ?_, hb⟩
          exact List.mem_filterMap.2 ⟨.message i, ho, rfl⟩
        obtain ⟨b1, b2⟩ := blocks_inv P (· ∈ B) R (by intro di hdi; cases hdi)
          (by
            intro f b hf hb di hdi
            cases hk : b.kind with
            | first mid d =>
              rw [hk] at hdi
              injection hdi with hdi
              exact ⟨b, hb, mid, by rw [hk, hdi]⟩
            | unfragmented d => rw [hk] at hdi; exact hf di hdi
            | middle m s => rw [hk] at hdi; exact hf di hdi
            | last m s => rw [hk] at hdi; exact hf di hdi)
          (by
            intro f p hf hp
            unfold Fragment.construct Fragment.raw at hp
            unbind hp with y e3
            unbind e3 with di e4
            unbind e3 with first e5
            injection e3 with e3
            unbind hp with z e6
            injection hp with hp
            obtain ⟨b, hb, mid, hk⟩ := hf di e4
            refine ⟨b, hb, .inr ⟨mid, ?_⟩⟩
            rw [hk, ← hp, ← e3])
          (by intro b di M r hb hk _; exact ⟨b, hb, .inl hk⟩)
          (opened A sha keys i.m) t.handler h2 hin
        rw [← hs]
        refine ⟨h1, by rw [e2]; exact b1, ?_⟩
        intro o ho'
        rcases List.mem_append.1 ho' with ho' | ho'
        · exact h3 o ho'
        · rw [e2] at ho'
          simp only [List.mem_filterMap] at ho'
          obtain ⟨q, hq, ho'⟩ := ho'
          obtain ⟨b, hb, hk⟩ := b2 _ (mem_ready hq)
          refine ⟨b, hb, q.2.2, hk, ?_⟩
          unfold deliver at ho'
          split at ho'
          · cases ho'
          · split at ho'
            · cases ho'
            · injection ho' with ho'; rename_i hdi; exact .inl (by rw [hdi, ← ho'])
            · injection ho' with ho'; rename_i hdi; exact .inr ⟨_, by rw [hdi, ← ho']⟩)
    { role := .endpoint keys } t ⟨rfl, (fun mid f hf => by cases hf), (fun o ho => by cases ho)⟩ h
  exact this.2.2

/-! ## C239: transit bandwidth -/

/-- **C239**, in part: what a transit tunnel reported, with what it has yet to report, is exactly the bytes of the messages
it took and of those it sent. -/
theorem C239_accounted_partial (A : Aes) (sha : Sha) (chk : Bool) (role : Role) (os : List Op) (t : Task)
    (h : Task.run A sha chk { role := role } os = some t) : t.reported + t.bandwidth = bytesIn os + bytesOut t := by
  have hov : ∀ (os : List Op) (t t' : Task), t.over = true → t.run A sha chk os = some t' → t' = t := by
    intro os
    induction os with
    | nil => intro t t' _ h2; simp only [Task.run, List.foldlM_nil, pure, Option.some.injEq] at h2; exact h2.symm
    | cons o os ih =>
      intro t t' h1 h2
      simp only [Task.run, List.foldlM_cons] at h2
      unbind h2 with u e1
      simp only [Task.step, h1, if_true, Option.some.injEq] at e1
      subst e1
      exact ih t t' h1 h2
  have key : ∀ (os : List Op) (t t' : Task), t.over = false → t.run A sha chk os = some t' →
      t'.reported + t'.bandwidth + bytesOut t = t.reported + t.bandwidth + bytesIn os + bytesOut t' := by
    intro os
    induction os with
    | nil => intro t t' _ h2; simp only [Task.run, List.foldlM_nil, pure, Option.some.injEq] at h2; subst h2; rfl
    | cons o os ih =>
      intro t t' h1 h2
      simp only [Task.run, List.foldlM_cons] at h2
      unbind h2 with u e1
      simp only [Task.step, h1, Bool.false_eq_true, if_false] at e1
      cases o with
      | message i =>
        dsimp only at e1
        unbind e1 with x e2
        injection e1 with e1
        have := ih u t' (by rw [← e1]) h2
        have hin : bytesIn (.message i :: os) = i.m.payload.length + 11 + bytesIn os := by
          show (((i.m :: messages (live os))).map fun m : Message => m.payload.length + 11).sum = _
          simp [bytesIn]
        rw [← e1] at this
        simp only [bytesOut, List.map_append, List.sum_append, Message.serializedLenShort] at this
        rw [hin]
        simp only [bytesOut]
        omega
      | tick =>
        injection e1 with e1
        have := ih u t' (by rw [← e1]) h2
        have hin : bytesIn (.tick :: os) = bytesIn os := rfl
        rw [← e1] at this
        simp only [bytesOut] at this
        rw [hin]
        simp only [bytesOut]
        omega
      | expired =>
        injection e1 with e1
        have := hov os u t' (by rw [← e1]) h2
        rw [this, ← e1]
        rfl
      | closed =>
        injection e1 with e1
        have := hov os u t' (by rw [← e1]) h2
        rw [this, ← e1]
        rfl
  have := key os { role := role } t rfl h
  simp only [bytesOut] at this ⊢
  simpa using this

/-- **C239** fails at the end of a tunnel: what it carried since it last reported is never counted. -/
theorem C239_lost_violated (A : Aes) (sha : Sha) (chk : Bool) (t t' : Task) (i : In) (o : Op) (ho : o = .expired ∨ o = .closed) (os : List Op)
    (hl : t.over = false) (h : t.run A sha chk (.message i :: o :: os) = some t') :
    t'.reported = t.reported ∧ 0 < t'.bandwidth ∧ t'.over = true := by
  have hov : ∀ (os : List Op) (t t' : Task), t.over = true → t.run A sha chk os = some t' → t' = t := by
    intro os
    induction os with
    | nil => intro t t' _ h2; simp only [Task.run, List.foldlM_nil, pure, Option.some.injEq] at h2; exact h2.symm
    | cons o os ih =>
      intro t t' h1 h2
      simp only [Task.run, List.foldlM_cons] at h2
      unbind h2 with u e1
      simp only [Task.step, h1, if_true, Option.some.injEq] at e1
      subst e1
      exact ih t t' h1 h2
  simp only [Task.run, List.foldlM_cons] at h
  unbind h with u e1
  unbind h with v e2
  simp only [Task.step, hl, Bool.false_eq_true, if_false] at e1
  unbind e1 with x e3
  injection e1 with e1
  have hu : u.over = false := by rw [← e1]
  have e2' : v = { u with over := true } := by
    rcases ho with rfl | rfl <;> · simp only [Task.step, hu, Bool.false_eq_true, if_false, Option.some.injEq] at e2; exact e2.symm
  have := hov os v t' (by rw [e2']) h
  rw [this, e2', ← e1]
  refine ⟨rfl, ?_, rfl⟩
  show 0 < t.bandwidth + i.m.serializedLenShort + _
  simp only [Message.serializedLenShort]
  omega

/-! ## C240: zero-hop tunnels -/

/-- **C240**, in part: the first message that is routed to a zero-hop tunnel decides: once it was polled, the reply is what this message
carries, whatever else is routed to it, and the tunnel is over and its place in the routing table is free. -/
theorem C240_first_partial (ps os : List ZOp) (hp : ∀ o ∈ ps, o = .poll false) (m : Message) (e : Bool) (hpoll : .poll e ∈ os) :
    (Zero.run (ps ++ .route m :: os)).reply = replyIn m ∧ (Zero.run (ps ++ .route m :: os)).over = true ∧
    (Zero.run (ps ++ .route m :: os)).listed = false := by
  have h0 : ps.foldl Zero.step {} = {} := by
    induction ps with
    | nil => rfl
    | cons o ps ih =>
      have := hp o (by simp)
      subst this
      exact ih (fun o ho => hp o (List.mem_cons_of_mem _ ho))
  have hend : ∀ os : List ZOp, ∀ z : Zero, z.over = true → z.listed = false → os.foldl Zero.step z = z := by
    intro os
    induction os with
    | nil => intro z _ _; rfl
    | cons o os ih =>
      intro z h1 h2
      have : z.step o = z := by cases o <;> simp [Zero.step, h1, h2]
      rw [List.foldl_cons, this]; exact ih z h1 h2
  unfold Zero.run
  rw [List.foldl_append, h0, List.foldl_cons]
  have h1 : Zero.step {} (.route m) = { queue := some m } := rfl
  rw [h1]
  have key : ∀ os : List ZOp, .poll e ∈ os →
      os.foldl Zero.step { queue := some m } = { queue := none, reply := replyIn m, listed := false, over := true } := by
    intro os
    induction os with
    | nil => intro h; cases h
    | cons o os ih =>
      intro h
      rw [List.foldl_cons]
      cases o with
      | route m' =>
        have : Zero.step { queue := some m } (.route m') = { queue := some m } := rfl
        rw [this]
        exact ih (by simpa using h)
      | poll e' => exact hend os _ rfl rfl
  rw [key os hpoll]
  exact ⟨rfl, rfl, rfl⟩

/-- **C240**: a zero-hop tunnel gives at most one reply and that only once, and ends when its timer does. -/
theorem C240_once_partial (os : List ZOp) :
    (.poll true ∈ os → (Zero.run os).over = true ∧ (Zero.run os).listed = false) ∧
    (∀ os' r, (Zero.run os).reply = some r → (Zero.run (os ++ os')).reply = some r) ∧
    (∀ r, (Zero.run os).reply = some r → ∃ m, .route m ∈ os ∧ replyIn m = some r) := by
  have hend : ∀ os : List ZOp, ∀ z : Zero, z.over = true → z.listed = false → os.foldl Zero.step z = z := by
    intro os
    induction os with
    | nil => intro z _ _; rfl
    | cons o os ih =>
      intro z h1 h2
      have : z.step o = z := by cases o <;> simp [Zero.step, h1, h2]
      rw [List.foldl_cons, this]; exact ih z h1 h2
  have hI : ∀ os' : List ZOp, (∀ o ∈ os', o ∈ os) → ∀ z : Zero,
      (((z.over = true ∧ z.listed = false) ∨ (z.over = false ∧ z.reply = none)) ∧ (∀ m, z.queue = some m → .route m ∈ os) ∧
      ∀ r, z.reply = some r → ∃ m, .route m ∈ os ∧ replyIn m = some r) →
      ((((os'.foldl Zero.step z).over = true ∧ (os'.foldl Zero.step z).listed = false) ∨ ((os'.foldl Zero.step z).over = false ∧ (os'.foldl Zero.step z).reply = none)) ∧ (∀ m, (os'.foldl Zero.step z).queue = some m → .route m ∈ os) ∧
      ∀ r, (os'.foldl Zero.step z).reply = some r → ∃ m, .route m ∈ os ∧ replyIn m = some r) := by
    intro os'
    induction os' with
    | nil => intro _ z h; exact h
    | cons o os' ih =>
      intro hsub z ⟨h1, h2, h3⟩
      rw [List.foldl_cons]
      refine ih (fun o ho => hsub o (List.mem_cons_of_mem _ ho)) _ ?_
      have ho := hsub o (by simp)
      cases o with
      | route m =>
        simp only [Zero.step]
        split
        · exact ⟨h1, fun m' hm => by injection hm with hm; exact hm ▸ ho, h3⟩
        · exact ⟨h1, h2, h3⟩
      | poll e =>
        simp only [Zero.step]
        split
        · exact ⟨h1, h2, h3⟩
        · cases hq : z.queue with
          | some m => exact ⟨.inl ⟨rfl, rfl⟩, by simp, fun r hr => ⟨m, h2 m hq, hr⟩⟩
          | none =>
            cases e with
            | true => exact ⟨.inl ⟨rfl, rfl⟩, by simp [hq], h3⟩
            | false => exact ⟨h1, by simp [hq], h3⟩
  have hI' := hI os (fun _ h => h) {} ⟨.inr ⟨rfl, rfl⟩, by simp, by simp⟩
  refine ⟨?_, ?_, hI'.2.2⟩
  · intro h
    obtain ⟨a, b, rfl⟩ := List.append_of_mem h
    unfold Zero.run
    rw [List.foldl_append, List.foldl_cons]
    generalize hz : a.foldl Zero.step {} = z
    have hzI := hI a (fun o ho => List.mem_append_left _ ho) {} ⟨.inr ⟨rfl, rfl⟩, by simp, by simp⟩
    rw [hz] at hzI
    have : (z.step (.poll true)).over = true ∧ (z.step (.poll true)).listed = false := by
      simp only [Zero.step]
      split
      · rename_i ho
        rcases hzI.1 with h | h
        · exact h
        · rw [ho] at h; cases h.1
      · split
        · exact ⟨rfl, rfl⟩
        · exact ⟨rfl, rfl⟩
    rw [hend b _ this.1 this.2]
    exact this
  · intro os' r hr
    have : (Zero.run os).over = true ∧ (Zero.run os).listed = false := by
      rcases hI'.1 with h | h
      · exact h
      · have := h.2
        unfold Zero.run at hr
        rw [this] at hr; cases hr
    unfold Zero.run at *
    rw [List.foldl_append, hend os' _ this.1 this.2]
    exact hr

/-- **C240** fails when anything else is sent to the tunnel first: the reply that comes next is lost and the tunnel is gone. -/
theorem C240_junk_violated (ps os : List ZOp) (hp : ∀ o ∈ ps, o = .poll false) (junk reply : Message) (e : Bool)
    (hj : replyIn junk = none) (hpoll : .poll e ∈ os) :
    (Zero.run (ps ++ .route junk :: .route reply :: os)).reply = none ∧
    (Zero.run (ps ++ .route junk :: .route reply :: os)).over = true := by
  obtain ⟨h1, h2, -⟩ := C240_first_partial ps (.route reply :: os) hp junk e (List.mem_cons_of_mem _ hpoll)
  exact ⟨by rw [h1, hj], h2⟩

/-! ## Examples -/

theorem toyAes_lawful : toyAes.Lawful := by
  refine ⟨?_, ?_, ?_, ?_⟩ <;> intro k b h <;> simp [toyAes, h]
  · exact List.map_id'' (fun x => by simp) b
  · exact List.map_id'' (fun x => by simp) b

theorem toySha_ok : ShaOk toySha := fun b => by simp [toySha]
theorem toyRnd_ok : toyRnd.Ok := ⟨by decide, fun i => by simp [toyRnd]⟩

def toyNext : Next := ⟨[7], 5, ⟨[1], [2]⟩⟩
def toyStop : Stop := ⟨toyNext, fromSecs 1, 9⟩
theorem toyStop_ok : toyStop.Ok := ⟨by decide, by unfold Clock; decide⟩
/-- A data message of twelve bytes. -/
def toyData : Message := ⟨.data, 77, 5000000000, List.replicate 12 9⟩
def toyBytes : Bytes := toyData.serializeStandard toySha
def toyRandom : Bytes := List.replicate 1028 4
theorem toyRandom_length : toyRandom.length = 1028 := List.length_replicate ..

theorem toyBytes_parse : Message.parseStandard toyBytes = some (toyData, []) := by decide +kernel
theorem toyBytes_fits (di : DI) : Fits di toyBytes := by
  have : toyBytes.length = 28 := by decide +kernel
  show toyBytes.length ≤ 997 - di.len + 63 * 996
  omega

example := C235_delivered_partial toyAes_lawful toySha toySha_ok true [toyStop, toyStop] (by intro s hs; simp at hs; exact hs ▸ toyStop_ok) ⟨[3], [4]⟩ [8] 6
  toyRandom toyRandom_length (.router (List.replicate 32 1)) (by show (List.replicate 32 1).length = 32; simp) (by simp) (fromSecs 1) (by unfold Clock; decide) (fun k => k % 100)
  (fun k => by omega) toyRnd toyRnd_ok toyData toyBytes toyBytes_parse (toyBytes_fits _) (by decide)

/-- The gateway's message for the tunnel. -/
def toyGw : In := ⟨⟨.tunnelGateway, 3, 9000000000, TunnelGateway.serialize ⟨5, toyBytes⟩⟩, fromSecs 2, fun k => k % 100, toyRnd⟩

example := C236_inbound_partial toyAes_lawful toySha toySha_ok true toyNext [toyStop] (by intro s hs; simp at hs; exact hs ▸ toyStop_ok)
  toyRandom toyRandom_length toyGw (by unfold Clock; decide) (fun k => by show k % 100 < _; omega) toyRnd_ok 5 toyBytes [] toyData rfl (by decide +kernel) toyBytes_parse
  (toyBytes_fits _) (by decide)

/-- A piece that goes to the router `h`. -/
def toyText : Bytes :=
  let d := be 1 64 ++ List.replicate 32 1 ++ be 2 28 ++ toyBytes
  let iv := (List.replicate 16 14)
  (toySha (d ++ iv)).take 4 ++ List.replicate (1008 - 4 - 1 - d.length) 1 ++ [0] ++ d

example : (openPayload toySha toyText (List.replicate 16 14)).map (·.length) = some 1 := by decide +kernel

/-- The message that the endpoint takes. -/
def toyPiece : In := ⟨⟨.tunnelData, 3, 9000000000, ownerSend toyAes [⟨[3], [4]⟩] (be 4 6 ++ List.replicate 16 14 ++ toyText)⟩, fromSecs 2, fun k => k % 100, toyRnd⟩

example : ((Task.run toyAes toySha true { role := .endpoint ⟨[3], [4]⟩ } [.message toyPiece, .tick, .message toyPiece]).map
    fun t => (t.sent.map (·.router), t.bandwidth, t.reported)) = some ([List.replicate 32 1, List.replicate 32 1], 1062, 1062) := by
  decide +kernel

example := fun t => C237_readable_partial toyAes_lawful toySha toySha_ok true (.endpoint ⟨[3], [4]⟩) trivial [.message toyPiece, .tick]
  (by intro i hi; simp at hi; subst hi; exact toyRnd_ok) t
example := fun t => C238_endpoint toyAes toySha true ⟨[3], [4]⟩ [.message toyPiece, .tick] t
example := C238_participant toyAes_lawful toyNext toyPiece
example : (gatewayOn toyAes toySha true toyNext (paddingBytes toyRandom) toyGw).map (·.length) = some 1 := by decide +kernel
example := C238_gateway toyAes_lawful toySha toySha_ok true toyNext toyRandom toyRandom_length toyGw toyRnd_ok
example := C237_debug_violated toyAes toySha { role := .endpoint ⟨[3], [4]⟩ } toyGw [] rfl
example := C237_goes_on_partial toyAes toySha [.message toyGw, .tick, .message toyPiece] { role := .endpoint ⟨[3], [4]⟩ }
example := fun t' => C239_lost_violated toyAes toySha true { role := .endpoint ⟨[3], [4]⟩ } t' toyPiece .expired (.inl rfl) [] rfl
example : (Task.run toyAes toySha true { role := .endpoint ⟨[3], [4]⟩ } [.message toyPiece, .expired]).isSome = true := by decide +kernel

example : replyIn toyGw.m = some toyData := by decide +kernel
example : replyIn toyData = none := by decide +kernel
example := C240_first_partial [.poll false] [.poll false] (by simp) toyGw.m false (by simp)
example := C240_junk_violated [.poll false] [.poll false] (by simp) toyData toyGw.m false (by decide +kernel) (by simp)

end Emissary.Hop
