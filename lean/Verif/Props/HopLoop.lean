import Verif.Model.HopLoop
import Verif.Props.I2np
import Verif.Props.TunnelFragment
/-!
# C235 and C236: messages through the tasks of tunnels
-/
namespace Emissary.Hop
open Emissary Emissary.I2np Emissary.Tunnel

/-! ## Specification -/

/-- The message another router reads. -/
def received (o : Out) : Option Message := (Message.parseShort o.message).map (·.1)

/-- A participant on the way, with the time at which it handles the message and the id it draws. -/
structure Stop where
  next : Next
  now : Duration
  id : Nat

/-- A message on its way through participants: each reads what the one before sent, and sends one message. -/
def carry (A : Aes) : List Stop → Message → Option Message
  | [], m => some m
  | s :: rest, m =>
    match participantOn A s.next ⟨m, s.now, fun _ => s.id, ⟨0, fun _ => [], fun _ => 0⟩⟩ with
    | [o] => (received o).bind (carry A rest)
    | _ => none

/-- The clock shows a time before 2106, eight seconds from now included. -/
def Clock (now : Duration) : Prop := (now + 8 * 1000000000) / 1000000000 < 2 ^ 32

structure Stop.Ok (s : Stop) : Prop where
  id : s.id < 2 ^ 32
  now : Clock s.now

/-- The pieces in a message that reaches the endpoint. -/
def opened (A : Aes) (sha : Sha) (keys : Keys) (m : Message) : List Block :=
  match m.type with
  | .tunnelData => (endpointOpen A sha keys m.payload).getD []
  | _ => []

/-- The messages in a history. -/
def messages (os : List Op) : List Message := os.filterMap fun | .message i => some i.m | _ => none

/-- `b` is the last piece of `frags` that was missing: all others are among `bs`, `b` is not, and no other message in `bs`
uses the number `mid`. -/
structure Completes (frags : List Block) (mid : Nat) (bs : List Block) (b : Block) : Prop where
  piece : b ∈ frags
  missing : b ∉ bs
  rest : ∀ f ∈ frags, f ≠ b → f ∈ bs
  others : ∀ x ∈ bs, x ∉ frags → ∀ di seq, x.kind ≠ .first mid di ∧ x.kind ≠ .middle mid seq ∧ x.kind ≠ .last mid seq

/-- `M` as it is read from a short header, which has whole seconds. -/
def inSeconds (M : Message) : Message := { M with expiration := M.expiration / 1000000000 * 1000000000 }

/-- `o` hands over `M` as `di` says: to the router, or to the gateway of the tunnel. -/
def Delivers (M : Message) : DI → Out → Prop
  | .loc, _ => False
  | .router hash, o => o.router = hash ∧ received o = some (inSeconds M)
  | .tunnel tid hash, o => o.router = hash ∧ ∃ g b, received o = some g ∧ g.type = .tunnelGateway ∧
      TunnelGateway.parse g.payload = some (⟨tid, b⟩, []) ∧ Message.parseStandard b = some (M, [])

/-! ## Lemmas -/

theorem wrap_received (router : Bytes) (now : Duration) (ty : MessageType) (id : Nat) (payload : Bytes) (hid : id < 2 ^ 32)
    (hnow : Clock now) (hne : payload ≠ []) (hlen : payload.length ≤ 65526) :
    ∃ e, received ⟨router, wrap now ty id payload⟩ = some ⟨ty, id, e, payload⟩ := by
  have := C16_short_header_roundtrip ⟨ty, id, now + fromSecs 8, payload⟩ [] hid
    (by simp only [fromSecs]; exact hnow) hne hlen
  rw [List.append_nil] at this
  refine ⟨(now + fromSecs 8) / 1000000000 * 1000000000, ?_⟩
  unfold received wrap
  rw [this]; rfl

theorem participant_len {A : Aes} (hA : A.Lawful) {k : Keys} {nid : Nat} {m b : Bytes} (h : participant A k nid m = some b) :
    b.length = 1028 := by
  unfold participant at h
  cases hp : Encrypted.parse m with
  | none => rw [hp] at h; cases h
  | some x =>
    rw [hp] at h
    obtain ⟨e, r⟩ := x
    simp only [Option.bind_eq_bind, Option.bind_some, pure, Option.some.injEq] at h
    unfold Encrypted.parse at hp
    unbind hp with x1 e1
    unbind hp with x2 e2
    unbind hp with x3 e3
    injection hp with hp
    have l2 := takeN_some e2
    have l3 := takeN_some e3
    have he : e = ⟨x1.1, x2.1, x3.1⟩ := (congrArg Prod.fst hp).symm
    subst he
    have hs : Sized (x2.1, x3.1) := ⟨l2.2, l3.2⟩
    have := addLayer_sized hA k hs
    rw [← h]
    simp only [List.length_append, be_length, this.1, this.2, payloadLen]

theorem ne_nil_of_len {b : Bytes} (h : b.length = 1028) : b ≠ [] := by rintro rfl; simp at h

theorem carry_spec {A : Aes} (hA : A.Lawful) (stops : List Stop) (hok : ∀ s ∈ stops, s.Ok) :
    ∀ (m : Bytes) (id : Nat) (e : Duration) (b : Bytes),
    participants A (stops.map fun s => (s.next.keys, s.next.id)) m = some b →
    ∃ id' e', carry A stops ⟨.tunnelData, id, e, m⟩ = some ⟨.tunnelData, id', e', b⟩ := by
  induction stops with
  | nil => intro m id e b h; simp only [List.map_nil, participants, Option.some.injEq] at h; subst h; exact ⟨id, e, rfl⟩
  | cons s stops ih =>
    intro m id e b h
    simp only [List.map_cons, participants] at h
    unbind h with x e1
    have hs := hok s (by simp)
    have hl := participant_len hA e1
    obtain ⟨e', hw⟩ := wrap_received s.next.router s.now .tunnelData s.id x hs.id hs.now (ne_nil_of_len hl) (by omega)
    simp only [carry, participantOn, e1, hw, Option.bind_some]
    exact ih (fun s hs => hok s (List.mem_cons_of_mem _ hs)) _ _ _ _ h

/-- What the task of an endpoint does with a message. -/
theorem endpointOn_eq (A : Aes) (sha : Sha) (keys : Keys) (h : Handler) (i : In) :
    endpointOn A sha false keys h i = some ((h.blocks (opened A sha keys i.m)).1,
      (ready (h.blocks (opened A sha keys i.m)).2).filterMap fun p => deliver sha i.now (i.ids p.1) p.2) := by
  unfold endpointOn opened
  cases ht : i.m.type with
  | tunnelData =>
    dsimp only
    cases hp : Encrypted.parse i.m.payload with
    | none =>
      have : endpointOpen A sha keys i.m.payload = none := by simp [endpointOpen, hp]
      rw [this]; rfl
    | some x =>
      dsimp only
      cases endpointOpen A sha keys i.m.payload with
      | none => rfl
      | some bs => rfl
  | _ => rfl

theorem ready_one (o : Option (Message × DI)) : ready [o] = (o.map fun p => (0, p)).toList := by
  cases o <;> rfl

/-- The state of an endpoint. -/
theorem run_handler (A : Aes) (sha : Sha) (keys : Keys) (os : List Op) : ∀ (t t' : Task), t.role = .endpoint keys →
    t.run A sha false os = some t' → t'.over = false →
    t.over = false ∧ t'.role = .endpoint keys ∧ t'.handler = (t.handler.blocks ((messages os).flatMap (opened A sha keys))).1 := by
  induction os with
  | nil =>
    intro t t' hr h ho
    simp only [Task.run, List.foldlM_nil, pure, Option.some.injEq] at h
    subst h; exact ⟨ho, hr, rfl⟩
  | cons o os ih =>
    intro t t' hr h ho
    have hov : ∀ (os : List Op) (t t' : Task), t.over = true → t.run A sha false os = some t' → t'.over = true := by
      intro os
      induction os with
      | nil => intro t t' h1 h2; simp only [Task.run, List.foldlM_nil, pure, Option.some.injEq] at h2; exact h2 ▸ h1
      | cons o os ih =>
        intro t t' h1 h2
        simp only [Task.run, List.foldlM_cons] at h2
        unbind h2 with u e1
        refine ih u t' ?_ h2
        simp only [Task.step, h1, if_true, Option.some.injEq] at e1
        exact e1 ▸ h1
    simp only [Task.run, List.foldlM_cons] at h
    unbind h with u e1
    have hto : t.over = false := by
      cases ht : t.over with
      | false => rfl
      | true =>
        simp only [Task.step, ht, if_true, Option.some.injEq] at e1
        have := hov os u t' (e1 ▸ ht) h
        rw [this] at ho; cases ho
    refine ⟨hto, ?_⟩
    simp only [Task.step, hto, Bool.false_eq_true, if_false] at e1
    cases o with
    | message i =>
      simp only [hr, Role.on, endpointOn_eq, Option.bind_eq_bind, Option.bind_some, Option.some.injEq] at e1
      obtain ⟨-, h2, h3⟩ := ih u t' (by rw [← e1]) h ho
      refine ⟨h2, ?_⟩
      rw [h3, ← e1]
      have : messages (.message i :: os) = i.m :: messages os := rfl
      rw [this, List.flatMap_cons, blocks_append]
    | tick =>
      injection e1 with e1
      obtain ⟨-, h2, h3⟩ := ih u t' (by rw [← e1]; exact hr) h ho
      exact ⟨h2, by rw [h3, ← e1]; rfl⟩
    | expired =>
      injection e1 with e1
      have := hov os u t' (by rw [← e1]) h
      rw [this] at ho; cases ho
    | closed =>
      injection e1 with e1
      have := hov os u t' (by rw [← e1]) h
      rw [this] at ho; cases ho

theorem standard_bounds {b : Bytes} {M : Message} {r : Bytes} (h : Message.parseStandard b = some (M, r)) :
    M.id < 2 ^ 32 ∧ M.expiration / 1000000 < 2 ^ 64 ∧ M.expiration / 1000000 * 1000000 = M.expiration ∧ M.payload ≠ [] ∧
    M.payload.length ≤ 65535 ∧ b.length = M.payload.length + 16 + r.length := by
  obtain ⟨⟨c, hc⟩, hne⟩ := C17_standard_header_parse_exact h
  unfold Message.parseStandard at h
  unbind h with x1 e1
  unbind h with x2 e2
  unbind h with x3 e3
  unbind h with x4 e4
  unbind h with x5 e5
  unbind h with x6 e6
  have b2 := beU_some e2
  have b3 := beU_some e3
  have b4 := beU_some e4
  have b6 := takeN_some e6
  split at h
  · cases h
  · unbind h with x7 e7
    injection h with h
    injection h with h h'
    subst h
    refine ⟨?_, ?_, ?_, hne, ?_, ?_⟩
    · simpa using b2.2
    · show x3.1 * 1000000 / 1000000 < 2 ^ 64
      rw [Nat.mul_div_cancel _ (by decide)]; simpa using b3.2
    · show x3.1 * 1000000 / 1000000 * 1000000 = x3.1 * 1000000
      rw [Nat.mul_div_cancel _ (by decide)]
    · have := b4.2; simp only; omega
    · rw [hc]
      simp only [Message.serializeStandard, List.length_append, be_length, List.length_take, List.length_singleton]
      omega

theorem delivers_spec (sha : Sha) (hsha : ShaOk sha) (now : Duration) (id : Nat) (M : Message) (di : DI) (bytes : Bytes)
    (hM : Message.parseStandard bytes = some (M, [])) (hfit : Fits di bytes) (hdi : di.Ok) (hne : di ≠ .loc) (hid : id < 2 ^ 32)
    (hnow : Clock now) (hexp : M.expiration / 1000000000 < 2 ^ 32) :
    (now ≤ M.expiration → ∃ o, deliver sha now id (M, di) = some o ∧ Delivers M di o) ∧
    (M.expiration < now → deliver sha now id (M, di) = none) := by
  obtain ⟨b1, b2, b3, b4, b5, b6⟩ := standard_bounds hM
  refine ⟨fun h => ?_, fun h => by simp [deliver, h]⟩
  have hfit : bytes.length ≤ 997 - di.len + 63 * 996 := hfit
  rw [b6, List.length_nil] at hfit
  have hs := C17_standard_header_roundtrip sha (fun b => by rw [hsha]; decide) M [] b1 b2 b4 b5
  rw [List.append_nil, b3] at hs
  unfold deliver
  rw [if_neg (Nat.not_lt.2 h)]
  cases di with
  | loc => exact absurd rfl hne
  | router hash =>
    refine ⟨_, rfl, rfl, ?_⟩
    have := C16_short_header_roundtrip M [] b1 hexp b4 (by omega)
    rw [List.append_nil] at this
    show (Message.parseShort M.serializeShort).map (·.1) = _
    rw [this]; rfl
  | tunnel tid hash =>
    have hl : (M.serializeStandard sha).length = M.payload.length + 16 := by
      simp only [Message.serializeStandard, List.length_append, be_length, List.length_take, hsha M.payload]; omega
    have hl2 : (TunnelGateway.serialize ⟨tid, M.serializeStandard sha⟩).length = M.payload.length + 22 := by
      simp only [TunnelGateway.serialize, List.length_append, be_length]; rw [hl]; omega
    obtain ⟨e, hw⟩ := wrap_received hash now .tunnelGateway id (TunnelGateway.serialize ⟨tid, M.serializeStandard sha⟩) hid hnow
      (by intro h0; rw [h0] at hl2; simp at hl2) (by omega)
    refine ⟨_, rfl, rfl, _, M.serializeStandard sha, hw, rfl, ?_, hs⟩
    have := C19_tunnel_gateway_roundtrip ⟨tid, M.serializeStandard sha⟩ [] hdi.1 (by show (M.serializeStandard sha).length < _; omega)
    rw [List.append_nil] at this
    exact this

/-! ## C235: through an outbound tunnel -/

theorem delivered_unchecked {A : Aes} (hA : A.Lawful) (sha : Sha) (hsha : ShaOk sha) (stops : List Stop) (hok : ∀ s ∈ stops, s.Ok)
    (last : Keys) (router : Bytes) (first : Nat) (random : Bytes) (hrandom : random.length = 1028) (di : DI) (hdi : di.Ok) (hne : di ≠ .loc)
    (now : Duration) (hnow : Clock now) (ids : Nat → Nat) (hids : ∀ k, ids k < 2 ^ 32) (rnd : Rnd) (hrnd : rnd.Ok)
    (M : Message) (bytes : Bytes) (hM : Message.parseStandard bytes = some (M, [])) (hfit : Fits di bytes)
    (hexp : M.expiration / 1000000000 < 2 ^ 32) :
    let sent := ownerSends A sha (stops.map (·.next.keys) ++ [last]) router first (paddingBytes random) di bytes now ids rnd
    (∀ o ∈ sent, o.router = router) ∧
    ∃ (arrived : List Message) (frags : List Block), arrived ≠ [] ∧
      sent.map (fun o => (received o).bind (carry A stops)) = arrived.map some ∧
      arrived.map (opened A sha last) = frags.map (fun f => [f]) ∧
      ∀ (os : List Op) (t : Task) (i : In) (b : Block), Task.run A sha false { role := .endpoint last } os = some t → t.over = false →
        opened A sha last i.m = [b] → Clock i.now → (∀ k, i.ids k < 2 ^ 32) →
        Completes frags rnd.mid ((messages os).flatMap (opened A sha last)) b →
        ∃ t' out, t.step A sha false (.message i) = some t' ∧ t'.sent = t.sent ++ out ∧
          (i.now ≤ M.expiration → ∃ o, out = [o] ∧ Delivers M di o) ∧ (M.expiration < i.now → out = []) ∧
          ∀ (os1 os2 : List Op) (j : In) (f : Block) (t1 : Task), os = os1 ++ .message j :: os2 → opened A sha last j.m = [f] → f ∈ frags →
            Task.run A sha false { role := .endpoint last } os1 = some t1 →
            ∃ t2, t1.step A sha false (.message j) = some t2 ∧ t2.sent = t1.sent := by
  intro sent
  have hsent : sent = (build sha first di bytes (paddingBytes random) rnd).mapIdx fun k b =>
      ⟨router, wrap now .tunnelData (ids k) (ownerSend A (stops.map (·.next.keys) ++ [last]) b)⟩ := rfl
  refine ⟨?_, ?_⟩
  · intro o ho
    rw [hsent, List.mem_mapIdx] at ho
    obtain ⟨k, hk, rfl⟩ := ho
    rfl
  obtain ⟨frags, f1, f2, f3⟩ := C12_message_survives_outbound_tunnel_partial hA (stops.map fun s => (s.next.keys, s.next.id)) last
    sha hsha first di hdi random hrandom rnd hrnd M bytes hM hfit
  have hmap : (stops.map fun s => (s.next.keys, s.next.id)).map (·.1) = stops.map (·.next.keys) := by
    rw [List.map_map]; rfl
  rw [hmap] at f2
  -- every built message arrives
  have each : ∀ k b, (build sha first di bytes (paddingBytes random) rnd)[k]? = some b →
      ∃ m f, frags[k]? = some f ∧ (received ⟨router, wrap now .tunnelData (ids k) (ownerSend A (stops.map (·.next.keys) ++ [last]) b)⟩).bind
        (carry A stops) = some m ∧ opened A sha last m = [f] := by
    intro k b hb
    have h2 := congrArg (fun l => l[k]?) f2
    simp only [List.getElem?_map, hb, Option.map_some] at h2
    cases hf : frags[k]? with
    | none => rw [hf] at h2; simp at h2
    | some f =>
      rw [hf] at h2
      simp only [Option.map_some, Option.some.injEq] at h2
      have h2' := h2
      unbind h2' with x e1
      have hlen := C13_tunnel_data_fixed_size sha hsha first di hdi bytes random hrandom rnd hrnd b (List.mem_of_getElem? hb)
      obtain ⟨hs, -⟩ := split_message hlen
      have hr := removeLayers_sized hA (stops.map (·.next.keys) ++ [last]) hs
      have hol : (ownerSend A (stops.map (·.next.keys) ++ [last]) b).length = 1028 := by
        have h1 := hr.1
        have h2 := hr.2
        simp only [payloadLen] at h2
        simp only [ownerSend, List.length_append, List.length_take, hlen, h1, h2]
        omega
      obtain ⟨e, hw⟩ := wrap_received router now .tunnelData (ids k) _ (hids k) hnow (ne_nil_of_len hol) (by omega)
      obtain ⟨id', e', hc⟩ := carry_spec hA stops hok _ (ids k) e x e1
      refine ⟨_, f, rfl, by rw [hw]; exact hc, ?_⟩
      show (endpointOpen A sha last x).getD [] = [f]
      rw [h2']; rfl
  have hlen : (build sha first di bytes (paddingBytes random) rnd).length = frags.length := by
    have := congrArg List.length f2; simpa using this
  obtain ⟨arrived, ha1, ha2⟩ : ∃ arrived : List Message,
      sent.map (fun o => (received o).bind (carry A stops)) = arrived.map some ∧
      arrived.map (opened A sha last) = frags.map (fun f => [f]) := by
    refine ⟨(sent.map (fun o => (received o).bind (carry A stops))).filterMap id, ?_, ?_⟩
    · have : ∀ l : List (Option Message), (∀ x ∈ l, x.isSome = true) → l = (l.filterMap id).map some := by
        intro l
        induction l with
        | nil => intro _; rfl
        | cons a l ih =>
          intro h
          obtain ⟨m, rfl⟩ := Option.isSome_iff_exists.1 (h a (by simp))
          have e : List.filterMap id (some m :: l) = m :: List.filterMap id l := rfl
          rw [e, List.map_cons, ← ih fun x hx => h x (List.mem_cons_of_mem _ hx)]
      refine this _ ?_
      intro x hx
      rw [List.mem_map] at hx
      obtain ⟨o, ho, rfl⟩ := hx
      rw [hsent, List.mem_mapIdx] at ho
      obtain ⟨k, hk, rfl⟩ := ho
      obtain ⟨m, f, -, h2, -⟩ := each k _ (List.getElem?_eq_getElem hk)
      rw [h2]; rfl
    · have : ∀ (l : List (Option Message)) (fs : List Block), l.length = fs.length →
          (∀ (k : Nat) (x : Option Message), l[k]? = some x → ∃ m f, fs[k]? = some f ∧ x = some m ∧ opened A sha last m = [f]) →
          (l.filterMap id).map (opened A sha last) = fs.map (fun f => [f]) := by
        intro l
        induction l with
        | nil => intro fs h _; cases fs with
          | nil => rfl
          | cons => simp at h
        | cons a l ih =>
          intro fs h hall
          cases fs with
          | nil => simp at h
          | cons f fs =>
            obtain ⟨m, f', h1, rfl, h3⟩ := hall 0 a rfl
            simp only [List.getElem?_cons_zero, Option.some.injEq] at h1
            subst h1
            have e : List.filterMap id (some m :: l) = m :: List.filterMap id l := rfl
            rw [e, List.map_cons, List.map_cons, h3, ih fs (by simpa using h) fun k x hx => hall (k + 1) x (by simpa using hx)]
      refine this _ frags ?_ ?_
      · rw [List.length_map, hsent, List.length_mapIdx, hlen]
      · intro k x hx
        rw [List.getElem?_map] at hx
        cases ho : sent[k]? with
        | none => rw [ho] at hx; simp at hx
        | some o =>
          rw [ho] at hx
          simp only [Option.map_some, Option.some.injEq] at hx
          rw [hsent, List.getElem?_mapIdx] at ho
          cases hb : (build sha first di bytes (paddingBytes random) rnd)[k]? with
          | none => rw [hb] at ho; simp at ho
          | some b =>
            rw [hb] at ho
            simp only [Option.map_some, Option.some.injEq] at ho
            obtain ⟨m, f, h1, h2, h3⟩ := each k b hb
            exact ⟨m, f, h1, by rw [← hx, ← ho, h2], h3⟩
  refine ⟨arrived, frags, ?_, ha1, ha2, ?_⟩
  · rintro rfl
    simp only [List.map_nil] at ha2
    exact f1 (List.map_eq_nil_iff.1 ha2.symm)
  intro os t i b hrun hover hopen hcl hii hc
  obtain ⟨-, hrole, hh⟩ := run_handler A sha last os _ t rfl hrun hover
  obtain ⟨r1, r2, r3⟩ := f3 Handler.new rfl _ b hc.piece hc.missing hc.rest hc.others
  have hstep : ∀ (t : Task) (j : In) (f : Block) (h : Handler), t.role = .endpoint last → t.over = false → t.handler = h →
      opened A sha last j.m = [f] → ∃ t', t.step A sha false (.message j) = some t' ∧
        t'.sent = t.sent ++ ((h.block f).2.bind fun p => deliver sha j.now (j.ids 0) p).toList := by
    intro t j f h h1 h2 h3 h4
    have e : t.step A sha false (.message j) = some { t with
        handler := (t.handler.blocks (opened A sha last j.m)).1
        sent := t.sent ++ (ready (t.handler.blocks (opened A sha last j.m)).2).filterMap fun p => deliver sha j.now (j.ids p.1) p.2
        bandwidth := t.bandwidth + j.m.serializedLenShort + (((ready (t.handler.blocks (opened A sha last j.m)).2).filterMap fun p =>
          deliver sha j.now (j.ids p.1) p.2).map fun o => o.message.length).sum } := by
      simp only [Task.step, h2, Bool.false_eq_true, if_false, h1, Role.on, endpointOn_eq, Option.bind_eq_bind, Option.bind_some]
    refine ⟨_, e, ?_⟩
    show t.sent ++ _ = t.sent ++ _
    rw [h3, h4]
    congr 1
    have : (h.blocks [f]).2 = [(h.block f).2] := rfl
    rw [this, ready_one]
    cases (h.block f).2 with
    | none => rfl
    | some p =>
      simp only [Option.map_some, Option.toList_some, List.filterMap_cons, List.filterMap_nil, Option.bind_some]
      cases deliver sha j.now (j.ids 0) p <;> rfl
  obtain ⟨t', s1, s2⟩ := hstep t i b _ hrole hover hh hopen
  rw [r2, Option.bind_some] at s2
  obtain ⟨d1, d2⟩ := delivers_spec sha hsha i.now (i.ids 0) M di bytes hM hfit hdi hne (hii 0) hcl hexp
  refine ⟨t', _, s1, s2, ?_, ?_, ?_⟩
  · intro h
    obtain ⟨o, e, ho⟩ := d1 h
    exact ⟨o, by rw [e]; rfl, ho⟩
  · intro h; rw [d2 h]; rfl
  · intro os1 os2 j f t1 hos hj hf hrun1
    -- the task was not over before
    have hrun' := hrun
    rw [hos] at hrun'
    simp only [Task.run, List.foldlM_append] at hrun'
    have e1 : List.foldlM (Task.step A sha false) { role := .endpoint last } os1 = some t1 := hrun1
    rw [e1] at hrun'
    simp only [Option.bind_eq_bind, Option.bind_some] at hrun'
    have hov1 : t1.over = false := by
      cases ho : t1.over with
      | false => rfl
      | true =>
        have stay : ∀ (os : List Op) (t : Task), t.over = true → List.foldlM (Task.step A sha false) t os = some t := by
          intro os
          induction os with
          | nil => intro t _; rfl
          | cons o os ih => intro t ht; simp only [List.foldlM_cons, Task.step, ht, if_true, Option.bind_eq_bind, Option.bind_some]; exact ih t ht
        rw [stay _ t1 ho] at hrun'
        injection hrun' with hrun'
        rw [← hrun', ho] at hover; cases hover
    obtain ⟨-, hrole1, hh1⟩ := run_handler A sha last os1 _ t1 rfl hrun1 hov1
    obtain ⟨t2, u1, u2⟩ := hstep t1 j f _ hrole1 hov1 hh1 hj
    refine ⟨t2, u1, ?_⟩
    rw [u2]
    have hm : (messages os).flatMap (opened A sha last) =
        (messages os1).flatMap (opened A sha last) ++ f :: (messages os2).flatMap (opened A sha last) := by
      have : messages os = messages os1 ++ j.m :: messages os2 := by
        rw [hos]; simp [messages, List.filterMap_append]
      rw [this, List.flatMap_append, List.flatMap_cons, hj]; rfl
    have := r1 ((messages os1).flatMap (opened A sha last)).length f hf (by rw [hm]; simp)
    rw [hm, blocks_append, List.getElem?_append_right (by rw [blocks_length]; exact Nat.le_refl _), blocks_length, Nat.sub_self] at this
    simp only [Handler.blocks, List.getElem?_cons_zero, Option.some.injEq] at this
    show t1.sent ++ _ = t1.sent
    rw [this]; simp

theorem run_role (A : Aes) (sha : Sha) (os : List Op) : ∀ (t t' : Task), Task.run A sha false t os = some t' → t'.role = t.role := by
  induction os with
  | nil => intro t t' h; cases h; rfl
  | cons o os ih =>
    intro t t' h
    simp only [Task.run, List.foldlM_cons] at h
    cases hs : t.step A sha false o with
    | none => rw [hs] at h; cases h
    | some u =>
      rw [hs] at h
      rw [ih u t' h]
      unfold Task.step at hs
      split at hs
      · cases hs; rfl
      · cases o with
        | message i =>
          dsimp only at hs
          unbind hs with r e
          cases hs; rfl
        | tick => cases hs; rfl
        | expired => cases hs; rfl
        | closed => cases hs; rfl

/-- What a task does in a build with assertions, unless it panics, it does in any build. -/
theorem step_unchecked (A : Aes) (sha : Sha) (chk : Bool) (t t' : Task) (o : Op) (h : t.step A sha chk o = some t') : t.step A sha false o = some t' := by
  cases chk with
  | false => exact h
  | true =>
    unfold Task.step at h ⊢
    by_cases ho : t.over = true
    · rw [if_pos ho] at h ⊢; exact h
    rw [if_neg ho] at h ⊢
    cases o with
    | message i =>
      dsimp only at h ⊢
      unbind h with r e
      have : t.role.on A sha false t.handler i = some r := by
        unfold Role.on at e ⊢
        generalize t.role = role at e ⊢
        cases role with
        | participant n => exact e
        | gateway n p =>
          dsimp only at e ⊢
          cases hg : gatewayOn A sha true n p i with
          | none => rw [hg] at e; cases e
          | some os =>
            have : gatewayOn A sha false n p i = some os := by
              unfold gatewayOn at hg ⊢
              grind
            rw [this, ← hg]; exact e
        | endpoint keys =>
          dsimp only at e ⊢
          unfold endpointOn at e ⊢
          grind
      rw [this]
      exact h
    | tick => exact h
    | expired => exact h
    | closed => exact h

theorem run_unchecked (A : Aes) (sha : Sha) (chk : Bool) (os : List Op) : ∀ (t t' : Task), Task.run A sha chk t os = some t' → Task.run A sha false t os = some t' := by
  induction os with
  | nil => intro t t' h; exact h
  | cons o os ih =>
    intro t t' h
    simp only [Task.run, List.foldlM_cons] at h ⊢
    cases hs : t.step A sha chk o with
    | none => rw [hs] at h; cases h
    | some u =>
      rw [hs] at h
      rw [step_unchecked A sha chk t u o hs]
      exact ih u t' h

/-- A message that can be opened is no reason to panic. -/
theorem step_checked (A : Aes) (sha : Sha) (chk : Bool) (last : Keys) (t : Task) (hr : t.role = .endpoint last) (i : In) (b : Block) (h : opened A sha last i.m = [b]) :
    t.step A sha chk (.message i) = t.step A sha false (.message i) := by
  cases chk with
  | false => rfl
  | true =>
    unfold Task.step
    split
    · rfl
    · dsimp only
      have : t.role.on A sha true t.handler i = t.role.on A sha false t.handler i := by
        rw [hr]
        show endpointOn A sha true last t.handler i = endpointOn A sha false last t.handler i
        unfold opened at h
        unfold endpointOn
        cases ht : i.m.type with
        | tunnelData =>
          rw [ht] at h
          dsimp only at h ⊢
          cases hp : Encrypted.parse i.m.payload with
          | none =>
            have : endpointOpen A sha last i.m.payload = none := by unfold endpointOpen; rw [hp]; rfl
            rw [this] at h
            cases h
          | some x => rfl
        | _ => rw [ht] at h; cases h
      rw [this]

/-- **C235**, in part (messages of up to 64 pieces, see C12): what the owner sends through an outbound tunnel goes to the first hop, is passed on
by the participants, and reaches the endpoint in pieces. In whatever order they arrive, whatever else arrives before: when the
last one arrives, the endpoint sends one message, the one that was sent through the tunnel, to the router or tunnel it is for,
unless it has expired; and nothing on any piece before. -/
theorem C235_delivered_partial {A : Aes} (hA : A.Lawful) (sha : Sha) (hsha : ShaOk sha) (chk : Bool) (stops : List Stop) (hok : ∀ s ∈ stops, s.Ok)
    (last : Keys) (router : Bytes) (first : Nat) (random : Bytes) (hrandom : random.length = 1028) (di : DI) (hdi : di.Ok) (hne : di ≠ .loc)
    (now : Duration) (hnow : Clock now) (ids : Nat → Nat) (hids : ∀ k, ids k < 2 ^ 32) (rnd : Rnd) (hrnd : rnd.Ok)
    (M : Message) (bytes : Bytes) (hM : Message.parseStandard bytes = some (M, [])) (hfit : Fits di bytes)
    (hexp : M.expiration / 1000000000 < 2 ^ 32) :
    let sent := ownerSends A sha (stops.map (·.next.keys) ++ [last]) router first (paddingBytes random) di bytes now ids rnd
    (∀ o ∈ sent, o.router = router) ∧
    ∃ (arrived : List Message) (frags : List Block), arrived ≠ [] ∧
      sent.map (fun o => (received o).bind (carry A stops)) = arrived.map some ∧
      arrived.map (opened A sha last) = frags.map (fun f => [f]) ∧
      ∀ (os : List Op) (t : Task) (i : In) (b : Block), Task.run A sha chk { role := .endpoint last } os = some t → t.over = false →
        opened A sha last i.m = [b] → Clock i.now → (∀ k, i.ids k < 2 ^ 32) →
        Completes frags rnd.mid ((messages os).flatMap (opened A sha last)) b →
        ∃ t' out, t.step A sha chk (.message i) = some t' ∧ t'.sent = t.sent ++ out ∧
          (i.now ≤ M.expiration → ∃ o, out = [o] ∧ Delivers M di o) ∧ (M.expiration < i.now → out = []) ∧
          ∀ (os1 os2 : List Op) (j : In) (f : Block) (t1 : Task), os = os1 ++ .message j :: os2 → opened A sha last j.m = [f] → f ∈ frags →
            Task.run A sha chk { role := .endpoint last } os1 = some t1 →
            ∃ t2, t1.step A sha chk (.message j) = some t2 ∧ t2.sent = t1.sent := by
  obtain ⟨h1, arrived, frags, h2, h3, h4, h5⟩ := delivered_unchecked hA sha hsha stops hok last router first random hrandom di hdi hne now hnow ids hids rnd hrnd M bytes hM hfit hexp
  refine ⟨h1, arrived, frags, h2, h3, h4, ?_⟩
  intro os t i b hrun hover hopen hcl hii hc
  have hr := run_unchecked A sha chk os _ t hrun
  obtain ⟨t', out, e1, e2, e3, e4, e5⟩ := h5 os t i b hr hover hopen hcl hii hc
  have hrole := (run_handler A sha last os _ t rfl hr hover).2.1
  refine ⟨t', out, by rw [step_checked A sha chk last t hrole i b hopen]; exact e1, e2, e3, e4, ?_⟩
  intro os1 os2 j f t1 hos hj hf hrun1
  have hr1 := run_unchecked A sha chk os1 _ t1 hrun1
  obtain ⟨t2, u1, u2⟩ := e5 os1 os2 j f t1 hos hj hf hr1
  exact ⟨t2, by rw [step_checked A sha chk last t1 (run_role A sha os1 _ t1 hr1) j f hj]; exact u1, u2⟩

/-! ## C236: through an inbound tunnel -/

/-- The pieces in a message that reaches the owner of an inbound tunnel. -/
def openedIn (A : Aes) (sha : Sha) (hops : List Keys) (m : Message) : List Block := (ownerOpen A sha hops m.payload).getD []

theorem arrivals (op : Message → List Block) (l : List Bytes) : ∀ (g : Nat → Bytes → Option Message) (frags : List Block),
    l.length = frags.length →
    (∀ k b, l[k]? = some b → ∃ m f, frags[k]? = some f ∧ g k b = some m ∧ op m = [f]) →
    ∃ arrived : List Message, l.mapIdx g = arrived.map some ∧ arrived.map op = frags.map (fun f => [f]) := by
  induction l with
  | nil =>
    intro g frags h _
    cases frags with
    | nil => exact ⟨[], rfl, rfl⟩
    | cons => simp at h
  | cons a l ih =>
    intro g frags h each
    cases frags with
    | nil => simp at h
    | cons f frags =>
      obtain ⟨m, f', h1, h2, h3⟩ := each 0 a rfl
      simp only [List.getElem?_cons_zero, Option.some.injEq] at h1
      subst h1
      obtain ⟨arrived, a1, a2⟩ := ih (fun k => g (k + 1)) frags (by simpa using h)
        (fun k b hb => each (k + 1) b (by simpa using hb))
      exact ⟨m :: arrived, by rw [List.mapIdx_cons, h2, a1]; rfl, by rw [List.map_cons, h3, a2]; rfl⟩

theorem ownerOn_eq (A : Aes) (sha : Sha) (hops : List Keys) (h : Handler) (m : Message) :
    ownerOn A sha hops h m = ((h.blocks (openedIn A sha hops m)).1,
      (ready (h.blocks (openedIn A sha hops m)).2).filterMap fun p => if p.2.2 = .loc then some p.2.1 else none) := by
  unfold ownerOn openedIn
  cases ownerOpen A sha hops m.payload <;> rfl

theorem ownerRun_handler (A : Aes) (sha : Sha) (hops : List Keys) (ms : List Message) :
    (ownerRun A sha hops ms).1 = (Handler.new.blocks (ms.flatMap (openedIn A sha hops))).1 := by
  unfold ownerRun
  have : ∀ (ms : List Message) (s : Handler × List Message),
      (ms.foldl (fun s m => ((ownerOn A sha hops s.1 m).1, s.2 ++ (ownerOn A sha hops s.1 m).2)) s).1 =
        (s.1.blocks (ms.flatMap (openedIn A sha hops))).1 := by
    intro ms
    induction ms with
    | nil => intro s; rfl
    | cons m ms ih => intro s; rw [List.foldl_cons, ih, List.flatMap_cons, blocks_append, ownerOn_eq]
  exact this ms _

theorem ownerRun_snoc (A : Aes) (sha : Sha) (hops : List Keys) (ms : List Message) (m : Message) (b : Block)
    (hb : openedIn A sha hops m = [b]) : (ownerRun A sha hops (ms ++ [m])).2 = (ownerRun A sha hops ms).2 ++
      (((Handler.new.blocks (ms.flatMap (openedIn A sha hops))).1.block b).2.bind fun p => if p.2 = .loc then some p.1 else none).toList := by
  have : (ownerRun A sha hops (ms ++ [m])).2 = (ownerRun A sha hops ms).2 ++ (ownerOn A sha hops (ownerRun A sha hops ms).1 m).2 := by
    unfold ownerRun; rw [List.foldl_append]; rfl
  rw [this, ownerOn_eq, hb, ownerRun_handler]
  congr 1
  have e : ∀ h : Handler, (h.blocks [b]).2 = [(h.block b).2] := fun _ => rfl
  rw [e, ready_one]
  cases ((Handler.new.blocks (ms.flatMap (openedIn A sha hops))).1.block b).2 with
  | none => rfl
  | some p =>
    simp only [Option.map_some, Option.toList_some, List.filterMap_cons, List.filterMap_nil, Option.bind_some]
    by_cases hp : p.2 = DI.loc <;> simp [hp]

/-- **C236**, in part (messages of up to 64 pieces): the gateway of an inbound tunnel sends an unexpired message that it is given
for the tunnel to the next hop; the participants pass it on; and the owner of the tunnel, in whatever order the pieces arrive
and whatever else arrives before, hands over exactly this message with the last piece, and nothing with the pieces before. -/
theorem C236_inbound_partial {A : Aes} (hA : A.Lawful) (sha : Sha) (hsha : ShaOk sha) (chk : Bool) (n : Next) (stops : List Stop)
    (hok : ∀ s ∈ stops, s.Ok) (random : Bytes) (hrandom : random.length = 1028) (i : In) (hnow : Clock i.now)
    (hids : ∀ k, i.ids k < 2 ^ 32) (hrnd : i.rnd.Ok) (tid : Nat) (bytes rest : Bytes) (M : Message)
    (ht : i.m.type = .tunnelGateway) (hg : TunnelGateway.parse i.m.payload = some (⟨tid, bytes⟩, rest))
    (hM : Message.parseStandard bytes = some (M, [])) (hfit : Fits .loc bytes) (hlive : i.now ≤ M.expiration) :
    ∃ sent, gatewayOn A sha chk n (paddingBytes random) i = some sent ∧ (∀ o ∈ sent, o.router = n.router) ∧
    ∃ (arrived : List Message) (frags : List Block), arrived ≠ [] ∧
      sent.map (fun o => (received o).bind (carry A stops)) = arrived.map some ∧
      arrived.map (openedIn A sha (n.keys :: stops.map (·.next.keys))) = frags.map (fun f => [f]) ∧
      ∀ (ms : List Message) (m : Message) (b : Block), openedIn A sha (n.keys :: stops.map (·.next.keys)) m = [b] →
        Completes frags i.rnd.mid (ms.flatMap (openedIn A sha (n.keys :: stops.map (·.next.keys)))) b →
        (ownerRun A sha (n.keys :: stops.map (·.next.keys)) (ms ++ [m])).2 =
          (ownerRun A sha (n.keys :: stops.map (·.next.keys)) ms).2 ++ [M] ∧
        ∀ (ms1 ms2 : List Message) (m1 : Message) (f : Block), ms = ms1 ++ m1 :: ms2 →
          openedIn A sha (n.keys :: stops.map (·.next.keys)) m1 = [f] → f ∈ frags →
          (ownerRun A sha (n.keys :: stops.map (·.next.keys)) (ms1 ++ [m1])).2 =
            (ownerRun A sha (n.keys :: stops.map (·.next.keys)) ms1).2 := by
  have hexp : M.isExpired i.now = false := by simp [Message.isExpired, Nat.not_lt.2 hlive]
  refine ⟨(build sha n.id .loc bytes (paddingBytes random) i.rnd).mapIdx fun k b =>
      ⟨n.router, wrap i.now .tunnelData (i.ids k) (gatewaySend A n.keys b)⟩,
    by simp only [gatewayOn, ht, hg, hM, hexp, Bool.false_eq_true, if_false], ?_, ?_⟩
  · intro o ho
    rw [List.mem_mapIdx] at ho
    obtain ⟨k, hk, rfl⟩ := ho
    rfl
  generalize hhops : n.keys :: stops.map (·.next.keys) = hops
  obtain ⟨frags, f1, f2, f3⟩ := C12_message_survives_inbound_tunnel_partial hA n.keys (stops.map fun s => (s.next.keys, s.next.id))
    sha hsha n.id .loc trivial random hrandom i.rnd hrnd M bytes hM hfit
  have hmap : (stops.map fun s => (s.next.keys, s.next.id)).map (·.1) = stops.map (·.next.keys) := by
    rw [List.map_map]; rfl
  rw [hmap, hhops] at f2
  have hlen : (build sha n.id .loc bytes (paddingBytes random) i.rnd).length = frags.length := by
    have := congrArg List.length f2; simpa using this
  obtain ⟨arrived, a1, a2⟩ := arrivals (openedIn A sha hops) (build sha n.id .loc bytes (paddingBytes random) i.rnd)
    (fun k b => (received ⟨n.router, wrap i.now .tunnelData (i.ids k) (gatewaySend A n.keys b)⟩).bind (carry A stops)) frags hlen (by
      intro k b hb
      have h2 := congrArg (fun l => l[k]?) f2
      simp only [List.getElem?_map, hb, Option.map_some] at h2
      cases hf : frags[k]? with
      | none => rw [hf] at h2; simp at h2
      | some f =>
        rw [hf] at h2
        simp only [Option.map_some, Option.some.injEq] at h2
        have h2' := h2
        unbind h2' with x e1
        have hl := C13_tunnel_data_fixed_size sha hsha n.id .loc trivial bytes random hrandom i.rnd hrnd b (List.mem_of_getElem? hb)
        obtain ⟨hs, -⟩ := split_message hl
        have hr := addLayer_sized hA n.keys hs
        have hol : (gatewaySend A n.keys b).length = 1028 := by
          have h1 := hr.1
          have h2 := hr.2
          simp only [payloadLen] at h2
          simp only [gatewaySend, List.length_append, List.length_take, hl, h1, h2]
          omega
        obtain ⟨e, hw⟩ := wrap_received n.router i.now .tunnelData (i.ids k) _ (hids k) hnow (ne_nil_of_len hol) (by omega)
        obtain ⟨id', e', hc⟩ := carry_spec hA stops hok _ (i.ids k) e x e1
        refine ⟨_, f, rfl, by rw [hw]; exact hc, ?_⟩
        show (ownerOpen A sha hops x).getD [] = [f]
        rw [h2']; rfl)
  refine ⟨arrived, frags, ?_, ?_, a2, ?_⟩
  · rintro rfl
    simp only [List.map_nil] at a2
    exact f1 (List.map_eq_nil_iff.1 a2.symm)
  · rw [← a1]; apply List.ext_getElem? ; intro k; simp only [List.getElem?_map, List.getElem?_mapIdx]; cases (build sha n.id DI.loc bytes (paddingBytes random) i.rnd)[k]? <;> rfl
  intro ms m b hb hc
  obtain ⟨r1, r2, -⟩ := f3 Handler.new rfl _ b hc.piece hc.missing hc.rest hc.others
  refine ⟨?_, ?_⟩
  · rw [ownerRun_snoc A sha hops ms m b hb, r2]; rfl
  · intro ms1 ms2 m1 f hms hm1 hf
    rw [ownerRun_snoc A sha hops ms1 m1 f hm1]
    have hm : ms.flatMap (openedIn A sha hops) = ms1.flatMap (openedIn A sha hops) ++ f :: ms2.flatMap (openedIn A sha hops) := by
      rw [hms, List.flatMap_append, List.flatMap_cons, hm1]; rfl
    have := r1 (ms1.flatMap (openedIn A sha hops)).length f hf (by rw [hm]; simp)
    rw [hm, blocks_append, List.getElem?_append_right (by rw [blocks_length]; exact Nat.le_refl _), blocks_length, Nat.sub_self] at this
    simp only [Handler.blocks, List.getElem?_cons_zero, Option.some.injEq] at this
    rw [this]; simp

/-- **C236**, in part: together with C235: what the endpoint of an outbound tunnel sends for a message to an inbound tunnel is what
the gateway there takes for this tunnel, and the gateway's tunnel id is the one the sender named. -/
theorem C236_gateway_partial (M : Message) (tid : Nat) (hash : Bytes) (o : Out) (ho : Delivers M (.tunnel tid hash) o) (bytes : Bytes)
    (hM : Message.parseStandard bytes = some (M, [])) (hfit : Fits (.tunnel tid hash) bytes) :
    o.router = hash ∧ ∃ g b, received o = some g ∧ g.type = .tunnelGateway ∧
      TunnelGateway.parse g.payload = some (⟨tid, b⟩, []) ∧ Message.parseStandard b = some (M, []) ∧ Fits .loc b := by
  obtain ⟨h1, g, b, h2, h3, h4, h5⟩ := ho
  refine ⟨h1, g, b, h2, h3, h4, h5, ?_⟩
  have b1 := (standard_bounds hM).2.2.2.2.2
  have b2 := (standard_bounds h5).2.2.2.2.2
  have : bytes.length ≤ 997 - (DI.tunnel tid hash).len + 63 * 996 := hfit
  show b.length ≤ 997 - DI.loc.len + 63 * 996
  have e1 : DI.loc.len ≤ (DI.tunnel tid hash).len := by simp [DI.len]
  omega

end Emissary.Hop
