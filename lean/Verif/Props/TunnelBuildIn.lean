import Verif.Props.TunnelBuild
/-!
# Properties of tunnel building: inbound tunnels
-/
namespace Emissary.TBuild
open Emissary Emissary.I2np Emissary.Build Emissary.Prim
open Emissary.Ssu2 (Prims)

theorem lt_aux (n : Nat) (h : n + 10000000000 < 2 ^ 32 * 1000000000) : n + i2npExpiration < 2 ^ 32 * 1000000000 := by
  have e : i2npExpiration = (8000000000 : Nat) := rfl
  rw [e]; omega

theorem handleGarlic_eq (P : Prims) (sk : Bytes) (now : Duration) (mid : Nat) (m : Message) (key ad plain : Bytes) (ts : Nat)
    (ty : MessageType) (id : Nat) (e : Duration) (body : Bytes) (hl : ¬ m.payload.length < 36)
    (hk : garlicIn P sk ((m.payload.drop 4).take 32) = (key, ad)) (hu : P.unseal key 0 ad (m.payload.drop 36) = some plain)
    (hp : Garlic.parse plain = some [.dateTime ts, .clove ty id e .localNode body]) (hf : ¬ e < now) :
    handleGarlic P sk now mid m = some [.localMsg ⟨ty, id, e, body⟩] := by
  unfold handleGarlic
  rw [if_neg hl, hk]
  simp only [hu, hp, Option.bind_eq_bind, Option.bind_some, List.filterMap_cons, List.filterMap_nil, if_neg hf]
  rfl

theorem gatewayRequest_ok {P : Prims} (hP : P.Lawful) (p : Params) (rnd : Rnd) (sk payload : Bytes) (now0 : Duration) (mid : Nat)
    (hmid : p.messageId < 2 ^ 32) (hnow : p.now + 10000000000 < 2 ^ 32 * 1000000000) (hlen : payload.length ≤ 65000)
    (hfresh : ¬ (p.now + i2npExpiration) / 1000000000 * 1000000000 < now0) :
    ∃ m m0, gatewayRequest P p rnd (P.pub sk) payload = some m ∧ Message.parseShort m.serializeShort = some (m0, []) ∧
      m0.type = .garlic ∧ m0.id = p.messageId ∧
      handleGarlic P sk now0 mid m0 = some [.localMsg ⟨.shortTunnelBuild, p.messageId,
        fromSecs ((p.now + i2npExpiration) / 1000000000), payload⟩] := by
  have hnow' : p.now + i2npExpiration < 2 ^ 32 * 1000000000 :=
    lt_aux _ hnow
  obtain ⟨e1, e2⟩ := exp_secs _ hnow'
  obtain ⟨plain, hb, hparse⟩ := Garlic.C22_garlic_message_roundtrip
    [.dateTime (asSecs p.now % 2 ^ 32), .clove .shortTunnelBuild p.messageId (p.now + i2npExpiration) .localNode payload] (by simp) (by
      intro b hb
      simp only [List.mem_cons, List.not_mem_nil, or_false] at hb
      rcases hb with rfl | rfl
      · exact Nat.mod_lt _ (by decide)
      · exact ⟨hmid, e1, trivial, by omega⟩)
  have hpl : plain.length = payload.length + 20 := by
    have e : plain = _ := (Option.some.inj hb).symm
    rw [e]
    simp [Garlic.Delivery.serialize, be_length]
    omega
  have hagree := garlic_agree hP sk rnd.garlicEsk
  generalize hkt : garlicOut P (P.pub sk) rnd.garlicEsk = kt at *
  obtain ⟨key, tag⟩ := kt
  generalize hsealed : P.seal key 0 tag plain = sealed at *
  have hsl : sealed.length = payload.length + 36 := by rw [← hsealed, seal_length hP, hpl]
  have hpub := hP.pub rnd.garlicEsk
  generalize hout : be 4 (sealed.length + 32) ++ P.pub rnd.garlicEsk ++ sealed = out at *
  have hol : out.length = payload.length + 72 := by
    rw [← hout]; simp only [List.length_append, be_length, hpub, hsl]; omega
  have hshort := C16_short_header_roundtrip ⟨.garlic, p.messageId, p.now + i2npExpiration, out⟩ [] hmid e1
    (by intro h; simp only at h; rw [h] at hol; simp at hol) (by simp only; omega)
  rw [List.append_nil] at hshort
  refine ⟨_, _, ?_, hshort, rfl, rfl, ?_⟩
  · simp only [gatewayRequest, hb, Option.bind_eq_bind, Option.bind_some, hkt, hsealed, hout]
    rfl
  · have h1 : (out.drop 4).take 32 = P.pub rnd.garlicEsk := by
      rw [← hout, List.append_assoc, List.drop_left' (be_length _ _), List.take_left' hpub]
    have h2 : out.drop 36 = sealed := by
      rw [← hout, List.drop_left' (by simp [be_length, hpub])]
    have h3 : P.unseal key 0 tag sealed = some plain := by rw [← hsealed, unseal_seal hP]
    have := handleGarlic_eq P sk now0 mid _ key tag plain _ _ _ _ _ (show ¬ (Message.mk .garlic p.messageId
      ((p.now + i2npExpiration) / 1000000000 * 1000000000) out).payload.length < 36 by simp only; omega)
      (by simp only [h1, hagree]) (by simp only [h2, h3]) hparse hfresh
    rw [e2] at this
    simp only [e2]
    exact this

/-- C101, inbound tunnels. The creator sends a garlic message to the first router, which unpacks the request from it. Passed on from
router to router it arrives at the creator's router under the requested message id, and the creator learns from it what the routers
decided. The routers' tunnels are as for outbound tunnels. -/
theorem C101_inbound_build {P : Prims} (hP : P.Lawful) (E : Env) (p : Params) (rnd : Rnd)
    (nodes : List (Transit × Duration)) (hs : Sane P p rnd nodes) (hdir : p.dir = .inbound) (t0 : Transit) (now0 : Duration)
    (hfirst : nodes.head? = some (t0, now0)) (hfresh : now0 ≤ (p.now + i2npExpiration) / 1000000000 * 1000000000) (mid : Nat) :
    ∃ pending first m m0 m1, create P p rnd = some (.ok (pending, first, m)) ∧ first = t0.hash ∧
      Message.parseShort m.serializeShort = some (m0, []) ∧ m0.type = .garlic ∧
      handleGarlic P t0.sk now0 mid m0 = some [.localMsg m1] ∧
      pending.hops.map (·.tunnelId) = (List.range nodes.length).map rnd.ids ∧
      (NoClash P E 0 nodes m1 → ∃ answers reply,
        relay P E nodes first m1 = some (answers, p.router, reply) ∧ reply.type = .shortTunnelBuild ∧ reply.id = p.messageId ∧
        Agreed p.gateway p.router nodes pending.hops (.inboundGateway :: List.replicate (nodes.length - 1) .participant) answers ∧
        tryBuild P pending reply = conclusion pending.hops answers) := by
  obtain ⟨xs, fakes, pending, first, key, payload, c, S⟩ := setup hP p rnd nodes hs
  have hcreated := S.created
  simp only [hdir] at hcreated
  obtain ⟨st1, st2⟩ := S.start (t0, now0) hfirst
  simp only at st1 st2
  have hmade : ∀ y ∈ xs.map (sealRecord P p rnd), y.2.length = 218 := by
    intro y hy
    obtain ⟨z, hz, rfl⟩ := List.mem_map.mp hy
    exact (sealRecord_parts hP p rnd hs.pad z (S.ok z hz).router (S.ok z hz).next).2.1
  have hpay : payload.length = (xs.length + fakes.length) * 218 + 1 := by
    rw [S.pay, List.length_cons, flatten_length 218 _ (wrap_sized hP _ _ _ hmade S.sized), wrap_length]
    simp
  have hfew := S.few
  obtain ⟨m, m0, q1, q2, q3, q4, q5⟩ := gatewayRequest_ok hP p rnd t0.sk payload now0 mid hs.mid hs.now (by omega) (Nat.not_lt.mpr hfresh)
  rw [← st2, q1, Option.map_some] at hcreated
  have hs1 : (p.now + i2npExpiration) / 1000000000 < 2 ^ 32 :=
    (exp_secs _ (lt_aux _ hs.now)).1
  generalize (p.now + i2npExpiration) / 1000000000 = s at *
  refine ⟨pending, first, m, m0, _, hcreated, st1.symm, q2, q3, q5, ?_, ?_⟩
  · rw [← S.ids, S.hops]
    simp [sealRecord]
  intro hclash
  have hroles := S.roles
  rw [hdir] at hroles
  have hrole1 : ∀ y ∈ xs, y.role ≠ .outboundEndpoint := by
    intro y hy
    have : y.role ∈ xs.map (·.role) := List.mem_map_of_mem hy
    rw [hroles] at this
    rcases List.mem_cons.mp this with h | h
    · rw [h]; decide
    · rw [List.eq_of_mem_replicate h]; decide
  rw [S.pay] at hclash
  obtain ⟨F, f1, f2, f3, f4⟩ := trip hP E p rnd hs.pad hs.mid c s hs1 xs nodes S.keys S.ok hrole1 first p.router S.chained p.messageId []
    fakes (by simp) S.sized (by simp; omega) hclash
  simp only [List.length_nil, Nat.zero_add, List.nil_append, ite_self] at f1 f3 f4
  have hsz2 : ∀ r ∈ F ++ fakes, r.length = 218 := by
    intro r hr
    rcases List.mem_append.mp hr with hr | hr
    · exact f2 r hr
    · exact S.sized r hr
  refine ⟨decisions P p rnd nodes xs, _, by rw [S.pay]; exact f3, rfl, rfl, ?_, ?_⟩
  · have := S.agreed
    rw [hdir] at this
    rw [S.hops]
    exact this
  · rw [tryBuild_eq P pending _ (c :: (F ++ fakes).flatten) (F ++ fakes) ((decisions P p rnd nodes xs).map (·.2)) ?_ ?_
      (records_cons 218 (by omega) c _ hsz2) ?_ ?_, conclusion_eq]
    · simp only [replyPayload, S.dir, hdir]
    · rw [List.length_cons, flatten_length 218 _ hsz2, List.length_append, f1, S.num]
    · rw [S.hops]
      simp [decisions, S.len]
    · obtain ⟨rs2, b1, b2, b3⟩ := f4 [] (F ++ fakes) (pending.hops.reverse.map fun h => (h.router, none)) [] (by rw [List.take_left'] <;> rfl)
      rw [List.append_nil, ← S.hops] at b3
      rw [b3]
      simp [readReplies]

end Emissary.TBuild
