import Verif.Lemmas.TunnelBuild
/-!
# Properties of tunnel building
-/
namespace Emissary.TBuild
open Emissary Emissary.I2np Emissary.Build Emissary.Prim
open Emissary.Ssu2 (Prims)

/-! ## Specification -/

/-- A build request for router `dst` passes through `nodes` (each a router with its clock): every router gets the message that the one
before it addressed to it, in the short format. The result is what each router looks like afterwards and whether it took part,
and the message the last one sent and to whom. -/
def relay (P : Prims) (E : Env) : List (Transit × Duration) → Bytes → Message → Option (List (Transit × Bool) × Bytes × Message)
  | [], dst, m => some ([], dst, m)
  | (t, now) :: rest, dst, m =>
    if dst = t.hash ∧ m.type = .shortTunnelBuild then do
      let (t', r) ← t.handleShort P E now m
      let (m', tail) ← Message.parseShort r.message
      if tail = [] then do
        let (l, d, m'') ← relay P E rest r.router m'
        return ((t', r.feedback) :: l, d, m'')
      else none
    else none

/-- No router on the way finds, before its own record, a record of an earlier hop (which by then looks random) that happens to begin
with the first 16 bytes of its own hash. -/
def NoClash (P : Prims) (E : Env) : Nat → List (Transit × Duration) → Message → Prop
  | _, [], _ => True
  | i, (t, now) :: rest, m =>
    (∀ r ∈ (records 218 m.payload).take i, r.take 16 ≠ t.hash.take 16) ∧
    ∀ t' r m' tail, t.handleShort P E now m = some (t', r) → Message.parseShort r.message = some (m', tail) →
      NoClash P E (i + 1) rest m'

/-! ## The trip -/

/-- Consecutive plans are linked. -/
def Chained : Bytes → List Plan → Bytes → Prop
  | d, [], d' => d = d'
  | d, x :: xs, d' => x.router = d ∧ Chained x.nextRouter xs d'

/-- The marks the creator makes in its report. -/
def marks : Nat → List Bool → Report → Report
  | _, [], r => r
  | i, d :: ds, r => (marks (i + 1) ds r).set i (if d then .accepted else .rejected 30)

/-- The routers' decisions. -/
def decisions (P : Prims) (p : Params) (rnd : Rnd) (nodes : List (Transit × Duration)) (xs : List Plan) : List (Transit × Bool) :=
  List.zipWith (fun n x => n.1.admit true x.tunnelId x.nextTunnelId x.nextRouter x.role (sealRecord P p rnd x).1.session.keys) nodes xs

/-- Well-formed plan. -/
structure Plan.Ok (x : Plan) : Prop where
  router : x.router.length = 32
  next : x.nextRouter.length = 32
  id : x.tunnelId < 2 ^ 32
  nextId : x.nextTunnelId < 2 ^ 32

theorem wrap_append (P : Prims) (i : Nat) (a b : List (Hop × Bytes)) (f : List Bytes) :
    wrap P i (a ++ b) f = wrap P i a (wrap P (i + a.length) b f) := by
  induction a generalizing i with
  | nil => rfl
  | cons x a ih =>
    obtain ⟨h, r⟩ := x
    simp only [List.cons_append, wrap, ih, List.length_cons]
    rw [show i + 1 + a.length = i + (a.length + 1) by omega]

theorem parseShort_own (ty : MessageType) (id s : Nat) (payload : Bytes) (hid : id < 2 ^ 32) (hs : s < 2 ^ 32) (hne : payload ≠ [])
    (hlen : payload.length ≤ 65526) :
    Message.parseShort (Message.mk ty id (fromSecs s) payload).serializeShort = some (⟨ty, id, fromSecs s, payload⟩, []) := by
  have e : fromSecs s / 1000000000 = s := by simp [fromSecs]
  have := C16_short_header_roundtrip ⟨ty, id, fromSecs s, payload⟩ [] hid (by simpa [e] using hs) hne hlen
  rw [List.append_nil] at this
  rw [this]
  simp [fromSecs]

/-- The hops that took part, in reverse. -/
def joined (hops : List Hop) (ds : List Bool) : List Hop := (((hops.zip ds).filter (·.2)).map (·.1)).reverse

theorem trip {P : Prims} (hP : P.Lawful) (E : Env) (p : Params) (rnd : Rnd) (hpad : ∀ i n, (rnd.pad i n).length = n)
    (hmid : p.messageId < 2 ^ 32) (c : UInt8) (s : Nat) (hs : s < 2 ^ 32) (xs : List Plan) (nodes : List (Transit × Duration))
    (hm : nodes.map (fun n => (n.1.hash, P.pub n.1.sk)) = xs.map fun x => (x.router, x.key)) (hok : ∀ x ∈ xs, x.Ok)
    (hrole : ∀ x ∈ xs, x.role ≠ .outboundEndpoint) (d d' : Bytes) (hc : Chained d xs d') (id : Nat) (pre fakes : List Bytes)
    (hpre : ∀ r ∈ pre, r.length = 218) (hfakes : ∀ r ∈ fakes, r.length = 218) (hlen : pre.length + xs.length + fakes.length ≤ 300)
    (hclash : NoClash P E pre.length nodes ⟨.shortTunnelBuild, id, fromSecs s,
      c :: (pre ++ wrap P pre.length (xs.map (sealRecord P p rnd)) fakes).flatten⟩) :
    ∃ F, F.length = pre.length + xs.length ∧ (∀ r ∈ F, r.length = 218) ∧
      relay P E nodes d ⟨.shortTunnelBuild, id, fromSecs s,
          c :: (pre ++ wrap P pre.length (xs.map (sealRecord P p rnd)) fakes).flatten⟩ =
        some (decisions P p rnd nodes xs, d',
          ⟨.shortTunnelBuild, if xs = [] then id else p.messageId, fromSecs s, c :: (F ++ fakes).flatten⟩) ∧
      ∀ rest rs report acc, rs.take F.length = F → ∃ rs', rs'.take pre.length = pre ∧ rs'.length = rs.length ∧
        readReplies P ((((xs.map (sealRecord P p rnd)).map (·.1)).zipIdx pre.length).reverse ++ rest) rs report acc =
          readReplies P rest rs' (marks pre.length ((decisions P p rnd nodes xs).map (·.2)) report)
            (acc ++ joined ((xs.map (sealRecord P p rnd)).map (·.1)) ((decisions P p rnd nodes xs).map (·.2))) := by
  induction xs generalizing nodes d id pre with
  | nil =>
    have hm := List.map_eq_nil_iff.mp hm
    simp only [Chained] at hc
    subst hc hm
    refine ⟨pre, by simp, hpre, by simp [relay, wrap, decisions], ?_⟩
    intro rest rs report acc h
    exact ⟨rs, h, rfl, by simp [marks, decisions, joined]⟩
  | cons x xs ih =>
    rcases nodes with _ | ⟨⟨t, now⟩, nodes⟩
    · simp at hm
    simp only [List.map_cons, List.cons.injEq, Prod.mk.injEq] at hm
    obtain ⟨⟨hh, hk⟩, hm⟩ := hm
    obtain ⟨hx1, hx2, hx3, hx4⟩ := hok x (by simp)
    obtain ⟨hd, hc⟩ := hc
    obtain ⟨_, hfull, _, _, _⟩ := sealRecord_parts hP p rnd hpad x hx1 hx2
    have hsz : ∀ y ∈ xs.map (sealRecord P p rnd), y.2.length = 218 := by
      intro y hy
      obtain ⟨z, hz, rfl⟩ := List.mem_map.mp hy
      obtain ⟨z1, z2, _, _⟩ := hok z (List.mem_cons_of_mem _ hz)
      exact (sealRecord_parts hP p rnd hpad z z1 z2).2.1
    generalize hW : wrap P (pre.length + 1) (xs.map (sealRecord P p rnd)) fakes = W at *
    have hWs : ∀ r ∈ W, r.length = 218 := by rw [← hW]; exact wrap_sized hP _ _ _ hsz hfakes
    have hWl : W.length = xs.length + fakes.length := by rw [← hW, wrap_length]; simp
    generalize hhop : (sealRecord P p rnd x).1 = hop at *
    generalize hful : (sealRecord P p rnd x).2 = full at *
    have hwrap : wrap P pre.length ((x :: xs).map (sealRecord P p rnd)) fakes =
        full :: lay P hop.session.keys.reply (pre.length + 1) W := by
      rw [List.map_cons, show sealRecord P p rnd x = (hop, full) by rw [← hhop, ← hful], wrap, hW]
    rw [hwrap] at hclash ⊢
    have hsized : ∀ r ∈ pre ++ full :: lay P hop.session.keys.reply (pre.length + 1) W, r.length = 218 := by
      intro r hr
      rcases List.mem_append.mp hr with hr | hr
      · exact hpre r hr
      · rcases List.mem_cons.mp hr with rfl | hr
        · exact hfull
        · exact lay_sized hP _ _ _ hWs r hr
    have hrecs := records_cons 218 (by omega) c _ hsized
    obtain ⟨hcl, hclash⟩ := hclash
    simp only [hrecs, List.take_left'] at hcl
    have hhandle := handleShort_eq hP E now t p rnd hpad x hx1 hx2 hx3 hx4 hmid hh hk .shortTunnelBuild id (fromSecs s) c pre
      (lay P hop.session.keys.reply (pre.length + 1) W) (by rw [hful]; exact hsized) hcl
    rw [hful, hhop] at hhandle
    dsimp only at hhandle
    rw [lay_lay hP] at hhandle
    generalize hA : t.admit true x.tunnelId x.nextTunnelId x.nextRouter x.role hop.session.keys = A at *
    have hdec : decisions P p rnd ((t, now) :: nodes) (x :: xs) = A :: decisions P p rnd nodes xs := by
      simp only [decisions, List.zipWith_cons_cons, hhop, hA]
    have hfw : forwarded P now (fromSecs s) x p.messageId hop.session.keys
        (c :: (lay P hop.session.keys.reply 0 pre ++ sealedReply P hop pre.length full A.2 :: W).flatten) =
        some (Message.mk .shortTunnelBuild p.messageId (fromSecs s)
          (c :: (lay P hop.session.keys.reply 0 pre ++ sealedReply P hop pre.length full A.2 :: W).flatten)).serializeShort := by
      have := hrole x (by simp)
      unfold forwarded
      cases hr : x.role with
      | inboundGateway => rfl
      | participant => rfl
      | outboundEndpoint => exact absurd hr this
    rw [hfw, Option.map_some] at hhandle
    generalize hpre' : lay P hop.session.keys.reply 0 pre ++ [sealedReply P hop pre.length full A.2] = pre' at *
    have hcat : lay P hop.session.keys.reply 0 pre ++ sealedReply P hop pre.length full A.2 :: W = pre' ++ W := by
      rw [← hpre']; simp
    rw [hcat] at hhandle
    have hpl : pre'.length = pre.length + 1 := by rw [← hpre']; simp [lay_length]
    have hseal : (sealedReply P hop pre.length full A.2).length = 218 := by
      rw [sealedReply, seal_length hP]
      simp [stamp_length, hfull]
    have hpre's : ∀ r ∈ pre', r.length = 218 := by
      intro r hr
      rw [← hpre'] at hr
      rcases List.mem_append.mp hr with hr | hr
      · exact lay_sized hP _ _ _ hpre r hr
      · rw [List.mem_singleton.mp hr]; exact hseal
    have hsz2 : ∀ r ∈ pre' ++ W, r.length = 218 := by
      intro r hr
      rcases List.mem_append.mp hr with hr | hr
      · exact hpre's r hr
      · exact hWs r hr
    have hparse := parseShort_own .shortTunnelBuild p.messageId s (c :: (pre' ++ W).flatten) hmid hs (by simp) (by
      rw [List.length_cons, flatten_length 218 _ hsz2, List.length_append, hpl, hWl]
      simp only [List.length_cons] at hlen
      omega)
    have hnc := hclash _ _ _ _ hhandle hparse
    rw [← hpl] at hnc hW
    rw [← hW] at hnc
    obtain ⟨F, hF1, hF2, hF3, hF4⟩ := ih nodes hm (fun y hy => hok y (List.mem_cons_of_mem _ hy))
      (fun y hy => hrole y (List.mem_cons_of_mem _ hy)) x.nextRouter hc p.messageId pre' hpre's
      (by rw [hpl]; simp only [List.length_cons] at hlen; omega) hnc
    refine ⟨F, by rw [hF1, hpl, List.length_cons]; omega, hF2, ?_, ?_⟩
    · rw [relay, if_pos ⟨by rw [← hd, hh], rfl⟩, hhandle]
      simp only [Option.bind_eq_bind, Option.bind_some, hparse, if_true]
      rw [hW] at hF3
      rw [hF3]
      simp [hdec]
    · intro rest rs report acc hrs
      obtain ⟨rs', h1, h2, h3⟩ := hF4 ((hop, pre.length) :: rest) rs report acc hrs
      have hget : rs'[pre.length]? = some (sealedReply P hop pre.length full A.2) := by
        have : (rs'.take pre'.length)[pre.length]? = rs'[pre.length]? := by rw [List.getElem?_take, if_pos (by omega)]
        rw [← this, h1, ← hpre']
        simp [lay_length]
      refine ⟨_, unlayer_take hP hop.session.keys.reply rs' pre ?_, ?_, ?_⟩
      · have : rs'.take pre.length = (rs'.take pre'.length).take pre.length := by rw [List.take_take]; congr 1; omega
        rw [this, h1, ← hpre', List.take_left' (by rw [lay_length])]
      · simp [h2]
      · rw [hdec]
        simp only [List.map_cons, List.zipIdx_cons, List.reverse_cons, List.append_assoc, List.singleton_append, hhop, marks]
        rw [← hpl, h3, readReplies_step hP hop pre.length full hfull A.2 rest rs' hget]
        congr 1
        simp only [joined, List.zip_cons_cons, List.filter_cons]
        cases A.2 <;> simp

/-! ## The endpoint's reply -/

/-- Digests have at least 8 bytes. -/
structure Digests (P : Prims) : Prop where
  sha : ∀ b, 8 ≤ (P.sha b).length
  hmac : ∀ k b, 8 ≤ (P.hmac k b).length

theorem endpointReply_ok {P : Prims} (hP : P.Lawful) (hD : Digests P) (now : Duration) (s : Nat) (key tag : Bytes) (htag : tag.length = 8)
    (nextId mid : Nat) (payload : Bytes) (hs : s < 2 ^ 32) (hnow : now + i2npExpiration < 2 ^ 32 * 1000000000) (hid : nextId < 2 ^ 32)
    (hmid : mid < 2 ^ 32) (hlen : payload.length ≤ 65000) :
    ∃ out inner g e, endpointReply P now (fromSecs s) (key, tag) nextId mid payload = some out ∧
      Message.parseShort out = some (⟨.tunnelGateway, mid, fromSecs s, (TunnelGateway.mk nextId inner).serialize⟩, []) ∧
      TunnelGateway.parse (TunnelGateway.mk nextId inner).serialize = some (⟨nextId, inner⟩, []) ∧
      Message.parseStandard inner = some (g, []) ∧ g.type = .garlic ∧ g.id = mid ∧ 12 ≤ g.payload.length ∧
      ∃ plain, P.unseal key 0 tag (g.payload.drop 12) = some plain ∧
        Garlic.parse plain = some [.clove .outboundTunnelBuildReply mid e .localNode payload, .dateTime (asSecs now % 2 ^ 32)] := by
  obtain ⟨plain, hb, hparse⟩ := Garlic.C22_garlic_message_roundtrip
    [.clove .outboundTunnelBuildReply mid (now + i2npExpiration) .localNode payload, .dateTime (asSecs now % 2 ^ 32)] (by simp) (by
      intro b hb
      simp only [List.mem_cons, List.not_mem_nil, or_false] at hb
      rcases hb with rfl | rfl
      · exact ⟨hmid, Nat.div_lt_of_lt_mul (by rw [Nat.mul_comm]; exact hnow), trivial, by omega⟩
      · exact Nat.mod_lt _ (by decide))
  have hpl : plain.length = payload.length + 20 := by
    have e : plain = _ := (Option.some.inj hb).symm
    rw [e]
    simp [Garlic.Delivery.serialize, be_length]
    omega
  generalize hsealed : P.seal key 0 tag plain = sealed at *
  have hsl : sealed.length = payload.length + 36 := by rw [← hsealed, seal_length hP, hpl]
  generalize hout : be 4 (sealed.length + 8) ++ tag ++ sealed = out at *
  have hol : out.length = payload.length + 48 := by
    rw [← hout]; simp only [List.length_append, be_length, htag, hsl]; omega
  generalize hinner : (Message.mk .garlic mid (now + i2npExpiration) out).serializeStandard P.sha = inner at *
  have hil : inner.length ≤ payload.length + 48 + 16 := by
    rw [← hinner]
    simp only [Message.serializeStandard, List.length_append, be_length, List.length_take, hol]
    omega
  have hstd := C17_standard_header_roundtrip P.sha (fun b => by have := hD.sha b; omega)
    ⟨.garlic, mid, now + i2npExpiration, out⟩ [] hmid
    (Nat.div_lt_of_lt_mul (Nat.lt_of_lt_of_le hnow (show (2 ^ 32 * 1000000000 : Nat) ≤ 1000000 * 2 ^ 64 by omega))) (by intro h; simp only at h; rw [h] at hol; simp at hol)
    (by simp only; omega)
  rw [List.append_nil, hinner] at hstd
  have hgw := C19_tunnel_gateway_roundtrip ⟨nextId, inner⟩ [] hid (by simp only; omega)
  rw [List.append_nil] at hgw
  have hgl : (TunnelGateway.mk nextId inner).serialize.length = 6 + inner.length := by
    simp [TunnelGateway.serialize, be_length]; omega
  have hshort := parseShort_own .tunnelGateway mid s (TunnelGateway.mk nextId inner).serialize hmid hs
    (by intro h; rw [h] at hgl; simp at hgl; omega) (by omega)
  refine ⟨_, inner, _, _, ?_, hshort, hgw, hstd, rfl, rfl, by simp only [hol]; omega, plain, ?_, hparse⟩
  · simp only [endpointReply, hb, Option.bind_eq_bind, Option.bind_some, hsealed, hout, hinner]
    rfl
  · simp only
    rw [← hout, List.drop_left' (by simp [be_length, htag]), ← hsealed, unseal_seal hP]

theorem garlicTag (P : Prims) (hD : Digests P) (ck : Bytes) : ∃ k tag, (Keys.new P ck .outboundEndpoint).garlic = some (k, tag) ∧
    tag.length = 8 := by
  refine ⟨_, _, rfl, ?_⟩
  rw [List.length_take]
  exact Nat.min_eq_left (hD.hmac _ _)

theorem relay_append (P : Prims) (E : Env) (a b : List (Transit × Duration)) (d d1 : Bytes) (m m1 : Message) (l : List (Transit × Bool))
    (h : relay P E a d m = some (l, d1, m1)) :
    relay P E (a ++ b) d m = (relay P E b d1 m1).map fun r => (l ++ r.1, r.2) := by
  induction a generalizing d m l with
  | nil =>
    simp only [relay, Option.some.injEq, Prod.mk.injEq] at h
    obtain ⟨rfl, rfl, rfl⟩ := h
    simp
  | cons x a ih =>
    obtain ⟨t, now⟩ := x
    simp only [relay, List.cons_append] at h ⊢
    split at h
    · rename_i hc
      rw [if_pos hc]
      obtain ⟨⟨t', r⟩, e1, h⟩ := Option.bind_eq_some_iff.mp h
      obtain ⟨⟨m', tail⟩, e2, h⟩ := Option.bind_eq_some_iff.mp h
      simp only at h
      split at h
      · rename_i ht
        obtain ⟨⟨l', d', m''⟩, e3, h⟩ := Option.bind_eq_some_iff.mp h
        simp only [Option.pure_def, Option.some.injEq, Prod.mk.injEq] at h
        obtain ⟨rfl, rfl, rfl⟩ := h
        simp only [e1, e2, Option.bind_eq_bind, Option.bind_some, if_pos ht, ih _ _ _ e3]
        cases relay P E b d' m'' <;> rfl
      · cases h
    · cases h

theorem noClash_left (P : Prims) (E : Env) (a b : List (Transit × Duration)) (i : Nat) (m : Message) (hc : NoClash P E i (a ++ b) m) :
    NoClash P E i a m := by
  induction a generalizing i m with
  | nil => trivial
  | cons x a ih => exact ⟨hc.1, fun t' r m' tail h1 h2 => ih _ _ (hc.2 t' r m' tail h1 h2)⟩

theorem noClash_append (P : Prims) (E : Env) (a b : List (Transit × Duration)) (i : Nat) (d d1 : Bytes) (m m1 : Message)
    (l : List (Transit × Bool)) (h : relay P E a d m = some (l, d1, m1)) (hc : NoClash P E i (a ++ b) m) :
    NoClash P E i a m ∧ NoClash P E (i + a.length) b m1 := by
  induction a generalizing d m l i with
  | nil =>
    simp only [relay, Option.some.injEq, Prod.mk.injEq] at h
    obtain ⟨rfl, rfl, rfl⟩ := h
    exact ⟨trivial, hc⟩
  | cons x a ih =>
    obtain ⟨t, now⟩ := x
    obtain ⟨hc1, hc2⟩ := hc
    simp only [relay] at h
    split at h
    · obtain ⟨⟨t', r⟩, e1, h⟩ := Option.bind_eq_some_iff.mp h
      obtain ⟨⟨m', tail⟩, e2, h⟩ := Option.bind_eq_some_iff.mp h
      simp only at h
      split at h
      · obtain ⟨⟨l', d', m''⟩, e3, h⟩ := Option.bind_eq_some_iff.mp h
        simp only [Option.pure_def, Option.some.injEq, Prod.mk.injEq] at h
        obtain ⟨rfl, rfl, rfl⟩ := h
        obtain ⟨i1, i2⟩ := ih _ _ _ _ e3 (hc2 _ _ _ _ e1 e2)
        refine ⟨⟨hc1, ?_⟩, by rw [List.length_cons, show i + (a.length + 1) = i + 1 + a.length by omega]; exact i2⟩
        intro t2 r2 m2 tail2 h1 h2
        rw [e1, Option.some.injEq, Prod.mk.injEq] at h1
        obtain ⟨rfl, rfl⟩ := h1
        rw [e2, Option.some.injEq, Prod.mk.injEq] at h2
        obtain ⟨rfl, rfl⟩ := h2
        exact i1
      · cases h
    · cases h

/-! ## The plans -/

/-- The plans, hop by hop. -/
def planList (rnd : Rnd) (gateway : Nat) (router : Bytes) : Nat → List (Bytes × Bytes) → List HopRole → List Plan
  | i, (r, k) :: hs, role :: roles =>
    ⟨i, rnd.ids i, r, if hs = [] then gateway else rnd.ids (i + 1), (hs.head?.map (·.1)).getD router, role, k⟩ ::
      planList rnd gateway router (i + 1) hs roles
  | _, _, _ => []

theorem plans_eq (p : Params) (rnd : Rnd) : plans p rnd = planList rnd p.gateway p.router 0 p.hops (hopRoles p.dir p.hops.length) := by
  have : ∀ (i : Nat) (hs : List (Bytes × Bytes)) (roles : List HopRole),
      ((List.range' i hs.length).zip ((((List.range' i hs.length).map rnd.ids ++ [p.gateway]).zip (hs.map (·.1) ++ [p.router])).zip
        ((((List.range' i hs.length).map rnd.ids ++ [p.gateway]).drop 1).zip (((hs.map (·.1) ++ [p.router]).drop 1).zip
          (roles.zip (hs.map (·.2))))))).map
        (fun (i, (id, r), nid, nr, role, key) => (⟨i, id, r, nid, nr, role, key⟩ : Plan)) = planList rnd p.gateway p.router i hs roles := by
    intro i hs
    induction hs generalizing i with
    | nil => intro roles; cases roles <;> simp [planList]
    | cons h hs ih =>
      intro roles
      obtain ⟨r, k⟩ := h
      cases roles with
      | nil => simp [planList]
      | cons role roles =>
        have := ih (i + 1) roles
        cases hs with
        | nil => simp [planList, List.range']
        | cons h' hs =>
          obtain ⟨r', k'⟩ := h'
          simp only [planList, ← this]
          simp [List.range'_succ]
  rw [← this, plans, List.range_eq_range']

theorem planList_length (rnd : Rnd) (g : Nat) (ro : Bytes) (i : Nat) (hs : List (Bytes × Bytes)) (roles : List HopRole)
    (h : roles.length = hs.length) : (planList rnd g ro i hs roles).length = hs.length := by
  induction hs generalizing i roles with
  | nil => cases roles <;> simp [planList]
  | cons x hs ih =>
    cases roles with
    | nil => simp at h
    | cons r roles => simp [planList, ih (i + 1) roles (by simpa using h)]

theorem planList_keys (rnd : Rnd) (g : Nat) (ro : Bytes) (i : Nat) (hs : List (Bytes × Bytes)) (roles : List HopRole)
    (h : roles.length = hs.length) : (planList rnd g ro i hs roles).map (fun x => (x.router, x.key)) = hs := by
  induction hs generalizing i roles with
  | nil => cases roles <;> simp [planList]
  | cons x hs ih =>
    cases roles with
    | nil => simp at h
    | cons r roles => simp [planList, ih (i + 1) roles (by simpa using h)]

theorem planList_roles (rnd : Rnd) (g : Nat) (ro : Bytes) (i : Nat) (hs : List (Bytes × Bytes)) (roles : List HopRole)
    (h : roles.length = hs.length) : (planList rnd g ro i hs roles).map (·.role) = roles := by
  induction hs generalizing i roles with
  | nil => cases roles <;> simp_all [planList]
  | cons x hs ih =>
    cases roles with
    | nil => simp at h
    | cons r roles => simp [planList, ih (i + 1) roles (by simpa using h)]

theorem planList_chained (rnd : Rnd) (g : Nat) (ro : Bytes) (i : Nat) (hs : List (Bytes × Bytes)) (roles : List HopRole)
    (h : roles.length = hs.length) : Chained ((hs.head?.map (·.1)).getD ro) (planList rnd g ro i hs roles) ro := by
  induction hs generalizing i roles with
  | nil => cases roles <;> simp [planList, Chained]
  | cons x hs ih =>
    cases roles with
    | nil => simp at h
    | cons r roles => exact ⟨rfl, ih (i + 1) roles (by simpa using h)⟩

theorem planList_ok (rnd : Rnd) (g : Nat) (ro : Bytes) (hg : g < 2 ^ 32) (hids : ∀ i, rnd.ids i < 2 ^ 32) (hro : ro.length = 32)
    (i : Nat) (hs : List (Bytes × Bytes)) (hh : ∀ x ∈ hs, x.1.length = 32) (roles : List HopRole) :
    ∀ x ∈ planList rnd g ro i hs roles, x.Ok := by
  induction hs generalizing i roles with
  | nil => cases roles <;> simp [planList]
  | cons y hs ih =>
    cases roles with
    | nil => simp [planList]
    | cons r roles =>
      intro x hx
      simp only [planList, List.mem_cons] at hx
      rcases hx with rfl | hx
      · refine ⟨hh y (by simp), ?_, hids i, ?_⟩
        · cases hs with
          | nil => exact hro
          | cons z hs => exact hh z (by simp)
        · simp only
          split
          · exact hg
          · exact hids _
      · exact ih (i + 1) (fun z hz => hh z (List.mem_cons_of_mem _ hz)) roles x hx

theorem hopRoles_length (d : Direction) (n : Nat) (h : 0 < n) : (hopRoles d n).length = n := by
  cases d <;> simp [hopRoles] <;> omega

/-! ## The report -/

theorem marks_append (i : Nat) (a b : List Bool) (r : Report) : marks i (a ++ b) r = marks i a (marks (i + a.length) b r) := by
  induction a generalizing i with
  | nil => rfl
  | cons d a ih =>
    simp only [List.cons_append, marks, ih, List.length_cons]
    rw [show i + 1 + a.length = i + (a.length + 1) by omega]

/-- What the answer of a willing or unwilling router is. -/
def outcome (d : Bool) : Outcome := if d then .accepted else .rejected 30

theorem marks_eq (i : Nat) (ds : List Bool) (r : Report) (h : r.length = i + ds.length) :
    marks i ds r = r.take i ++ List.zipWith (fun x d => (x.1, some (outcome d))) (r.drop i) ds := by
  induction ds generalizing i with
  | nil => simp only [marks, List.zipWith_nil_right, List.append_nil]; rw [List.take_of_length_le (by simpa using Nat.le_of_eq h)]
  | cons d ds ih =>
    simp only [List.length_cons] at h
    rw [marks, ih (i + 1) (by omega)]
    have hi : i < r.length := by omega
    rw [List.drop_eq_getElem_cons hi, List.zipWith_cons_cons, Report.set, List.take_succ_eq_append_getElem hi,
      List.append_assoc]
    have e : i = (r.take i).length := by simp; omega
    have : ∀ (a : Report) (x : Bytes × Option Outcome) (b : Report) (o : Option Outcome),
        (a ++ (x :: b)).modify a.length (fun y => (y.1, o)) = a ++ (x.1, o) :: b := by
      intro a x b o
      induction a with
      | nil => rfl
      | cons y a ih => simpa using ih
    have := this (r.take i) r[i] (List.zipWith (fun x d => (x.1, some (outcome d))) (r.drop (i + 1)) ds)
      (some (if d then .accepted else .rejected 30))
    rw [← e] at this
    exact this

theorem joined_append (a b : List Hop) (da db : List Bool) (h : a.length = da.length) :
    joined (a ++ b) (da ++ db) = joined b db ++ joined a da := by
  simp only [joined, List.zip_append h, List.filter_append, List.map_append, List.reverse_append]

theorem joined_all (a : List Hop) (da : List Bool) (h : a.length = da.length) :
    (da.all (·) = true → joined a da = a.reverse) ∧ (da.all (·) = false → (joined a da).length ≠ a.length) := by
  have key : (da.all (·) = true → ((a.zip da).filter (·.2)).map (·.1) = a) ∧
      (da.all (·) = false → ((a.zip da).filter (·.2)).length < a.length) := by
    induction a generalizing da with
    | nil => cases da <;> simp_all
    | cons x a ih =>
      cases da with
      | nil => simp at h
      | cons d da =>
        have h' : a.length = da.length := by simpa using h
        obtain ⟨i1, i2⟩ := ih da h'
        have le : ((a.zip da).filter (·.2)).length ≤ a.length :=
          Nat.le_trans (List.length_filter_le _ _) (by simp [h'])
        cases d with
        | true =>
          simp only [List.all_cons, Bool.true_and, List.zip_cons_cons, List.filter_cons, if_true, List.map_cons, List.length_cons]
          exact ⟨fun h => by rw [i1 h], fun h => Nat.succ_lt_succ (i2 h)⟩
        | false =>
          refine ⟨fun h => ?_, fun _ => ?_⟩
          · simp at h
          · simp only [List.zip_cons_cons, List.filter_cons, Bool.false_eq_true, if_false, List.length_cons]
            omega
  refine ⟨fun h => by rw [joined, key.1 h], fun h => ?_⟩
  have := key.2 h
  simp only [joined, List.length_reverse, List.length_map]
  omega

/-! ## C101: what the creator learns is what the routers decided -/

/-- A router takes part iff it is not shutting down, takes transit tunnels at all, has room for one more, and does not use the
tunnel id already. -/
def willing (t : Transit) (id : Nat) : Bool :=
  !t.shuttingDown && (match t.config with
    | none => false
    | some none => true
    | some (some max) => decide (t.tunnels.length < max)) && (t.table.tunnels id).isNone

/-- The routers `nodes` and the creator's view `hops` of them agree: every router decided as `willing` says; one that takes part
has exactly one more tunnel, with the id and keys the creator has for it, which leads to the next router (the last one to tunnel
`gateway` at `router`); one that does not is unchanged. -/
def Agreed (gateway : Nat) (router : Bytes) : List (Transit × Duration) → List Hop → List HopRole → List (Transit × Bool) → Prop
  | n :: ns, h :: hs, role :: roles, a :: as =>
    h.router = n.1.hash ∧ a.2 = willing n.1 h.tunnelId ∧
    (a.2 = true → ∃ rx, a.1.tunnels = n.1.tunnels ++
        [⟨h.tunnelId, (hs.head?.map (·.tunnelId)).getD gateway, (hs.head?.map (·.router)).getD router, role, h.session.keys, rx⟩] ∧
      a.1.table.tunnels h.tunnelId = some rx) ∧
    (a.2 = false → a.1 = n.1) ∧ Agreed gateway router ns hs roles as
  | [], [], [], [] => True
  | _, _, _, _ => False

/-- The setting: the creator knows the routers' hashes and keys, there are between one and eight of them, and lengths, ids and
clocks are in range. -/
structure Sane (P : Prims) (p : Params) (rnd : Rnd) (nodes : List (Transit × Duration)) : Prop where
  hops : p.hops = nodes.map fun n => (n.1.hash, P.pub n.1.sk)
  some : 0 < nodes.length
  few : nodes.length ≤ 8
  hash : ∀ n ∈ nodes, n.1.hash.length = 32
  router : p.router.length = 32
  mid : p.messageId < 2 ^ 32
  gateway : p.gateway < 2 ^ 32
  ids : ∀ i, rnd.ids i < 2 ^ 32
  pad : ∀ i n, (rnd.pad i n).length = n
  fake : ∀ i, (rnd.fake i).length = 218
  now : p.now + 10000000000 < 2 ^ 32 * 1000000000
  clocks : ∀ n ∈ nodes, n.2 + 8000000000 < 2 ^ 32 * 1000000000

theorem admit_willing (t : Transit) (id nextId : Nat) (nr : Bytes) (role : HopRole) (keys : Keys) :
    (t.admit true id nextId nr role keys).2 = willing t id ∧
    ((t.admit true id nextId nr role keys).2 = true → ∃ rx,
      (t.admit true id nextId nr role keys).1.tunnels = t.tunnels ++ [⟨id, nextId, nr, role, keys, rx⟩] ∧
      (t.admit true id nextId nr role keys).1.table.tunnels id = some rx) ∧
    ((t.admit true id nextId nr role keys).2 = false → (t.admit true id nextId nr role keys).1 = t) := by
  have hc : t.canAccept = (!t.shuttingDown && (match t.config with
    | none => false
    | some none => true
    | some (some max) => decide (t.tunnels.length < max))) := by
    unfold Transit.canAccept
    cases t.shuttingDown with
    | true => rfl
    | false =>
      rcases t.config with _ | _ | max
      · rfl
      · rfl
      · simp only [Bool.not_false, Bool.true_and, Bool.false_eq_true, if_false]
        by_cases h : max ≤ t.tunnels.length
        · rw [if_pos h]; exact (decide_eq_false (by omega)).symm
        · rw [if_neg h]; exact (decide_eq_true (by omega)).symm
  unfold Transit.admit willing
  rw [← hc]
  cases hca : t.canAccept with
  | false => simp
  | true =>
    simp only [Bool.and_true, if_true, Bool.true_and, Routing.Table.tryAdd]
    cases ht : t.table.tunnels id with
    | some y => simp
    | none => simp [Routing.Table.install, Routing.upd]

theorem agreed_of_decisions (P : Prims) (p : Params) (rnd : Rnd) (i : Nat) (nodes : List (Transit × Duration)) (hs : List (Bytes × Bytes))
    (hh : hs = nodes.map fun n => (n.1.hash, P.pub n.1.sk)) (roles : List HopRole) (hr : roles.length = hs.length) :
    Agreed p.gateway p.router nodes (((planList rnd p.gateway p.router i hs roles).map (sealRecord P p rnd)).map (·.1)) roles
      (decisions P p rnd nodes (planList rnd p.gateway p.router i hs roles)) := by
  induction nodes generalizing i hs roles with
  | nil =>
    subst hh
    cases roles with
    | nil => exact trivial
    | cons r roles => simp at hr
  | cons n nodes ih =>
    subst hh
    cases roles with
    | nil => simp at hr
    | cons r roles =>
      have := ih (i + 1) _ rfl roles (by simpa using hr)
      obtain ⟨a1, a2, a3⟩ := admit_willing n.1 (rnd.ids i)
        (if nodes.map (fun n => (n.1.hash, P.pub n.1.sk)) = [] then p.gateway else rnd.ids (i + 1))
        (((nodes.map fun n => (n.1.hash, P.pub n.1.sk)).head?.map (·.1)).getD p.router) r
        (outSession P (P.pub n.1.sk) (rnd.esk i) r).keys
      refine ⟨rfl, a1, ?_, a3, this⟩
      intro h
      obtain ⟨rx, h1, h2⟩ := a2 h
      refine ⟨rx, ?_, h2⟩
      cases nodes with
      | nil => cases roles with
        | nil => exact h1
        | cons _ _ => simp at hr
      | cons n' nodes => cases roles with
        | nil => simp at hr
        | cons _ _ =>
          refine Eq.trans h1 ?_
          rw [if_neg (by simp)]
          rfl

theorem endpoint {P : Prims} (hP : P.Lawful) (hD : Digests P) (E : Env) (p : Params) (rnd : Rnd) (hpad : ∀ i n, (rnd.pad i n).length = n)
    (hmid : p.messageId < 2 ^ 32) (c : UInt8) (s : Nat) (hs : s < 2 ^ 32) (x : Plan) (hok : x.Ok) (hrole : x.role = .outboundEndpoint)
    (t : Transit) (now : Duration) (hnow : now + 8000000000 < 2 ^ 32 * 1000000000) (hh : t.hash = x.router) (hk : P.pub t.sk = x.key)
    (id : Nat) (pre fakes : List Bytes) (hpre : ∀ r ∈ pre, r.length = 218) (hfakes : ∀ r ∈ fakes, r.length = 218)
    (hlen : pre.length + fakes.length ≤ 200)
    (hclash : NoClash P E pre.length [(t, now)] ⟨.shortTunnelBuild, id, fromSecs s,
      c :: (pre ++ wrap P pre.length [sealRecord P p rnd x] fakes).flatten⟩) :
    ∃ F inner g, F.length = pre.length + 1 ∧ (∀ r ∈ F, r.length = 218) ∧
      relay P E [(t, now)] x.router ⟨.shortTunnelBuild, id, fromSecs s,
          c :: (pre ++ wrap P pre.length [sealRecord P p rnd x] fakes).flatten⟩ =
        some (decisions P p rnd [(t, now)] [x], x.nextRouter,
          ⟨.tunnelGateway, p.messageId, fromSecs s, (TunnelGateway.mk x.nextTunnelId inner).serialize⟩) ∧
      TunnelGateway.parse (TunnelGateway.mk x.nextTunnelId inner).serialize = some (⟨x.nextTunnelId, inner⟩, []) ∧
      Message.parseStandard inner = some (g, []) ∧ g.type = .garlic ∧ g.id = p.messageId ∧
      (∀ pend : Pending, pend.dir = .outbound → pend.hops.getLast? = some (sealRecord P p rnd x).1 →
        replyPayload P pend g = some (some (c :: (F ++ fakes).flatten))) ∧
      ∀ rest rs report acc, rs.take F.length = F → ∃ rs', rs'.take pre.length = pre ∧ rs'.length = rs.length ∧
        readReplies P (((sealRecord P p rnd x).1, pre.length) :: rest) rs report acc =
          readReplies P rest rs' (marks pre.length ((decisions P p rnd [(t, now)] [x]).map (·.2)) report)
            (acc ++ joined [(sealRecord P p rnd x).1] ((decisions P p rnd [(t, now)] [x]).map (·.2))) := by
  obtain ⟨hx1, hx2, hx3, hx4⟩ := hok
  obtain ⟨_, hfull, _, _, _⟩ := sealRecord_parts hP p rnd hpad x hx1 hx2
  have hgar : ∃ k tag, (sealRecord P p rnd x).1.session.keys.garlic = some (k, tag) ∧ tag.length = 8 := by
    show ∃ k tag, (Keys.new P _ x.role).garlic = some (k, tag) ∧ tag.length = 8
    rw [hrole]
    exact garlicTag P hD _
  obtain ⟨gk, tag, hgk, htag⟩ := hgar
  generalize hhop : (sealRecord P p rnd x).1 = hop at *
  generalize hful : (sealRecord P p rnd x).2 = full at *
  have hwrap : wrap P pre.length [sealRecord P p rnd x] fakes = full :: lay P hop.session.keys.reply (pre.length + 1) fakes := by
    rw [show sealRecord P p rnd x = (hop, full) by rw [← hhop, ← hful]]
    rfl
  rw [hwrap] at hclash ⊢
  have hsized : ∀ r ∈ pre ++ full :: lay P hop.session.keys.reply (pre.length + 1) fakes, r.length = 218 := by
    intro r hr
    rcases List.mem_append.mp hr with hr | hr
    · exact hpre r hr
    · rcases List.mem_cons.mp hr with rfl | hr
      · exact hfull
      · exact lay_sized hP _ _ _ hfakes r hr
  have hrecs := records_cons 218 (by omega) c _ hsized
  obtain ⟨hcl, -⟩ := hclash
  simp only [hrecs, List.take_left'] at hcl
  have hhandle := handleShort_eq hP E now t p rnd hpad x hx1 hx2 hx3 hx4 hmid hh hk .shortTunnelBuild id (fromSecs s) c pre
    (lay P hop.session.keys.reply (pre.length + 1) fakes) (by rw [hful]; exact hsized) hcl
  rw [hful, hhop] at hhandle
  dsimp only at hhandle
  rw [lay_lay hP] at hhandle
  generalize hA : t.admit true x.tunnelId x.nextTunnelId x.nextRouter x.role hop.session.keys = A at *
  have hdec : decisions P p rnd [(t, now)] [x] = [A] := by
    simp only [decisions, List.zipWith_cons_cons, hhop, hA, List.zipWith_nil_right]
  generalize hF : lay P hop.session.keys.reply 0 pre ++ [sealedReply P hop pre.length full A.2] = F at *
  have hcat : lay P hop.session.keys.reply 0 pre ++ sealedReply P hop pre.length full A.2 :: fakes = F ++ fakes := by
    rw [← hF]; simp
  rw [hcat] at hhandle
  have hFl : F.length = pre.length + 1 := by rw [← hF]; simp [lay_length]
  have hseal : (sealedReply P hop pre.length full A.2).length = 218 := by
    rw [sealedReply, seal_length hP]
    simp [stamp_length, hfull]
  have hFs : ∀ r ∈ F, r.length = 218 := by
    intro r hr
    rw [← hF] at hr
    rcases List.mem_append.mp hr with hr | hr
    · exact lay_sized hP _ _ _ hpre r hr
    · rw [List.mem_singleton.mp hr]; exact hseal
  have hsz2 : ∀ r ∈ F ++ fakes, r.length = 218 := by
    intro r hr
    rcases List.mem_append.mp hr with hr | hr
    · exact hFs r hr
    · exact hfakes r hr
  obtain ⟨out, inner, g, e, o1, o2, o3, o4, o5, o6, o7, plain, o8, o9⟩ := endpointReply_ok hP hD now s gk tag htag x.nextTunnelId
    p.messageId (c :: (F ++ fakes).flatten) hs hnow hx4 hmid (by
      rw [List.length_cons, flatten_length 218 _ hsz2, List.length_append, hFl]; omega)
  have hfw : forwarded P now (fromSecs s) x p.messageId hop.session.keys (c :: (F ++ fakes).flatten) = some out := by
    simp only [forwarded, hrole, hgk, o1]
  rw [hfw, Option.map_some] at hhandle
  refine ⟨F, inner, g, hFl, hFs, ?_, o3, o4, o5, o6, ?_, ?_⟩
  · rw [relay, if_pos ⟨hh.symm, rfl⟩, hhandle]
    simp only [Option.bind_eq_bind, Option.bind_some, o2, if_true, relay, hdec, Option.pure_def]
  · intro pend hd hl
    unfold replyPayload
    simp only [hd, o5, hl, Option.bind_some, hgk, if_neg (Nat.not_lt.mpr o7), o8, o9, Option.bind_eq_bind]
    rfl
  · intro rest rs report acc hrs
    have hget : rs[pre.length]? = some (sealedReply P hop pre.length full A.2) := by
      have : (rs.take F.length)[pre.length]? = rs[pre.length]? := by rw [List.getElem?_take, if_pos (by omega)]
      rw [← this, hrs, ← hF]
      simp [lay_length]
    refine ⟨_, unlayer_take hP hop.session.keys.reply rs pre ?_, ?_, ?_⟩
    · have : rs.take pre.length = (rs.take F.length).take pre.length := by rw [List.take_take]; congr 1; omega
      rw [this, hrs, ← hF, List.take_left' (by rw [lay_length])]
    · simp
    · rw [hdec, readReplies_step hP hop pre.length full hfull A.2 rest rs hget]
      congr 1
      simp only [joined, List.map_cons, List.map_nil, List.zip_cons_cons, List.filter_cons]
      cases A.2 <;> simp

theorem chained_append {d d' : Bytes} {a b : List Plan} (h : Chained d (a ++ b) d') : ∃ e, Chained d a e ∧ Chained e b d' := by
  induction a generalizing d with
  | nil => exact ⟨d, rfl, h⟩
  | cons x a ih =>
    obtain ⟨h1, h2⟩ := h
    obtain ⟨e, h3, h4⟩ := ih h2
    exact ⟨e, ⟨h1, h3⟩, h4⟩

theorem numRecords_range (n extra : Nat) (h : n ≤ 8) : n ≤ numRecords n extra ∧ numRecords n extra ≤ 8 := by
  unfold numRecords
  split <;> omega

/-- What `tryBuild` says once the records have been read. -/
theorem tryBuild_eq (P : Prims) (pend : Pending) (m : Message) (payload : Bytes) (rs : List Bytes) (ds : List Bool)
    (hp : replyPayload P pend m = some (some payload)) (hl : payload.length = pend.numRecords * 218 + 1) (hr : records 218 payload = rs)
    (hds : pend.hops.length = ds.length)
    (hread : readReplies P pend.hops.zipIdx.reverse rs (pend.hops.reverse.map fun h => (h.router, none)) [] =
      some (.ok (marks 0 ds (pend.hops.reverse.map fun h => (h.router, none)), joined pend.hops ds))) :
    tryBuild P pend m = if ds.all (·) then .tunnel pend.hops
      else .failed (List.zipWith (fun h d => (h.router, some (outcome d))) pend.hops.reverse ds) := by
  obtain ⟨j1, j2⟩ := joined_all pend.hops ds hds
  unfold tryBuild
  simp only [hp, hl, ne_eq, not_true, if_false, hr, hread]
  cases h : ds.all (·) with
  | true => simp [j1 h]
  | false =>
    rw [if_pos (j2 h), marks_eq 0 ds _ (by simp [hds])]
    simp only [List.take_zero, List.nil_append, List.drop_zero, List.zipWith_map_left, Bool.false_eq_true, if_false]

/-- What the creator concludes from the routers' answers. -/
def conclusion (hops : List Hop) (answers : List (Transit × Bool)) : Built :=
  if answers.all (·.2) then .tunnel hops
  else .failed (List.zipWith (fun h (a : Transit × Bool) => (h.router, some (outcome a.2))) hops.reverse answers)

theorem conclusion_eq (hops : List Hop) (answers : List (Transit × Bool)) :
    (if (answers.map (·.2)).all (·) then Built.tunnel hops
      else .failed (List.zipWith (fun h d => (h.router, some (outcome d))) hops.reverse (answers.map (·.2)))) =
    conclusion hops answers := by
  unfold conclusion
  rw [List.all_map, List.zipWith_map_right]
  rfl

theorem exp_secs (d : Duration) (h : d < 2 ^ 32 * 1000000000) : d / 1000000000 < 2 ^ 32 ∧
    d / 1000000000 * 1000000000 = fromSecs (d / 1000000000) :=
  ⟨Nat.div_lt_of_lt_mul (by rw [Nat.mul_comm]; exact h), rfl⟩

theorem be1_cons (n : Nat) (l : Bytes) : ∃ c, be 1 n ++ l = c :: l := ⟨_, rfl⟩

/-- The setting, unfolded: the plans, the records of the request and what `create` returns. -/
structure Setup (P : Prims) (p : Params) (rnd : Rnd) (nodes : List (Transit × Duration)) (xs : List Plan) (fakes : List Bytes)
    (pending : Pending) (first key payload : Bytes) (c : UInt8) : Prop where
  len : xs.length = nodes.length
  keys : nodes.map (fun n => (n.1.hash, P.pub n.1.sk)) = xs.map fun x => (x.router, x.key)
  roles : xs.map (·.role) = hopRoles p.dir nodes.length
  ok : ∀ x ∈ xs, x.Ok
  chained : Chained first xs p.router
  last : ∀ y ∈ xs.getLast?, y.nextTunnelId = p.gateway
  agreed : Agreed p.gateway p.router nodes ((xs.map (sealRecord P p rnd)).map (·.1)) (hopRoles p.dir nodes.length)
    (decisions P p rnd nodes xs)
  sized : ∀ r ∈ fakes, r.length = 218
  ids : xs.map (·.tunnelId) = (List.range nodes.length).map rnd.ids
  hops : pending.hops = (xs.map (sealRecord P p rnd)).map (·.1)
  dir : pending.dir = p.dir
  num : pending.numRecords = xs.length + fakes.length
  few : xs.length + fakes.length ≤ 8
  pay : payload = c :: (wrap P 0 (xs.map (sealRecord P p rnd)) fakes).flatten
  start : ∀ n ∈ nodes.head?, n.1.hash = first ∧ P.pub n.1.sk = key
  created : create P p rnd = match p.dir with
    | .outbound => some (.ok (pending, first, ⟨.shortTunnelBuild, p.messageId, p.now + 10000000000, payload⟩))
    | .inbound => (gatewayRequest P p rnd key payload).map fun m => .ok (pending, first, m)

theorem planList_ids (rnd : Rnd) (g : Nat) (ro : Bytes) (i : Nat) (hs : List (Bytes × Bytes)) (roles : List HopRole)
    (h : roles.length = hs.length) : (planList rnd g ro i hs roles).map (·.tunnelId) = (List.range' i hs.length).map rnd.ids := by
  induction hs generalizing i roles with
  | nil => cases roles <;> simp [planList]
  | cons x hs ih =>
    cases roles with
    | nil => simp at h
    | cons r roles => simp [planList, ih (i + 1) roles (by simpa using h), List.range'_succ]

theorem planList_last (rnd : Rnd) (g : Nat) (ro : Bytes) (i : Nat) (hs : List (Bytes × Bytes)) (roles : List HopRole)
    (h : roles.length = hs.length) : ∀ y ∈ (planList rnd g ro i hs roles).getLast?, y.nextTunnelId = g := by
  induction hs generalizing i roles with
  | nil => cases roles <;> simp [planList]
  | cons x hs ih =>
    cases roles with
    | nil => simp at h
    | cons r roles =>
      have := ih (i + 1) roles (by simpa using h)
      cases hs with
      | nil =>
        cases roles with
        | nil => intro y hy; simp only [planList, List.getLast?_singleton, Option.mem_def, Option.some.injEq] at hy; rw [← hy]; rfl
        | cons _ _ => simp at h
      | cons x' hs =>
        cases roles with
        | nil => simp at h
        | cons r' roles =>
          intro y hy
          refine this y ?_
          simpa only [planList, List.getLast?_cons_cons] using hy

theorem setup {P : Prims} (hP : P.Lawful) (p : Params) (rnd : Rnd) (nodes : List (Transit × Duration)) (hs : Sane P p rnd nodes) :
    ∃ xs fakes pending first key payload c, Setup P p rnd nodes xs fakes pending first key payload c := by
  obtain ⟨n0, ns, rfl⟩ : ∃ n0 ns, nodes = n0 :: ns := by
    cases nodes with
    | nil => have := hs.some; simp at this
    | cons a b => exact ⟨a, b, rfl⟩
  have hl : p.hops.length = (n0 :: ns).length := by rw [hs.hops]; simp
  obtain ⟨hr1, hr2⟩ := numRecords_range p.hops.length rnd.extra (by rw [hl]; exact hs.few)
  have hrl : (hopRoles p.dir p.hops.length).length = p.hops.length := hopRoles_length _ _ (by rw [hl]; exact hs.some)
  have hpl := plans_eq p rnd
  generalize hxs : planList rnd p.gateway p.router 0 p.hops (hopRoles p.dir p.hops.length) = xs at *
  have hxl : xs.length = p.hops.length := by rw [← hxs]; exact planList_length _ _ _ _ _ _ hrl
  generalize hfk : (List.range (numRecords p.hops.length rnd.extra - p.hops.length)).map rnd.fake = fakes at *
  have hfl : fakes.length = numRecords p.hops.length rnd.extra - p.hops.length := by rw [← hfk]; simp
  obtain ⟨c, hc⟩ := be1_cons (wrap P 0 (xs.map (sealRecord P p rnd)) fakes).length (wrap P 0 (xs.map (sealRecord P p rnd)) fakes).flatten
  refine ⟨xs, fakes, ⟨p.dir, (xs.map (sealRecord P p rnd)).map (·.1), numRecords p.hops.length rnd.extra, p.tunnelId⟩, n0.1.hash,
    P.pub n0.1.sk, fromRecords (wrap P 0 (xs.map (sealRecord P p rnd)) fakes), c, ?_⟩
  constructor
  case len => rw [hxl, hl]
  case keys => rw [← hxs, planList_keys _ _ _ _ _ _ hrl, hs.hops]
  case roles => rw [← hxs, planList_roles _ _ _ _ _ _ hrl, hl]
  case ok =>
    rw [← hxs]
    refine planList_ok _ _ _ hs.gateway hs.ids hs.router _ _ ?_ _
    intro x hx
    rw [hs.hops] at hx
    obtain ⟨n, hn, rfl⟩ := List.mem_map.mp hx
    exact hs.hash n hn
  case chained =>
    have := planList_chained rnd p.gateway p.router 0 p.hops _ hrl
    rw [hxs, hs.hops] at this
    exact this
  case last => rw [← hxs]; exact planList_last _ _ _ _ _ _ hrl
  case agreed =>
    have := agreed_of_decisions P p rnd 0 (n0 :: ns) p.hops hs.hops _ hrl
    rw [hxs] at this
    rw [← hl]
    exact this
  case sized =>
    rw [← hfk]
    intro r hr
    obtain ⟨i, _, rfl⟩ := List.mem_map.mp hr
    exact hs.fake i
  case ids => rw [← hxs, planList_ids _ _ _ _ _ _ hrl, hl, List.range_eq_range']
  case hops => rfl
  case dir => rfl
  case num => simp only; omega
  case few => omega
  case pay => exact hc
  case start => intro n hn; simp only [List.head?_cons, Option.mem_def, Option.some.injEq] at hn; rw [← hn]; exact ⟨rfl, rfl⟩
  case created =>
    unfold create
    have hne : ¬ p.hops.length > 8 := by rw [hl]; have := hs.few; omega
    simp only [if_neg hne]
    have hcons : p.hops = (n0.1.hash, P.pub n0.1.sk) :: ns.map fun n => (n.1.hash, P.pub n.1.sk) := by rw [hs.hops]; rfl
    split
    · rename_i h; rw [h] at hcons; cases hcons
    · rename_i h
      rw [hcons] at h
      simp only [List.cons.injEq, Prod.mk.injEq] at h
      obtain ⟨⟨rfl, rfl⟩, _⟩ := h
      rw [hpl, hfk, doubleEncrypt_wrap hP]
      cases p.dir <;> rfl

/-- C101, outbound tunnels. The creator sends one message to the first router. Passed on from router to router it becomes a reply
which the last router sends to the requested tunnel at the requested router, under the requested message id. If all routers were
willing, the creator gets the tunnel from it; otherwise it learns that the build failed. Either way every router that agreed has a
tunnel with exactly the ids, next hop and keys the creator has for it, and no other router has changed. -/
theorem C101_outbound_build {P : Prims} (hP : P.Lawful) (hD : Digests P) (E : Env) (p : Params) (rnd : Rnd)
    (nodes : List (Transit × Duration)) (hs : Sane P p rnd nodes) (hdir : p.dir = .outbound) :
    ∃ pending first m m0, create P p rnd = some (.ok (pending, first, m)) ∧ Message.parseShort m.serializeShort = some (m0, []) ∧
      pending.hops.map (·.tunnelId) = (List.range nodes.length).map rnd.ids ∧
      (NoClash P E 0 nodes m0 → ∃ answers reply inner g,
        relay P E nodes first m0 = some (answers, p.router, reply) ∧ reply.type = .tunnelGateway ∧
        TunnelGateway.parse reply.payload = some (⟨p.gateway, inner⟩, []) ∧
        Message.parseStandard inner = some (g, []) ∧ g.type = .garlic ∧ g.id = p.messageId ∧
        Agreed p.gateway p.router nodes pending.hops (List.replicate (nodes.length - 1) .participant ++ [.outboundEndpoint]) answers ∧
        tryBuild P pending g = conclusion pending.hops answers) := by
  obtain ⟨xs, fakes, pending, first, key, payload, c, S⟩ := setup hP p rnd nodes hs
  have hcreated := S.created
  simp only [hdir] at hcreated
  obtain ⟨e1, e2⟩ := exp_secs _ hs.now
  have hmade : ∀ y ∈ xs.map (sealRecord P p rnd), y.2.length = 218 := by
    intro y hy
    obtain ⟨z, hz, rfl⟩ := List.mem_map.mp hy
    exact (sealRecord_parts hP p rnd hs.pad z (S.ok z hz).router (S.ok z hz).next).2.1
  have hpay : payload.length = (xs.length + fakes.length) * 218 + 1 := by
    rw [S.pay, List.length_cons, flatten_length 218 _ (wrap_sized hP _ _ _ hmade S.sized), wrap_length]
    simp
  have hfew := S.few
  have hparse := C16_short_header_roundtrip ⟨.shortTunnelBuild, p.messageId, p.now + 10000000000, payload⟩ [] hs.mid e1
    (by rw [S.pay]; simp) (by simp only; omega)
  rw [List.append_nil] at hparse
  simp only [e2] at hparse
  generalize hsec : (p.now + 10000000000) / 1000000000 = s at *
  refine ⟨pending, first, _, _, hcreated, hparse, ?_, ?_⟩
  · rw [← S.ids, S.hops]
    simp [sealRecord]
  intro hclash
  obtain ⟨init, x, hxs⟩ : ∃ init x, xs = init ++ [x] := by
    cases h : xs.reverse with
    | nil => have := S.len; have := hs.some; simp at h; subst h; simp at *; omega
    | cons x l => exact ⟨l.reverse, x, by rw [← List.reverse_reverse xs, h]; simp⟩
  obtain ⟨ns, n, hns⟩ : ∃ ns n, nodes = ns ++ [n] := by
    cases h : nodes.reverse with
    | nil => have := hs.some; simp at h; subst h; simp at this
    | cons x l => exact ⟨l.reverse, x, by rw [← List.reverse_reverse nodes, h]; simp⟩
  obtain ⟨t, now⟩ := n
  have hlen := S.len
  rw [hxs, hns] at hlen
  simp only [List.length_append, List.length_singleton] at hlen
  have hlen' : ns.length = init.length := by omega
  have hkeys := S.keys
  rw [hxs, hns, List.map_append, List.map_append] at hkeys
  obtain ⟨k1, k2⟩ := List.append_inj hkeys (by simpa using hlen')
  simp only [List.map_cons, List.map_nil, List.cons.injEq, Prod.mk.injEq, and_true] at k2
  have hroles := S.roles
  rw [hxs, hns, hdir] at hroles
  simp only [List.map_append, List.map_cons, List.map_nil, hopRoles, List.length_append, List.length_singleton,
    Nat.add_sub_cancel] at hroles
  obtain ⟨r1, r2⟩ := List.append_inj hroles (by simp [hlen'])
  simp only [List.cons.injEq, and_true] at r2
  have hrole1 : ∀ y ∈ init, y.role ≠ .outboundEndpoint := by
    intro y hy
    have : y.role ∈ init.map (·.role) := List.mem_map_of_mem hy
    rw [r1] at this
    rw [List.eq_of_mem_replicate this]
    decide
  have hch := S.chained
  rw [hxs] at hch
  obtain ⟨d1, c1, c2⟩ := chained_append hch
  obtain ⟨c2, c3⟩ := c2
  simp only [Chained] at c3
  have hok1 : ∀ y ∈ init, y.Ok := fun y hy => S.ok y (by rw [hxs]; simp [hy])
  have hokx : x.Ok := S.ok x (by rw [hxs]; simp)
  have hlast := S.last x (by rw [hxs]; simp)
  have hclock := hs.clocks (t, now) (by rw [hns]; simp)
  have hpl := S.pay
  have hlx : xs.length = init.length + 1 := by rw [hxs]; simp
  rw [hxs, List.map_append, wrap_append, List.length_map, Nat.zero_add] at hpl
  simp only [List.map_cons, List.map_nil] at hpl
  have hWs : ∀ r ∈ wrap P init.length [sealRecord P p rnd x] fakes, r.length = 218 := by
    refine wrap_sized hP _ _ _ ?_ S.sized
    intro y hy
    exact hmade y (by rw [hxs, List.map_append]; exact List.mem_append_right _ hy)
  rw [hpl, hns] at hclash
  obtain ⟨F1, f1, f2, f3, f4⟩ := trip hP E p rnd hs.pad hs.mid c s e1 init ns k1 hok1 hrole1 first d1 c1 p.messageId [] _
    (by simp) hWs (by rw [wrap_length]; simp; omega) (noClash_left P E _ _ _ _ hclash)
  simp only [List.length_nil, Nat.zero_add, List.nil_append, ite_self] at f1 f3 f4
  obtain ⟨-, hclash2⟩ := noClash_append P E _ _ _ _ _ _ _ _ f3 hclash
  rw [Nat.zero_add, hlen', ← f1] at hclash2
  obtain ⟨F, inner, g, g1, g2, g3, g4, g5, g6, g7, g8, g9⟩ := endpoint hP hD E p rnd hs.pad hs.mid c s e1 x hokx r2 t now hclock k2.1 k2.2
    p.messageId F1 fakes f2 S.sized (by omega) hclash2
  have hrel := relay_append P E ns [(t, now)] _ _ _ _ _ f3
  rw [← f1, ← c2, g3] at hrel
  have hdec : decisions P p rnd nodes xs = decisions P p rnd ns init ++ decisions P p rnd [(t, now)] [x] := by
    rw [hns, hxs, decisions, List.zipWith_append hlen']
    rfl
  have hdl : (decisions P p rnd ns init).length = init.length := by simp [decisions, hlen']
  rw [hlast] at g4
  refine ⟨decisions P p rnd nodes xs, ⟨.tunnelGateway, p.messageId, fromSecs s, (TunnelGateway.mk p.gateway inner).serialize⟩, inner, g,
    ?_, rfl, g4, g5, g6, g7, ?_, ?_⟩
  · rw [hdec, hns, hpl, ← f1, hrel, ← c3, hlast]
    simp
  · have := S.agreed
    rw [hdir] at this
    rw [S.hops]
    exact this
  · have hsz2 : ∀ r ∈ F ++ fakes, r.length = 218 := by
      intro r hr
      rcases List.mem_append.mp hr with hr | hr
      · exact g2 r hr
      · exact S.sized r hr
    have hhops : pending.hops = (init.map (sealRecord P p rnd)).map (·.1) ++ [(sealRecord P p rnd x).1] := by
      rw [S.hops, hxs]; simp
    have hpl2 : pending.hops.length = init.length + 1 := by rw [hhops]; simp
    rw [tryBuild_eq P pending g _ (F ++ fakes) ((decisions P p rnd nodes xs).map (·.2))
      (g8 pending (by rw [S.dir, hdir]) (by rw [hhops]; simp)) ?_ (records_cons 218 (by omega) c _ hsz2) ?_ ?_, conclusion_eq]
    · rw [List.length_cons, flatten_length 218 _ hsz2, List.length_append, g1, f1, S.num, hlx]
    · rw [hpl2, hdec, List.length_map, List.length_append, hdl]
      rfl
    · obtain ⟨rs1, a1, a2, a3⟩ := g9 (((init.map (sealRecord P p rnd)).map (·.1)).zipIdx 0).reverse (F ++ fakes)
        (pending.hops.reverse.map fun h => (h.router, none)) [] (by rw [List.take_left'] <;> rfl)
      obtain ⟨rs2, b1, b2, b3⟩ := f4 [] rs1
        (marks F1.length ((decisions P p rnd [(t, now)] [x]).map (·.2)) (pending.hops.reverse.map fun h => (h.router, none)))
        ([] ++ joined [(sealRecord P p rnd x).1] ((decisions P p rnd [(t, now)] [x]).map (·.2))) a1
      have hz : pending.hops.zipIdx.reverse = ((sealRecord P p rnd x).1, F1.length) ::
          (((init.map (sealRecord P p rnd)).map (·.1)).zipIdx 0).reverse := by
        rw [hhops, List.zipIdx_append, List.reverse_append, f1]
        simp
      rw [hz, a3]
      rw [List.append_nil] at b3
      rw [b3, hdec, List.map_append, marks_append, hhops, joined_append _ _ _ _ (by simp [hdl])]
      simp [readReplies, hdl, f1]

end Emissary.TBuild
