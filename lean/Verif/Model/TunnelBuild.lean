import Verif.Model.BuildRecord
import Verif.Model.Ssu2Handshake
import Verif.Model.Transport
import Verif.Model.StreamTx
/-!
# Building tunnels

Models `tunnel/noise.rs` (118-186, 265-551, 654-814), `tunnel/hop/pending.rs` (99-538), `tunnel/transit/mod.rs` (168-885) and
`tunnel/garlic.rs` (96-228).

`P` are the primitives: `P.ks key iv n` is the ChaCha20 keystream (from block 1), `P.seal`/`P.unseal` ChaCha20-Poly1305,
`P.sha`, `P.hmac`, `P.dh`, `P.pub`. Keys are assumed to have the length the primitives want (HMAC-SHA-256 returns 32 bytes).
Random values and the clock are arguments. Zeroing of secrets, metrics and logging are not represented. A router hash is 32
bytes; `RouterId` is taken to be the hash.
-/
namespace Emissary.TBuild
open Emissary Emissary.I2np Emissary.Build Emissary.Prim
open Emissary.Ssu2 (Prims)
open Emissary.Ntcp2 (nonceBytes)
open Emissary.Stream (chunksOf)

/-! ## Keys (noise.rs) -/

/-- `ChaCha::with_nonce(key, n).encrypt_ref(r)` and `.decrypt_ref(r)` (chachapoly.rs 184-224). -/
def layer (P : Prims) (key : Bytes) (n : Nat) (r : Bytes) : Bytes := List.zipWith (· ^^^ ·) r (P.ks key (nonceBytes n) r.length)

/-- One HKDF step of `TunnelKeys::new`: the new chaining key and the derived key (noise.rs 121-127). -/
def hkdf (P : Prims) (ck label : Bytes) : Bytes × Bytes :=
  let temp := P.hmac ck []
  let ck := P.hmac temp (label ++ [1])
  (ck, P.hmac temp (ck ++ label ++ [2]))

/-- `TunnelKeys` (45-66). `garlic` is key and tag. -/
structure Keys where
  garlic : Option (Bytes × Bytes)
  iv : Bytes
  layer : Bytes
  reply : Bytes
deriving Repr, DecidableEq

/-- tunnel/noise.rs 122-125. -/
def lblReply : Bytes := "SMTunnelReplyKey".toUTF8.toList
/-- tunnel/noise.rs 132-135. -/
def lblLayer : Bytes := "SMTunnelLayerKey".toUTF8.toList
/-- tunnel/noise.rs 154-157. -/
def lblIv : Bytes := "TunnelLayerIVKey".toUTF8.toList
/-- tunnel/noise.rs 164-168. -/
def lblGarlic : Bytes := "RGarlicKeyAndTag".toUTF8.toList

/-- `TunnelKeys::new` (120-186). -/
def Keys.new (P : Prims) (ck : Bytes) (role : HopRole) : Keys :=
  let (ck, reply) := hkdf P ck lblReply
  let (ck, layer) := hkdf P ck lblLayer
  match role with
  | .inboundGateway | .participant => ⟨none, ck, layer, reply⟩
  | .outboundEndpoint =>
    let (ck, iv) := hkdf P ck lblIv
    let (ck, garlic) := hkdf P ck lblGarlic
    ⟨some (garlic, ck.take 8), iv, layer, reply⟩

/-- The initial chaining key (654-660). -/
def protocolCk : Bytes := "Noise_N_25519_ChaChaPoly_SHA256".toUTF8.toList ++ [0]

/-- `NoiseContext::outbound_state` and `inbound_state` (661-663). -/
def outState (P : Prims) : Bytes := P.sha protocolCk
/-- tunnel/noise.rs 661-663. -/
def inState (P : Prims) (sk : Bytes) : Bytes := P.sha (outState P ++ P.pub sk)

/-- Chaining key and AEAD key from a shared secret (709-712, 732-735, 754-757, 779-782, 806-809). -/
def mix (P : Prims) (secret : Bytes) : Bytes × Bytes :=
  let temp := P.hmac protocolCk secret
  let ck := P.hmac temp [1]
  (ck, P.hmac temp (ck ++ [2]))

/-- `OutboundSession` (554-566). -/
structure OutSession where
  aead : Bytes
  eph : Bytes
  state : Bytes
  keys : Keys
deriving Repr, DecidableEq

/-- `create_outbound_session` (691-724); `esk` is the ephemeral secret. -/
def outSession (P : Prims) (remote esk : Bytes) (role : HopRole) : OutSession :=
  let state := P.sha (P.sha (outState P ++ remote) ++ P.pub esk)
  let (ck, aead) := mix P (P.dh esk remote)
  { aead, eph := P.pub esk, state, keys := Keys.new P ck role }

/-- `create_short_inbound_session`, `create_long_inbound_session` (727-767): chaining key, AEAD key, state. -/
structure InSession where
  ck : Bytes
  aead : Bytes
  state : Bytes
deriving Repr, DecidableEq

/-- tunnel/noise.rs 727-767. -/
def inSession (P : Prims) (sk eph : Bytes) : InSession :=
  let (ck, aead) := mix P (P.dh sk eph)
  { ck, aead, state := P.sha (inState P sk ++ eph) }

/-- `derive_inbound_garlic_key` (772-790): key and associated data. -/
def garlicIn (P : Prims) (sk eph : Bytes) : Bytes × Bytes := ((mix P (P.dh sk eph)).2, P.sha (inState P sk ++ eph))

/-- `derive_outbound_garlic_key` (797-818). -/
def garlicOut (P : Prims) (remote esk : Bytes) : Bytes × Bytes :=
  ((mix P (P.dh esk remote)).2, P.sha (P.sha (outState P ++ remote) ++ P.pub esk))

/-! ## Build messages as lists of records -/

/-- `payload[1..].chunks_mut(size)`. -/
def records (size : Nat) (payload : Bytes) : List Bytes := chunksOf size payload.length (payload.drop 1)

/-- `find_local_record` (transit/mod.rs 207-218). -/
def findLocal (size : Nat) (hash payload : Bytes) : Option Nat :=
  if payload.length > size ∧ (payload.length - 1) % size = 0 then
    (records size payload).findIdx? fun c => c.take 16 == hash.take 16
  else none

/-! ## The participating router (transit/mod.rs) -/

/-- A transit tunnel in the join set. `rx` is the handle of its message channel. tunnel/transit/mod.rs 207-218. -/
structure TransitTunnel where
  id : Nat
  nextId : Nat
  nextRouter : Bytes
  role : HopRole
  keys : Keys
  rx : Nat
deriving Repr, DecidableEq

/-- `TransitTunnelManager` (111-132) and the router's noise context and routing table. `config`: `none` is disabled, `some none`
is unlimited. -/
structure Transit where
  sk : Bytes
  hash : Bytes
  config : Option (Option Nat)
  shuttingDown : Bool := false
  tunnels : List TransitTunnel := []
  table : Routing.Table

/-- `can_accept_transit_tunnel` (174-204). -/
def Transit.canAccept (t : Transit) : Bool :=
  if t.shuttingDown then false
  else match t.config with
    | none => false
    | some (some max) => if max ≤ t.tunnels.length then false else true
    | some none => true

/-- The decision (512-527, 266-283) and the start of the tunnel task (577-664); `allowed` is false for roles that are not
supported. -/
def Transit.admit (t : Transit) (allowed : Bool) (id nextId : Nat) (nextRouter : Bytes) (role : HopRole) (keys : Keys) :
    Transit × Bool :=
  if t.canAccept && allowed then
    match t.table.tryAdd id 64 with
    | (table, some rx) => ({ t with table, tunnels := t.tunnels ++ [⟨id, nextId, nextRouter, role, keys, rx⟩] }, true)
    | (_, none) => (t, false)
  else (t, false)

/-- What `handle_*_tunnel_build` returns: next router, serialized message, whether there is a feedback channel.
tunnel/transit/mod.rs 221-467. -/
structure Reply where
  router : Bytes
  message : Bytes
  feedback : Bool
deriving Repr, DecidableEq

/-- The record with the decision (540-542, 570-572). -/
def stampShort (status : UInt8) (r : Bytes) : Bytes := ((r.set 48 0).set 49 0).set 201 status

/-- `encrypt_build_records` (noise.rs 336-376): bytes 0..202 of the own record are sealed and the tag fills the rest. -/
def encryptRecords (P : Prims) (keys : Keys) (state : Bytes) (own : Nat) (rs : List Bytes) : List Bytes :=
  rs.mapIdx fun i r => if i = own then P.seal keys.reply i state (r.take 202) else layer P keys.reply i r

/-- `I2NP_MESSAGE_EXPIRATION` (i2np/mod.rs 62). -/
def i2npExpiration : Duration := 8000000000

/-- The outbound endpoint's answer (682-735): the reply in a garlic clove, sealed, in a `TunnelGateway` message. `none` would be
a panic of the builder. -/
def endpointReply (P : Prims) (now expiration : Duration) (garlic : Bytes × Bytes) (nextId nextMsg : Nat) (payload : Bytes) :
    Option Bytes := do
  let plain ← Garlic.build [.clove .outboundTunnelBuildReply nextMsg (now + i2npExpiration) .localNode payload,
    .dateTime (asSecs now % 2 ^ 32)]
  let sealed := P.seal garlic.1 0 garlic.2 plain
  let out := be 4 (sealed.length + 8) ++ garlic.2 ++ sealed
  let message := (Message.mk .garlic nextMsg (now + i2npExpiration) out).serializeStandard P.sha
  let msg := (TunnelGateway.mk nextId message).serialize
  return (Message.mk .tunnelGateway nextMsg expiration msg).serializeShort

/-- `handle_short_tunnel_build` (470-748). `none`: an error is returned and nothing else happens. -/
def Transit.handleShort (P : Prims) (E : Env) (now : Duration) (t : Transit) (m : Message) : Option (Transit × Reply) := do
  let own ← findLocal 218 t.hash m.payload
  let record ← (records 218 m.payload)[own]?
  let session := inSession P t.sk ((record.drop 16).take 32)
  let plain ← P.unseal session.aead 0 session.state (record.drop 48)
  let b ← ShortRecord.parse E plain
  let state := P.sha (session.state ++ record.drop 48)
  let keys := Keys.new P session.ck b.role
  let (t, accepted) := t.admit true b.tunnelId b.nextTunnelId b.nextRouter b.role keys
  let stamped := stampShort (if accepted then 0 else 30) record
  let payload := m.payload.take 1 ++ (encryptRecords P keys state own ((records 218 m.payload).set own stamped)).flatten
  let message ← match b.role with
    | .inboundGateway | .participant =>
      some (Message.mk .shortTunnelBuild b.nextMessageId m.expiration payload).serializeShort
    | .outboundEndpoint => match keys.garlic with
      | some garlic => endpointReply P now m.expiration garlic b.nextTunnelId b.nextMessageId payload
      | none => none
  return (t, ⟨b.nextRouter, message, accepted⟩)

/-- The long record with the decision (301-303, 318-320). -/
def stampLong (status : UInt8) (r : Bytes) : Bytes := ((r.set 48 0).set 49 0).set 511 status

/-- `handle_variable_tunnel_build` (221-467): only outbound endpoints are accepted; the record is sealed with the chaining key
(`encrypt_build_record`, noise.rs 502-531). -/
def Transit.handleVariable (P : Prims) (E : Env) (t : Transit) (m : Message) : Option (Transit × Reply) := do
  let own ← findLocal 528 t.hash m.payload
  let record ← (records 528 m.payload)[own]?
  let session := inSession P t.sk ((record.drop 16).take 32)
  let plain ← P.unseal session.aead 0 session.state (record.drop 48)
  let b ← VarRecord.parse E plain
  let state := P.sha (session.state ++ record.drop 48)
  let keys : Keys := ⟨none, b.ivKey, b.layerKey, []⟩
  let (t, accepted) := t.admit (b.role == .outboundEndpoint) b.tunnelId b.nextTunnelId b.nextRouter b.role keys
  let stamped := P.seal session.ck 0 state ((stampLong (if accepted then 0 else 30) record).take 512)
  let payload := m.payload.take 1 ++ ((records 528 m.payload).set own stamped).flatten
  let message := match b.role with
    | .inboundGateway | .participant =>
      (Message.mk .variableTunnelBuild b.nextMessageId m.expiration payload).serializeShort
    | .outboundEndpoint =>
      let message := (Message.mk .variableTunnelBuildReply b.nextMessageId m.expiration payload).serializeStandard P.sha
      (Message.mk .tunnelGateway b.nextMessageId m.expiration
        (TunnelGateway.mk b.nextTunnelId message).serialize).serializeShort
  return (t, ⟨b.nextRouter, message, accepted⟩)

/-- What reaches the manager. Not in the code: the events that the theorems quantify over. -/
inductive TransitOp where
  /-- a message from the routing table's transit channel; `fb` is the number of the feedback channel -/
  | message (now : Duration) (m : Message) (fb : Nat)
  /-- the task of the tunnel at position `i` ends: it expired, its feedback channel was dropped or the two minutes passed -/
  | ended (i : Nat)
  /-- the shutdown request is received -/
  | shutdown
  /-- another part of the router uses the routing table -/
  | table (op : Routing.Op)

/-- What the manager does with a message. Not in the code: the effects that can be observed. -/
inductive TransitOut where
  | sent (reply : Reply) (result : Routing.RouteRes)
  | failed
  | ignored
  | panic
  | none
deriving Repr, DecidableEq

/-- Sending the answer (797-815). -/
def Transit.answer (chk : Bool) (t : Transit) (r : Reply) (fb : Nat) : Transit × TransitOut :=
  let (table, res) := if r.feedback then t.table.sendFb chk r.router r.message fb else t.table.send chk r.router r.message
  ({ t with table }, .sent r res)

/-- One step of `TransitTunnelManager::poll` (778-885). The log line for a garlic message slices the first 12 bytes of its
payload (786). -/
def Transit.step (P : Prims) (E : Env) (chk : Bool) (t : Transit) : TransitOp → Transit × TransitOut
  | .message now m fb => match m.type with
    | .shortTunnelBuild => match t.handleShort P E now m with
      | some (t, r) => t.answer chk r fb
      | none => (t, .failed)
    | .variableTunnelBuild => match t.handleVariable P E m with
      | some (t, r) => t.answer chk r fb
      | none => (t, .failed)
    | .garlic => (t, if m.payload.length < 12 then .panic else .ignored)
    | _ => (t, .ignored)
  | .ended i => match t.tunnels[i]? with
    | some x => ({ t with tunnels := t.tunnels.eraseIdx i, table := t.table.removeTunnel x.id }, .none)
    | none => (t, .none)
  | .shutdown => ({ t with shuttingDown := true }, .none)
  | .table op => ({ t with table := (t.table.step chk op).1 }, .none)

/-- A history and the log of what was done. Not in the code: a fold of the steps. -/
def Transit.run (P : Prims) (E : Env) (chk : Bool) (t : Transit) : List TransitOp → Transit × List (TransitOp × TransitOut)
  | [] => (t, [])
  | o :: os =>
    let r := t.step P E chk o
    let q := r.1.run P E chk os
    (q.1, (o, r.2) :: q.2)

/-! ## The creator (hop/pending.rs) -/

/-- tunnel/hop/mod.rs 69. -/
inductive Direction where
  | inbound
  | outbound
deriving Repr, DecidableEq

/-- `hop_roles` (hop/inbound.rs 295-298, hop/outbound.rs 227-231). -/
def hopRoles : Direction → Nat → List HopRole
  | .inbound, n => .inboundGateway :: List.replicate (n - 1) .participant
  | .outbound, n => List.replicate (n - 1) .participant ++ [.outboundEndpoint]

/-- `TunnelBuildParameters` (hop/mod.rs 232-249) with the destructed `TunnelInfo` (216-229). A hop is the router's hash and its
static key; `gateway` and `router` say where the reply goes. -/
structure Params where
  dir : Direction
  hops : List (Bytes × Bytes)
  messageId : Nat
  gateway : Nat
  tunnelId : Nat
  router : Bytes
  now : Duration

/-- Random values: the number of fake records, the hops' tunnel ids, ephemeral secrets and padding, the fake records and the
ephemeral secret of the garlic message. Not in the code: what the model takes as given, for every value of it. -/
structure Rnd where
  extra : Nat
  ids : Nat → Nat
  esk : Nat → Bytes
  pad : Nat → Nat → Bytes
  fake : Nat → Bytes
  garlicEsk : Bytes

/-- `TunnelHop` (hop/mod.rs 42-51). -/
structure Hop where
  tunnelId : Nat
  router : Bytes
  session : OutSession
deriving Repr, DecidableEq

/-- `PendingTunnel` (pending.rs 64-82) without the name and the receiver. -/
structure Pending where
  dir : Direction
  hops : List Hop
  numRecords : Nat
  tunnelId : Nat

/-- tunnel/hop/pending.rs 99-309. -/
inductive CreateErr where
  | tooManyHops (n : Nat)
  | notEnoughHops (n : Nat)
deriving Repr, DecidableEq

/-- The tuples of the zipped iterators (172-181): position, tunnel id, router, next tunnel id, next router, role, static key. -/
structure Plan where
  pos : Nat
  tunnelId : Nat
  router : Bytes
  nextTunnelId : Nat
  nextRouter : Bytes
  role : HopRole
  key : Bytes
deriving Repr, DecidableEq

/-- The zipped iterators (162-181). -/
def plans (p : Params) (rnd : Rnd) : List Plan :=
  let ids := (List.range p.hops.length).map rnd.ids ++ [p.gateway]
  let routers := p.hops.map (·.1) ++ [p.router]
  let roles := hopRoles p.dir p.hops.length
  ((List.range p.hops.length).zip ((ids.zip routers).zip ((ids.drop 1).zip ((routers.drop 1).zip
    (roles.zip (p.hops.map (·.2))))))).map
    fun (i, (id, r), nid, nr, role, key) => ⟨i, id, r, nid, nr, role, key⟩

/-- The plaintext record (190-198); `TUNNEL_BUILD_EXPIRATION` is 10 s (58). -/
def plainRecord (p : Params) (rnd : Rnd) (x : Plan) : Bytes :=
  (ShortParams.mk x.tunnelId x.nextTunnelId x.nextRouter x.role (asSecs p.now / 60 % 2 ^ 32)
    (asSecs (p.now + 10000000000) % 2 ^ 32) p.messageId).serialize (rnd.pad x.pos)

/-- The hop with its updated state and the full record (183-231). -/
def sealRecord (P : Prims) (p : Params) (rnd : Rnd) (x : Plan) : Hop × Bytes :=
  let s := outSession P x.key (rnd.esk x.pos) x.role
  let c := P.seal s.aead 0 s.state (plainRecord p rnd x)
  (⟨x.tunnelId, x.router, { s with state := P.sha (s.state ++ c) }⟩, x.router.take 16 ++ s.eph ++ c)

/-- The double encryption (239-250). -/
def doubleEncrypt (P : Prims) (hops : List Hop) (rs : List Bytes) : List Bytes :=
  (hops.zipIdx).foldl (fun rs (h, i) => rs.mapIdx fun j r => if i < j then layer P h.session.keys.reply j r else r) rs

/-- `UNFRAGMENTED_MAX_RECORDS` = 4, `MAX_BUILD_RECORDS` = 8 (51-55): the number of records (146-150). -/
def numRecords (hops extra : Nat) : Nat :=
  if hops < 4 then min (hops + extra % 3) 4 else min (hops + extra % 3) 8

/-- The garlic message to the inbound gateway (270-305). `none` would be a panic of the builder. -/
def gatewayRequest (P : Prims) (p : Params) (rnd : Rnd) (firstKey payload : Bytes) : Option Message := do
  let plain ← Garlic.build [.dateTime (asSecs p.now % 2 ^ 32),
    .clove .shortTunnelBuild p.messageId (p.now + i2npExpiration) .localNode payload]
  let (key, tag) := garlicOut P firstKey rnd.garlicEsk
  let sealed := P.seal key 0 tag plain
  return ⟨.garlic, p.messageId, p.now + i2npExpiration, be 4 (sealed.length + 32) ++ P.pub rnd.garlicEsk ++ sealed⟩

/-- `create_tunnel` (99-309): the pending tunnel, the router to send to and the message. The outer `none` would be a panic. -/
def create (P : Prims) (p : Params) (rnd : Rnd) : Option (Except CreateErr (Pending × Bytes × Message)) :=
  let n := p.hops.length
  if n > 8 then some (.error (.tooManyHops n))
  else match p.hops with
    | [] => some (.error (.notEnoughHops 0))
    | (first, firstKey) :: _ =>
      let num := numRecords n rnd.extra
      let made := (plans p rnd).map (sealRecord P p rnd)
      let hops := made.map (·.1)
      let rs := doubleEncrypt P hops (made.map (·.2) ++ (List.range (num - n)).map rnd.fake)
      let pending : Pending := ⟨p.dir, hops, num, p.tunnelId⟩
      let payload := fromRecords rs
      match p.dir with
      | .outbound => some (.ok (pending, first, ⟨.shortTunnelBuild, p.messageId, p.now + 10000000000, payload⟩))
      | .inbound => (gatewayRequest P p rnd firstKey payload).map fun m => .ok (pending, first, m)

/-- A hop's entry in the report. tunnel/hop/pending.rs 336-538. -/
inductive Outcome where
  | accepted
  | rejected (code : UInt8)
  | invalid
deriving Repr, DecidableEq

/-- Not in the code: a helper of the model. -/
abbrev Report := List (Bytes × Option Outcome)

/-- The result of `try_build_tunnel`: the hops of the tunnel, the report of the failure, or a failed slice.
Result of tunnel/hop/pending.rs 336-538. -/
inductive Built where
  | tunnel (hops : List Hop)
  | failed (report : Report)
  | panic
deriving Repr, DecidableEq

/-- `hop_results[i].1 = Some(o)`. -/
def Report.set (r : Report) (i : Nat) (o : Outcome) : Report := r.modify i fun x => (x.1, some o)

/-- The loop over the hops, last hop first (456-521). -/
def readReplies (P : Prims) : List (Hop × Nat) → List Bytes → Report → List Hop → Option (Except Report (Report × List Hop))
  | [], _, report, acc => some (.ok (report, acc))
  | (h, i) :: rest, rs, report, acc => do
    let record ← rs[i]?
    match P.unseal h.session.keys.reply i h.session.state record with
    | none => some (.error (report.set i .invalid))
    | some plain => do
      let status ← plain[201]?
      let rs := rs.mapIdx fun j r => if j = i then r else layer P h.session.keys.reply j r
      if status = 0 then readReplies P rest rs (report.set i .accepted) (acc ++ [h])
      else readReplies P rest rs (report.set i (.rejected status)) acc

/-- The payload of the reply (362-434). The outer `none` is the failed slice `payload[12..]`. -/
def replyPayload (P : Prims) (t : Pending) (m : Message) : Option (Option Bytes) :=
  match t.dir, m.type with
  | .inbound, .shortTunnelBuild => some (some m.payload)
  | .outbound, .outboundTunnelBuildReply => some (some m.payload)
  | .outbound, .garlic =>
    match t.hops.getLast?.bind (·.session.keys.garlic) with
    | none => none
    | some (key, tag) =>
      if m.payload.length < 12 then none
      else some do
        let plain ← P.unseal key 0 tag (m.payload.drop 12)
        let blocks ← Garlic.parse plain
        blocks.findSome? fun b => match b with
          | .clove .outboundTunnelBuildReply _ _ _ body => some body
          | _ => none
  | _, _ => some none

/-- `try_build_tunnel` (336-538) and `TunnelBuilder::build` (hop/mod.rs 145-152). -/
def tryBuild (P : Prims) (t : Pending) (m : Message) : Built :=
  let report : Report := t.hops.reverse.map fun h => (h.router, none)
  match replyPayload P t m with
  | none => .panic
  | some none => .failed (report.set 0 .invalid)
  | some (some payload) =>
    if payload.length ≠ t.numRecords * 218 + 1 then .failed (report.set 0 .invalid)
    else match readReplies P t.hops.zipIdx.reverse (records 218 payload) report [] with
      | none => .panic
      | some (.error report) => .failed report
      | some (.ok (report, acc)) => if acc.length ≠ t.hops.length then .failed report else .tunnel acc.reverse

/-! ## Garlic messages for the router (tunnel/garlic.rs) -/

/-- `GarlicHandler::handle_message` (96-228); `mid` is the random message id of tunnel messages. -/
def handleGarlic (P : Prims) (sk : Bytes) (now : Duration) (mid : Nat) (m : Message) : Option (List Transport.Instr) := do
  if m.payload.length < 36 then none
  else do
    let (key, ad) := garlicIn P sk ((m.payload.drop 4).take 32)
    let plain ← P.unseal key 0 ad (m.payload.drop 36)
    let blocks ← Garlic.parse plain
    return blocks.filterMap fun b => match b with
      | .clove type id expiration delivery body =>
        if expiration < now then none
        else match delivery with
          | .localNode => some (.localMsg ⟨type, id, expiration, body⟩)
          | .router hash => some (.router hash (Message.mk type id expiration body).serializeShort)
          | .tunnel hash tid =>
            let message := (Message.mk type id expiration body).serializeStandard P.sha
            some (.tunnel hash tid (Message.mk .tunnelGateway mid expiration (TunnelGateway.mk tid message).serialize).serializeShort)
          | .destination _ => none
      | _ => none

end Emissary.TBuild
