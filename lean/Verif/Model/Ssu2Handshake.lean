import Verif.Model.Ssu2Packet
/-!
# SSU2 handshake (transport/ssu2/session/pending/{inbound,outbound,mod}.rs, socket.rs 162-342, crypto/noise.rs)

Random values and the clock are arguments. A full packet channel (`pkt_tx.try_send` fails) only loses the packet and is covered
by the network losing it. `chk`: built with debug assertions.
-/
namespace Emissary.Ssu2
open Emissary Emissary.I2np Emissary.Ntcp2

/-- Primitives of the handshake: SHA-256, HMAC-SHA-256, X25519 (`dh secret public`, `pub secret`), and what
`RouterInfo::parse` finds: the router's id and, if it has an SSU2 address, its intro key. -/
structure Prims extends Crypto where
  sha : Bytes → Bytes
  hmac : Bytes → Bytes → Bytes
  dh : Bytes → Bytes → Bytes
  pub : Bytes → Bytes
  info : Bytes → Option (Nat × Option Bytes)

/-- `NoiseContext` (crypto/noise.rs 25-31). -/
structure Noise where
  ck : Bytes
  state : Bytes
deriving Repr, DecidableEq

/-- `mix_hash` (noise.rs 60-63). -/
def Noise.mixHash (P : Prims) (n : Noise) (x : Bytes) : Noise := { n with state := P.sha (n.state ++ x) }

/-- `mix_key` (noise.rs 66-80): the cipher key and the new context. -/
def Noise.mixKey (P : Prims) (n : Noise) (sk pk : Bytes) : Bytes × Noise :=
  let temp := P.hmac n.ck (P.dh sk pk)
  let ck := P.hmac temp [1]
  (P.hmac temp (ck ++ [2]), { n with ck := ck })

/-- ASCII labels. transport/ssu2/socket.rs 62. -/
def lblProtocol : Bytes := "Noise_XKchaobfse+hs1+hs2+hs3_25519_ChaChaPoly_SHA256".toUTF8.toList
/-- transport/ssu2/session/pending/outbound.rs 354, inbound.rs 300. -/
def lblCreate : Bytes := "SessCreateHeader".toUTF8.toList
/-- transport/ssu2/session/pending/outbound.rs 409, inbound.rs 365. -/
def lblConfirmed : Bytes := "SessionConfirmed".toUTF8.toList
/-- transport/ssu2/session/pending/outbound.rs 481-496, inbound.rs 484-496. -/
def lblData : Bytes := "HKDFSSU2DataKeys".toUTF8.toList

/-- `Hmac(Hmac(ck, []), label ++ [1])` (inbound.rs 298-300, 363-365; outbound.rs 352-354, 407-409). -/
def headerKey (P : Prims) (ck label : Bytes) : Bytes := P.hmac (P.hmac ck []) (label ++ [1])

/-- `k_data` and `k_header_2` of one direction (inbound.rs 482-489, 491-498). -/
def directionKeys (P : Prims) (k : Bytes) : KeyCtx :=
  let temp := P.hmac k []
  let data := P.hmac temp (lblData ++ [1])
  ⟨data, P.hmac temp (data ++ lblData ++ [2])⟩

/-- Keys of the data phase: initiator to responder, responder to initiator (inbound.rs 478-498, outbound.rs 475-498). -/
def dataKeys (P : Prims) (ck : Bytes) : KeyCtx × KeyCtx :=
  let temp := P.hmac ck []
  let ab := P.hmac temp [1]
  let ba := P.hmac temp (ab ++ [2])
  (directionKeys P ab, directionKeys P ba)

/-- `Ssu2Socket::new` (socket.rs 171-177): chaining key, outbound state, inbound state. -/
def socketStates (P : Prims) (staticSk : Bytes) : Bytes × Bytes × Bytes :=
  let state := P.sha lblProtocol
  let out := P.sha state
  (state, out, P.sha (out ++ P.pub staticSk))

/-- Random values and the clock for one step. Not in the code: what the model takes as given, for every value of it. -/
structure Rnd where
  esk : Bytes := []
  token : Nat := 0
  pktNum : Nat := 0
  padding : Bytes := []
  now : Nat := 0

/-- `Ssu2SessionContext`: what the active session starts with (active/mod.rs). -/
structure Session where
  address : SockAddr
  dstId : Nat
  introKey : Bytes
  recv : KeyCtx
  send : KeyCtx
  routerId : Nat
deriving Repr, DecidableEq

/-- Outcome of handling a packet: nothing, a packet to send, an established session (with a packet for an inbound one),
termination, an error that is only logged, or a panic. Not in the code: the effects that can be observed. -/
inductive Out where
  | quiet
  | send (pkt : Bytes)
  | established (s : Session) (pkt : Option Bytes)
  | terminated
  | error
  | panic
deriving Repr, DecidableEq

/-- `HeaderReader::new(k1, pkt)?.parse(k2)` as the pending sessions use it: the kind and the unmasked packet. -/
def reparse (C : Crypto) (k1 k2 pkt : Bytes) : Res (Kind × Bytes) :=
  match Reader.new k1 pkt with
  | none => .err
  | some s =>
    match s.parse C k2 with
    | .panic => .panic
    | .err => .err
    | .ok (none, _) => .err
    | .ok (some k, s) => .ok (k, s.pkt)

/-! ## Responder -/

/-- `PendingSessionState` (inbound.rs 98-119). -/
inductive InState where
  | awaitingRequest (token : Nat)
  | awaitingConfirmed (esk kHeader2 kCreated : Bytes)
  | poisoned
deriving Repr, DecidableEq

/-- `InboundSsu2Session` (inbound.rs 122-157). `retransmit` is the packet being retransmitted, if any. -/
structure Inbound where
  address : SockAddr
  dstId : Nat
  srcId : Nat
  introKey : Bytes
  staticSk : Bytes
  noise : Noise
  state : InState
  retransmit : Option Bytes := none
deriving Repr, DecidableEq

/-- `Block::parse` of a handshake payload; `debug_assert!(false)` on malformed ones (197, 318, 455). -/
def handshakeBlocks (P : Prims) (chk : Bool) (payload : Bytes) : Res (List Block) :=
  match parseBlocks chk (fun b => (P.info b).isSome) payload with
  | .ok bs => .ok bs
  | .err => if chk then .panic else .err
  | .panic => .panic

/-- `InboundSsu2Session::new` (inbound.rs 163-240), with the contexts given by the socket (socket.rs 234-246): the session and the
`Retry` packet. -/
def Inbound.new (P : Prims) (chk : Bool) (address : SockAddr) (introKey staticSk : Bytes) (dst src pktNum : Nat) (pkt : Bytes)
    (r : Rnd) : Res (Inbound × Bytes) :=
  match P.unseal introKey pktNum (pkt.take 32) (pkt.drop 32) with
  | none => .err
  | some payload => do
    let _ ← handshakeBlocks P chk payload
    let retry ← buildRetry P.toCrypto introKey src dst r.token r.pktNum r.now address r.padding
    let (ck, _, st) := socketStates P staticSk
    return (⟨address, dst, src, introKey, staticSk, ⟨ck, st⟩, .awaitingRequest r.token, none⟩, retry)

/-- `on_session_request` (inbound.rs 250-374). The received token is not compared with the one sent. An early return leaves
the state poisoned (533) and the noise context as far as it was updated. -/
def Inbound.onRequest (P : Prims) (chk : Bool) (s : Inbound) (pkt : Bytes) (r : Rnd) : Inbound × Out :=
  let s := { s with state := .poisoned }
  match reparse P.toCrypto s.introKey s.introKey pkt with
  | .panic => (s, .panic)
  | .err => (s, .error)
  | .ok (.sessionRequest epk _ _ _, pkt) =>
    let n := (s.noise.mixHash P (pkt.take 32)).mixHash P (slice pkt 32 64)
    let (key, n) := n.mixKey P s.staticSk epk
    let kHeader2 := headerKey P n.ck lblCreate
    let s := { s with noise := n }
    match P.unseal key 0 n.state (pkt.drop 64) with
    | none => (s, .error)
    | some payload =>
      let n := n.mixHash P (pkt.drop 64)
      let s := { s with noise := n }
      match handshakeBlocks P chk payload with
      | .panic => (s, .panic)
      | .err => (s, .error)
      | .ok _ =>
        let bepk := P.pub r.esk
        let (key, n) := n.mixKey P r.esk epk
        let m := sessionCreated s.srcId s.dstId r.pktNum r.now s.address bepk r.padding
        let n := (n.mixHash P (m.header.take 32)).mixHash P bepk
        let m := m.encPayload P.toCrypto key 0 n.state
        match m.finish P.toCrypto s.introKey kHeader2 with
        | .panic => (s, .panic)
        | .err => (s, .error)
        | .ok out =>
          let n := n.mixHash P m.payload
          ({ s with noise := n, state := .awaitingConfirmed r.esk (headerKey P n.ck lblConfirmed) key, retransmit := some out },
            .send out)
  | .ok _ => (s, .error)

/-- First router info of a payload (459-468). -/
def routerInfoOf : List Block → Option Bytes
  | [] => none
  | .routerInfo b :: _ => some b
  | _ :: bs => routerInfoOf bs

/-- `on_session_confirmed` (inbound.rs 387-526); `pkt[16..64]` panics on a packet of fewer than 64 bytes. -/
def Inbound.onConfirmed (P : Prims) (chk : Bool) (s : Inbound) (esk kHeader2 kCreated pkt : Bytes) : Inbound × Out :=
  let s := { s with state := .poisoned }
  match reparse P.toCrypto s.introKey kHeader2 pkt with
  | .panic => (s, .panic)
  | .err => (s, .error)
  | .ok (.sessionConfirmed pktNum, pkt) =>
    if pktNum ≠ 0 then (s, .error)
    else
      let n := s.noise.mixHash P (pkt.take 16)
      let s := { s with noise := n }
      if pkt.length < 64 then (s, .panic)
      else
        match P.unseal kCreated 1 n.state (slice pkt 16 64) with
        | none => (s, .error)
        | some static =>
          let n := n.mixHash P (slice pkt 16 64)
          let (key, n) := n.mixKey P esk static
          let s := { s with noise := n }
          match P.unseal key 0 n.state (pkt.drop 64) with
          | none => (s, .error)
          | some payload =>
            match handshakeBlocks P chk payload with
            | .panic => (s, .panic)
            | .err => (s, .error)
            | .ok bs =>
              match (routerInfoOf bs).bind P.info with
              | some (id, some intro) =>
                let (ab, ba) := dataKeys P n.ck
                match buildData P.toCrypto intro ba s.srcId 0 .none (some (0, 0, none)) none with
                | .ok ack => (s, .established ⟨s.address, s.srcId, intro, ab, ba, id⟩ (some ack))
                | .err => (s, .error)
                | .panic => (s, .panic)
              | _ => (s, if chk then .panic else .error)
  | .ok _ => (s, .error)

/-- `on_packet` (inbound.rs 532-555). -/
def Inbound.onPacket (P : Prims) (chk : Bool) (s : Inbound) (pkt : Bytes) (r : Rnd) : Inbound × Out :=
  match s.state with
  | .awaitingRequest _ => s.onRequest P chk pkt r
  | .awaitingConfirmed esk k kc => s.onConfirmed P chk esk k kc pkt
  | .poisoned => (s, if chk then .panic else .terminated)

/-! ## Initiator -/

/-- `PendingSessionState` (outbound.rs 99-129). -/
inductive OutState where
  | awaitingRetry
  | awaitingCreated (esk : Bytes)
  | awaitingAck
  | poisoned
deriving Repr, DecidableEq

/-- `OutboundSsu2Session` (outbound.rs 132-165), with the fields of the first two states that never change. -/
structure Outbound where
  address : SockAddr
  dstId : Nat
  srcId : Nat
  introKey : Bytes
  remoteStatic : Bytes
  localSk : Bytes
  localInfo : Bytes
  routerId : Nat
  noise : Noise
  state : OutState
  retransmit : Option Bytes := none
deriving Repr, DecidableEq

/-- `OutboundSsu2Session::new` (outbound.rs 169-232) with the contexts given by `connect` (socket.rs 304, 324-337). -/
def Outbound.new (P : Prims) (address : SockAddr) (introKey remoteStatic localSk localInfo : Bytes) (routerId dst src : Nat) (r : Rnd) :
    Res (Outbound × Bytes) := do
  let pkt ← buildTokenRequest P.toCrypto introKey dst src r.pktNum r.now r.padding
  let (ck, out, _) := socketStates P localSk
  return (⟨address, dst, src, introKey, remoteStatic, localSk, localInfo, routerId, ⟨ck, P.sha (out ++ remoteStatic)⟩,
    .awaitingRetry, some pkt⟩, pkt)

/-- `on_retry` (outbound.rs 243-333). -/
def Outbound.onRetry (P : Prims) (s : Outbound) (pkt : Bytes) (r : Rnd) : Outbound × Out :=
  let s := { s with state := .poisoned }
  match reparse P.toCrypto s.introKey s.introKey pkt with
  | .panic => (s, .panic)
  | .err => (s, .error)
  | .ok (.retry _ pktNum token, pkt) =>
    match P.unseal s.introKey pktNum (pkt.take 32) (pkt.drop 32) with
    | none => (s, .error)
    | some _ =>
      let (key, n) := s.noise.mixKey P r.esk s.remoteStatic
      let m := sessionRequest s.dstId s.srcId token r.pktNum r.now (P.pub r.esk) r.padding
      let n := (n.mixHash P (m.header.take 32)).mixHash P (P.pub r.esk)
      let m := m.encPayload P.toCrypto key 0 n.state
      match m.finish P.toCrypto s.introKey s.introKey with
      | .panic => (s, .panic)
      | .err => (s, .error)
      | .ok out =>
        let n := n.mixHash P m.payload
        ({ s with noise := n, state := .awaitingCreated r.esk, retransmit := some out }, .send out)
  | .ok _ => (s, .error)

/-- `on_session_created` (outbound.rs 345-452). -/
def Outbound.onCreated (P : Prims) (s : Outbound) (esk pkt : Bytes) : Outbound × Out :=
  let s := { s with state := .poisoned }
  let kHeader2 := headerKey P s.noise.ck lblCreate
  match reparse P.toCrypto s.introKey kHeader2 pkt with
  | .panic => (s, .panic)
  | .err => (s, .error)
  | .ok (.sessionCreated epk _ _, pkt) =>
    let n := (s.noise.mixHash P (pkt.take 32)).mixHash P (slice pkt 32 64)
    let (key, n) := n.mixKey P esk epk
    let s := { s with noise := n }
    match P.unseal key 0 n.state (pkt.drop 64) with
    | none => (s, .error)
    | some _ =>
      let n := n.mixHash P (pkt.drop 64)
      let kHeader2 := headerKey P n.ck lblConfirmed
      let n := n.mixHash P (confirmedHeader s.dstId)
      let encKey := P.seal key 1 n.state (P.pub s.localSk)
      let n := n.mixHash P encKey
      let (key, n) := n.mixKey P s.localSk epk
      let encPayload := P.seal key 0 n.state (confirmedPayload s.localInfo)
      match finishConfirmed P.toCrypto s.dstId s.introKey kHeader2 encKey encPayload with
      | .panic => (s, .panic)
      | .err => (s, .error)
      | .ok out => ({ s with noise := n, state := .awaitingAck, retransmit := some out }, .send out)
  | .ok _ => (s, .error)

/-- `on_data` (outbound.rs 463-511): the packet is not looked at. -/
def Outbound.onData (P : Prims) (s : Outbound) (_pkt : Bytes) : Outbound × Out :=
  let (ab, ba) := dataKeys P s.noise.ck
  ({ s with state := .poisoned }, .established ⟨s.address, s.dstId, s.introKey, ba, ab, s.routerId⟩ none)

/-- `on_packet` (outbound.rs 522-550). -/
def Outbound.onPacket (P : Prims) (chk : Bool) (s : Outbound) (pkt : Bytes) (r : Rnd) : Outbound × Out :=
  match s.state with
  | .awaitingRetry => s.onRetry P pkt r
  | .awaitingCreated esk => s.onCreated P esk pkt
  | .awaitingAck => s.onData P pkt
  | .poisoned => (s, if chk then .panic else .terminated)

/-- What a router knows of itself: static secret, intro key, serialized router info, router id. transport/ssu2/socket.rs 162-180. -/
structure Self where
  sk : Bytes
  intro : Bytes
  info : Bytes
  id : Nat
deriving Repr, DecidableEq

/-- What `connect` takes from the router info of the router to dial (socket.rs 295-302) and its id. -/
structure Remote where
  static : Bytes
  intro : Bytes
  address : SockAddr
  id : Nat
deriving Repr, DecidableEq

/-- `connect` (socket.rs 292-342). The id recorded for the session is that of the local router (318, 333). -/
def connect (P : Prims) (me : Self) (to : Remote) (dst src : Nat) (r : Rnd) : Res (Outbound × Bytes) :=
  Outbound.new P to.address to.intro to.static me.sk me.info me.id dst src r

/-! ## Retransmission (pending/mod.rs 107-236) -/

/-- `PacketRetransmitter`: delay of the running timer (`none`: never fires) and the delays after that, in milliseconds.
transport/ssu2/session/pending/mod.rs 107. -/
structure Retransmitter where
  timer : Option Nat
  timeouts : List Nat
deriving Repr, DecidableEq

/-- transport/ssu2/session/pending/mod.rs 126. -/
def Retransmitter.inactive : Retransmitter := ⟨none, []⟩
/-- transport/ssu2/session/pending/mod.rs 142. -/
def Retransmitter.tokenRequest : Retransmitter := ⟨some 3000, [6000, 6000]⟩
/-- transport/ssu2/session/pending/mod.rs 159. -/
def Retransmitter.sessionRequest : Retransmitter := ⟨some 1250, [2500, 5000, 6250]⟩
/-- transport/ssu2/session/pending/mod.rs 180. -/
def Retransmitter.sessionCreated : Retransmitter := ⟨some 1000, [2000, 4000, 5000]⟩
/-- transport/ssu2/session/pending/mod.rs 204. -/
def Retransmitter.sessionConfirmed : Retransmitter := ⟨some 1250, [2500, 5000, 6250]⟩

/-- Events, with the time since the packet was first sent. Not in the code: the events that the theorems quantify over. -/
inductive REvent where
  | retransmit (t : Nat)
  | timeout (t : Nat)
deriving Repr, DecidableEq

/-- `poll` (218-236) each time the timer fires. -/
def Retransmitter.events : Nat → Option Nat → List Nat → List REvent
  | _, none, _ => []
  | t, some d, [] => [.timeout (t + d)]
  | t, some d, x :: xs => .retransmit (t + d) :: Retransmitter.events (t + d) (some x) xs

end Emissary.Ssu2
