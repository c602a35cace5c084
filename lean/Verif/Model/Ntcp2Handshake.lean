import Verif.Model.Ntcp2
import Verif.Model.TunnelData
import Verif.Model.Ssu2Block
/-!
# NTCP2 handshake (transport/ntcp2/session/{initiator,responder,mod}.rs, crypto/noise.rs)

Random values and the clock are arguments. SHA-256, HMAC-SHA-256, X25519, AES-256 and ChaCha20-Poly1305 are parameters.
`chk`: built with overflow checks. A peer is the byte stream it sends; `read_exact` fails when the stream ends early.
Dialling and closing the TCP stream, events and logging are omitted.
-/
namespace Emissary.Ntcp2
open Emissary Emissary.I2np
open Emissary.Ssu2 (Res)


/-- Primitives: hashes and AEAD of the data phase, SHA-256, X25519 (`dh secret public`, `pub secret`), the AES-256 block function,
and the network id `RouterInfo::parse` finds in a router info, if it parses. -/
structure HsPrims where
  H : Hashes
  A : Aead
  sha : Bytes → Bytes
  dh : Bytes → Bytes → Bytes
  pub : Bytes → Bytes
  aes : Tunnel.Aes
  netId : Bytes → Option Nat

/-- `NoiseContext` (noise.rs 25-31). -/
structure NoiseCtx where
  ck : Bytes
  state : Bytes
deriving Repr, DecidableEq

/-- `mix_hash` (noise.rs 60-63). -/
def NoiseCtx.mixHash (P : HsPrims) (n : NoiseCtx) (x : Bytes) : NoiseCtx := { n with state := P.sha (n.state ++ x) }

/-- `mix_key` (noise.rs 66-82): the cipher key and the new context. -/
def NoiseCtx.mixKey (P : HsPrims) (n : NoiseCtx) (sk pk : Bytes) : Bytes × NoiseCtx :=
  let temp := P.H.hmac n.ck (P.dh sk pk)
  let ck := P.H.hmac temp [1]
  (P.H.hmac temp (ck ++ [2]), { n with ck := ck })

/-- `Aes::iv` after one call (cbc.rs 126-131): the last block of ciphertext. -/
def lastBlock (ct : Bytes) : Bytes := ct.drop (ct.length - 16)

/-- `PROTOCOL_NAME` (mod.rs 63). -/
def protocolName : Bytes := "Noise_XKaesobfse+hs2+hs3_25519_ChaChaPoly_SHA256".toUTF8.toList

/-- `SessionManager::new` (mod.rs 142-149): the contexts an outbound and an inbound session start with. -/
def outboundStart (P : HsPrims) : NoiseCtx :=
  let state := P.sha protocolName
  ⟨state, P.sha state⟩

/-- transport/ntcp2/session/mod.rs 142-149. -/
def inboundStart (P : HsPrims) (localSk : Bytes) : NoiseCtx :=
  let state := P.sha protocolName
  ⟨state, P.sha (P.sha state ++ P.pub localSk)⟩

/-- `KeyContext` (mod.rs 75-85). -/
structure KeyContext where
  sendKey : Bytes
  recvKey : Bytes
  sip : Sip
deriving Repr, DecidableEq

/-- `u16` addition: overflow panics with checks and wraps without. -/
def add16 (chk : Bool) (a b : Nat) : Res Nat :=
  if a + b < 65536 then .ok (a + b) else if chk then .panic else .ok ((a + b) % 65536)

/-! ## Initiator -/

/-- `InitiatorState` (initiator.rs 50-97). -/
inductive InitiatorState where
  | sessionRequested (esk iv localInfo localSk : Bytes) (noise : NoiseCtx) (routerHash : Bytes)
  | sessionCreated (localInfo localSk : Bytes) (noise : NoiseCtx) (remoteKey responderPublic : Bytes)
  | poisoned
deriving Repr, DecidableEq

/-- What one end draws and reads from the clock. Not in the code: what the model takes as given, for every value of it. -/
structure HsRnd where
  esk : Bytes
  padding : Bytes
  now : Nat

/-- `Initiator::new` (initiator.rs 130-201): the state and `SessionRequest`. -/
def Initiator.new (P : HsPrims) (chk : Bool) (noise : NoiseCtx) (localInfo localSk remotePk routerHash remoteIv : Bytes) (netId : Nat)
    (r : HsRnd) : Res (InitiatorState × Bytes) := do
  let pk := P.pub r.esk
  let noise := (noise.mixHash P remotePk).mixHash P pk
  let (key, noise) := noise.mixKey P r.esk remotePk
  let x := Tunnel.cbcEnc P.aes routerHash remoteIv pk
  let m3 ← add16 chk (localInfo.length % 65536) 20
  let o : InitiatorOptions := { networkId := netId, version := 2, paddingLength := 32, m3p2Len := m3, timestamp := r.now % 2 ^ 32 }
  let (ct, _) := Cipher.encrypt P.A { key := key } noise.state o.serialize
  let ct ← Res.of ct
  let out := x ++ ct ++ r.padding
  let noise := (noise.mixHash P ((out.take 64).drop 32)).mixHash P ((out.take 96).drop 64)
  return (.sessionRequested r.esk (lastBlock x) localInfo localSk noise routerHash, out)

/-- `Initiator::register_session_created` (initiator.rs 208-262) on the first 64 bytes of `SessionCreated`; the length of the
padding. The state is taken first, so every failure leaves `Poisoned`. -/
def Initiator.created (P : HsPrims) (s : InitiatorState) (bytes : Bytes) : Res (InitiatorState × Nat) :=
  match s with
  | .sessionRequested esk iv localInfo localSk noise routerHash => do
    if bytes.length < 64 then .panic
    else do
      let y := Tunnel.cbcDec P.aes routerHash iv (bytes.take 32)
      let noise := noise.mixHash P y
      if y.length ≠ 32 then .err
      else do
        let (key, noise) := noise.mixKey P esk y
        let (p, _) := Cipher.decrypt P.A { key := key } noise.state ((bytes.take 64).drop 32)
        let p ← Res.of p
        let (o, _) ← Res.of (ResponderOptions.parse p)
        let noise := noise.mixHash P ((bytes.take 64).drop 32)
        return (.sessionCreated localInfo localSk noise key y, o.paddingLength)
  | _ => .err

/-- Keys of the data phase (initiator.rs 321-323, responder.rs 375-377): from the initiator, from the responder, and the key for the
length obfuscation. -/
def hsKeys (P : HsPrims) (ck : Bytes) : Bytes × Bytes × Bytes :=
  let temp := P.H.hmac ck []
  let k1 := P.H.hmac temp [1]
  let k2 := P.H.hmac temp (k1 ++ [2])
  (k1, k2, temp)

/-- `Initiator::finalize` (initiator.rs 272-334): the keys and `SessionConfirmed`. -/
def Initiator.finalize (P : HsPrims) (chk : Bool) (s : InitiatorState) (padding : Bytes) : Res (KeyContext × Bytes) :=
  match s with
  | .sessionCreated localInfo localSk noise remoteKey responderPublic => do
    let noise := noise.mixHash P padding
    let (sp, _) := Cipher.encrypt P.A { key := remoteKey, nonce := 1 } noise.state (P.pub localSk)
    let sp ← Res.of sp
    let noise := noise.mixHash P sp
    let (k, noise) := noise.mixKey P localSk responderPublic
    let _ ← add16 chk (localInfo.length % 65536) 1
    let (msg, _) := Cipher.encrypt P.A { key := k } noise.state (newRouterInfo localInfo)
    let msg ← Res.of msg
    let noise := noise.mixHash P msg
    let (send, recv, temp) := hsKeys P noise.ck
    return (⟨send, recv, Sip.initiator P.H temp noise.state⟩, sp ++ msg)
  | _ => .err

/-! ## Responder -/

/-- `ResponderState` (responder.rs 51-87). -/
inductive ResponderState where
  | sessionRequested (ephemeral iv routerHash : Bytes) (m3p2Len : Nat) (noise : NoiseCtx)
  | sessionCreated (esk localKey : Bytes) (noise : NoiseCtx)
  | poisoned
deriving Repr, DecidableEq

/-- `Responder::new` (responder.rs 121-198) on the first 64 bytes of `SessionRequest`; the length of the padding. -/
def Responder.new (P : HsPrims) (noise : NoiseCtx) (routerHash localSk iv message : Bytes) (netId : Nat) :
    Res (ResponderState × Nat) :=
  if message.length < 64 then .panic
  else do
    let x := Tunnel.cbcDec P.aes routerHash iv (message.take 32)
    let noise := noise.mixHash P x
    if x.length ≠ 32 then .err
    else do
      let (key, noise) := noise.mixKey P localSk x
      let (p, _) := Cipher.decrypt P.A { key := key } noise.state (message.drop 32)
      let p ← Res.of p
      let noise := noise.mixHash P ((message.take 64).drop 32)
      let (o, _) ← Res.of (InitiatorOptions.parse p)
      if o.networkId ≠ netId then .err
      else if o.version ≠ 2 then .err
      else return (.sessionRequested x (lastBlock (message.take 32)) routerHash o.m3p2Len noise, o.paddingLength)

/-- `Responder::create_session` (responder.rs 211-282): `SessionCreated` and the length of `SessionConfirmed`. -/
def Responder.createSession (P : HsPrims) (s : ResponderState) (padding : Bytes) (r : HsRnd) : Res (ResponderState × Bytes × Nat) :=
  match s with
  | .sessionRequested ephemeral iv routerHash m3 noise => do
    let noise := noise.mixHash P padding
    let pk := P.pub r.esk
    let noise := noise.mixHash P pk
    let (key, noise) := noise.mixKey P r.esk ephemeral
    let y := Tunnel.cbcEnc P.aes routerHash iv pk
    let o : ResponderOptions := { paddingLength := 32, timestamp := r.now % 2 ^ 32 }
    let (ct, _) := Cipher.encrypt P.A { key := key } noise.state o.serialize
    let ct ← Res.of ct
    let out := y ++ ct ++ r.padding
    let noise := (noise.mixHash P ((out.take 64).drop 32)).mixHash P (out.drop 64)
    return (.sessionCreated r.esk key noise, out, 48 + m3)
  | _ => .err

/-- First block of message 3 part 2 (`MessageBlock::parse`, message.rs 360-364), which has to be a router info (responder.rs 353-371). -/
def routerInfoOf (P : HsPrims) (plain : Bytes) : Option Bytes := do
  let (b, _) ← parseBlock plain
  match b with
  | .routerInfo _ info => if (P.netId info).isSome then some info else none
  | _ => none

/-- `Responder::finalize` (responder.rs 293-383): the keys and the peer's router info (represented by its serialized form). -/
def Responder.finalize (P : HsPrims) (s : ResponderState) (message : Bytes) : Res (KeyContext × Bytes) :=
  match s with
  | .sessionCreated esk localKey noise =>
    if message.length < 48 then .panic
    else do
      let (pk, _) := Cipher.decrypt P.A { key := localKey, nonce := 1 } noise.state (message.take 48)
      let pk ← Res.of pk
      let noise := noise.mixHash P (message.take 48)
      if pk.length < 32 then .panic
      else do
        let (k, noise) := noise.mixKey P esk (pk.take 32)
        let (p, _) := Cipher.decrypt P.A { key := k } noise.state (message.drop 48)
        let p ← Res.of p
        let noise := noise.mixHash P (message.drop 48)
        let info ← Res.of (routerInfoOf P p)
        let (send, recv, temp) := hsKeys P noise.ck
        return (⟨recv, send, Sip.responder P.H temp noise.state⟩, info)
  | _ => .err

/-! ## Session set-up (mod.rs) -/

/-- The local router: static key, IV, network id, its router info and its hash. transport/ntcp2/session/mod.rs 101-125. -/
structure HsSelf where
  sk : Bytes
  iv : Bytes
  netId : Nat
  info : Bytes
  hash : Bytes

/-- `read_exact` (util/mod.rs). util/mod.rs 60-88. -/
def readExact (n : Nat) (stream : Bytes) : Res (Bytes × Bytes) :=
  if n ≤ stream.length then .ok (stream.take n, stream.drop n) else .err

/-- `accept_session_inner` (mod.rs 328-405): what is sent, then the keys, the peer's router info and the rest of the stream.
`stream` is everything the peer sends. -/
def acceptSession (P : HsPrims) (me : HsSelf) (stream : Bytes) (r : HsRnd) : Res (Bytes × KeyContext × Bytes × Bytes) := do
  let (m1, stream) ← readExact 64 stream
  let (s, n) ← Responder.new P (inboundStart P me.sk) me.hash me.sk me.iv m1 me.netId
  let (padding, stream) ← readExact n stream
  let (s, m2, n) ← Responder.createSession P s padding r
  let (m3, stream) ← readExact n stream
  let (keys, info) ← Responder.finalize P s m3
  if P.netId info ≠ some me.netId then .err
  else return (m2, keys, info, stream)

/-- What `create_session_inner` needs from the router info of the router to dial (mod.rs 176-212). `none`: missing. -/
structure HsRemote where
  pk : Option Bytes
  iv : Option Bytes
  hash : Bytes
  /-- a socket address; `some true` if it is an IPv4 address that is not global -/
  address : Option Bool

/-- `create_session_inner` (mod.rs 164-275): what is sent in the two writes, the keys and the rest of the stream. -/
def createSession (P : HsPrims) (chk allowLocal : Bool) (me : HsSelf) (to : HsRemote) (stream : Bytes) (r : HsRnd) :
    Res (Bytes × Bytes × KeyContext × Bytes) := do
  let pk ← Res.of to.pk
  let iv ← Res.of to.iv
  let isLocal ← Res.of to.address
  if isLocal ∧ ¬ allowLocal then .err
  else do
    let (s, m1) ← Initiator.new P chk (outboundStart P) me.info me.sk pk to.hash iv me.netId r
    let (m2, stream) ← readExact 64 stream
    let (s, n) ← Initiator.created P s m2
    let (padding, stream) ← readExact n stream
    let (keys, m3) ← Initiator.finalize P chk s padding
    return (m1, m3, keys, stream)

end Emissary.Ntcp2
