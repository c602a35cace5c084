import Verif.Model.Ssu2Block
import Verif.Model.Ntcp2
/-!
# SSU2 packets: headers, message builders, header reader, socket (transport/ssu2/message.rs 884-2168, socket.rs,
session/active/mod.rs 231-336, session/terminating.rs)

Random values (padding, packet numbers, connection ids) and the clock are arguments. A builder with an unset field panics
(`expect("to exist")`); every caller sets all of them, so the fields are plain arguments.
-/
namespace Emissary.Ssu2
open Emissary Emissary.I2np Emissary.Ntcp2

/-- Primitives. `ks key iv n`: `n` bytes of the ChaCha20 keystream from position 64 (chachapoly.rs 202-231). -/
structure Crypto where
  ks : Bytes → Bytes → Nat → Bytes
  A : Aead

/-- `ChaChaPoly::with_nonce(key, n).encrypt_with_ad_new(ad, p)` (chachapoly.rs 94-105, 142-154); `n` is below `2^64 - 1` in
every use here. -/
def Crypto.seal (C : Crypto) (key : Bytes) (n : Nat) (ad p : Bytes) : Bytes := C.A.enc key (nonceBytes n) ad p

/-- `ChaChaPoly::with_nonce(key, n).decrypt_with_ad(ad, c)` (chachapoly.rs 161-173). -/
def Crypto.unseal (C : Crypto) (key : Bytes) (n : Nat) (ad c : Bytes) : Option Bytes := C.A.dec key (nonceBytes n) ad c

/-- XOR `mask` into `pkt` at `off`; `zip` stops at the shorter of the two. Standard or external library, not in /repo. -/
def xorAt (off : Nat) (mask pkt : Bytes) : Bytes :=
  pkt.take off ++ List.zipWith (· ^^^ ·) (pkt.drop off) mask ++ pkt.drop (off + mask.length)

/-- The zero IV. Not in the code: a helper of the model. -/
def zeroIv : Bytes := List.replicate 12 0

/-- `payload[payload.len() - 2 * IV_SIZE..].chunks(IV_SIZE).zip(header.chunks_mut(8)).zip([k1, k2])…` (message.rs 1181-1196,
1277-1292, 1338-1353, 1492-1507, 1987-2002, 2040-2055): mask the first 16 bytes of the header. Panics if the payload has fewer
than 24 bytes (subtraction overflow or slice out of range). -/
def obfuscate (C : Crypto) (k1 k2 header payload : Bytes) : Res Bytes :=
  if payload.length < 24 then .panic
  else
    let iv1 := (payload.drop (payload.length - 24)).take 12
    let iv2 := payload.drop (payload.length - 12)
    .ok (xorAt 8 (C.ks k2 iv2 8) (xorAt 0 (C.ks k1 iv1 8) header))

/-- `ChaCha::with_iv(k, [0; 12]).encrypt_ref(&mut header[16..])` for a header of `16 + n` bytes (1295, 1356, 2005, 2057). -/
def maskTail (C : Crypto) (k : Bytes) (n : Nat) (header : Bytes) : Bytes := xorAt 16 (C.ks k zeroIv n) header

/-! ## Builders -/

/-- What a data message carries (message.rs 932-967). -/
inductive Body where
  | none
  | i2np (message : Bytes)
  | first (ty : MessageType) (mid exp : Nat) (fragment : Bytes)
  | followOn (mid num : Nat) (last : Bool) (fragment : Bytes)
deriving Repr, DecidableEq

/-- The I2NP part of the payload (1113-1144); `fragment_num << 1` on `u8` drops the top bit. -/
def Body.bytes : Body → Bytes
  | .none => []
  | .i2np m => be 1 3 ++ m
  | .first ty mid exp p => be 1 4 ++ be 2 (p.length + 1 + 4 + 4) ++ be 1 ty.code ++ be 4 mid ++ be 4 exp ++ p
  | .followOn mid num last p =>
    be 1 5 ++ be 2 (p.length + 1 + 4) ++ be 1 (num * 2 % 256 + (if last then 1 else 0)) ++ be 4 mid ++ p

/-- The ACK part of the payload (1146-1165). -/
def ackBytes : Option (Nat × Nat × Option (List (Nat × Nat))) → Bytes
  | none => []
  | some (thr, n, none) => be 1 12 ++ be 2 5 ++ be 4 thr ++ be 1 n
  | some (thr, n, some rs) => be 1 12 ++ be 2 (5 + rs.length * 2) ++ be 4 thr ++ be 1 n ++ rangeBytes rs

/-- `KeyContext` (session/mod.rs 24-37). -/
structure KeyCtx where
  kData : Bytes
  kHeader2 : Bytes
deriving Repr, DecidableEq

/-- The short header of a data message (1096-1107). -/
def dataHeader (dst pktNum : Nat) : Bytes := le 8 dst ++ be 4 pktNum ++ be 1 6 ++ be 1 0 ++ be 2 0

/-- `DataMessageBuilder::build` (1093-1203). The termination reason given to `with_termination` (1087-1090) is never read. -/
def buildData (C : Crypto) (introKey : Bytes) (kc : KeyCtx) (dst pktNum : Nat) (body : Body)
    (acks : Option (Nat × Nat × Option (List (Nat × Nat)))) (_termination : Option Nat) : Res Bytes := do
  let header := dataHeader dst pktNum
  let payload := C.seal kc.kData pktNum header (body.bytes ++ ackBytes acks)
  let header ← obfuscate C introKey kc.kHeader2 header payload
  return header ++ payload

/-- A long header: destination id, packet number, message type, version 2, network 2, flag 0, source id, token bytes. -/
def longHeader (dst pktNum ty src : Nat) (token : Bytes) : Bytes :=
  le 8 dst ++ be 4 pktNum ++ be 1 ty ++ be 1 2 ++ be 1 2 ++ be 1 0 ++ le 8 src ++ token

/-- `Block::DateTime` and `Block::Padding` (1260-1267, 1435-1442). -/
def timePadding (now : Nat) (padding : Bytes) : Bytes := be 1 0 ++ be 2 4 ++ be 4 now ++ (be 1 254 ++ be 2 padding.length ++ padding)

/-- `TokenRequestBuilder::build` (1233-1302). -/
def buildTokenRequest (C : Crypto) (introKey : Bytes) (dst src pktNum now : Nat) (padding : Bytes) : Res Bytes := do
  let header := longHeader dst pktNum 10 src (be 8 0)
  let payload := C.seal introKey pktNum header (timePadding now padding)
  let header ← obfuscate C introKey introKey header payload
  return maskTail C introKey 16 header ++ payload

/-- `DateTime`, `Address`, `Padding` (1963-1977, 2150-2164). -/
def timeAddressPadding (now : Nat) (addr : SockAddr) (padding : Bytes) : Bytes :=
  be 1 0 ++ be 2 4 ++ be 4 now ++ ((match addr with
    | .v4 ip port => be 1 13 ++ be 2 6 ++ be 2 port ++ ip
    | .v6 ip port => be 1 13 ++ be 2 18 ++ be 2 port ++ ip) ++ (be 1 254 ++ be 2 padding.length ++ padding))

/-- `RetryBuilder::build` (1937-2012). The token is written with `put_u64`, big-endian (1949). -/
def buildRetry (C : Crypto) (introKey : Bytes) (dst src token pktNum now : Nat) (addr : SockAddr) (padding : Bytes) : Res Bytes := do
  let header := longHeader dst pktNum 9 src (be 8 token)
  let payload := C.seal introKey pktNum header (timeAddressPadding now addr padding)
  let header ← obfuscate C introKey introKey header payload
  return maskTail C introKey 16 header ++ payload

/-- `SessionRequest`, `SessionCreated`: header with the ephemeral key, and payload (1306-1312, 2016-2022). -/
structure Handshake where
  header : Bytes
  payload : Bytes
deriving Repr, DecidableEq

/-- `SessionRequestBuilder::build` (1410-1445). The token is written little-endian. -/
def sessionRequest (dst src token pktNum now : Nat) (epk padding : Bytes) : Handshake :=
  ⟨longHeader dst pktNum 0 src (le 8 token) ++ epk, timePadding now padding⟩

/-- `SessionCreatedBuilder::build` (2125-2167). -/
def sessionCreated (dst src pktNum now : Nat) (addr : SockAddr) (epk padding : Bytes) : Handshake :=
  ⟨longHeader dst pktNum 1 src (be 8 0) ++ epk, timeAddressPadding now addr padding⟩

/-- `encrypt_payload` (1326-1331, 2061-2066). -/
def Handshake.encPayload (C : Crypto) (m : Handshake) (key : Bytes) (n : Nat) (state : Bytes) : Handshake :=
  { m with payload := C.seal key n state m.payload }

/-- `encrypt_header` and `build` (1334-1366, 2036-2075). -/
def Handshake.finish (C : Crypto) (m : Handshake) (k1 k2 : Bytes) : Res Bytes := do
  let header ← obfuscate C k1 k2 m.header m.payload
  return maskTail C k2 48 header ++ m.payload

/-- The header of `SessionConfirmed` (1565-1575). -/
def confirmedHeader (dst : Nat) : Bytes := le 8 dst ++ be 4 0 ++ be 1 2 ++ be 1 1 ++ be 2 0

/-- The router info block of `SessionConfirmed` (1577-1588). -/
def confirmedPayload (info : Bytes) : Bytes := be 1 2 ++ be 2 (2 + info.length) ++ be 1 0 ++ be 1 1 ++ info

/-- `encrypt_header` and `build` of `SessionConfirmed` (1488-1519), from the encrypted static key and payload. -/
def finishConfirmed (C : Crypto) (dst : Nat) (k1 k2 encKey encPayload : Bytes) : Res Bytes := do
  let header ← obfuscate C k1 k2 (confirmedHeader dst) encPayload
  return header ++ encKey ++ encPayload

/-! ## Header reader -/

/-- `HeaderKind` (1599-1664). -/
inductive Kind where
  | retry (netId pktNum token : Nat)
  | sessionConfirmed (pktNum : Nat)
  | sessionCreated (epk : Bytes) (netId pktNum : Nat)
  | sessionRequest (epk : Bytes) (netId pktNum token : Nat)
  | tokenRequest (netId pktNum src : Nat)
  | data (pktNum : Nat)
deriving Repr, DecidableEq

/-- `HeaderReader` (1718-1723). -/
structure Reader where
  k1 : Bytes
  iv1 : Bytes
  iv2 : Bytes
  pkt : Bytes
deriving Repr, DecidableEq

/-- `HeaderReader::new` (1727-1740); `PKT_MIN_SIZE` = 24. -/
def Reader.new (k1 pkt : Bytes) : Option Reader :=
  if pkt.length < 24 then none
  else some ⟨k1, (pkt.drop (pkt.length - 24)).take 12, pkt.drop (pkt.length - 12), pkt⟩

/-- `apply_mask` (1743-1751) over `off .. off + 8`. -/
def Reader.mask (C : Crypto) (s : Reader) (key iv : Bytes) (off : Nat) : Reader :=
  { s with pkt := xorAt off (C.ks key iv 8) s.pkt }

/-- `dst_id` (1754-1758). -/
def Reader.dstId (C : Crypto) (s : Reader) : Nat × Reader :=
  let s := s.mask C s.k1 s.iv1 0
  (unle (s.pkt.take 8), s)

/-- `reset_key` (1761-1767). -/
def Reader.resetKey (C : Crypto) (s : Reader) (k1 : Bytes) : Reader :=
  { (s.mask C s.k1 s.iv1 0).mask C s.k1 s.iv2 8 with k1 := k1 }

/-- `decrypt_ref(&mut self.pkt[16..16 + n])`; the slice panics if the packet is shorter. -/
def Reader.tail (C : Crypto) (s : Reader) (k : Bytes) (n : Nat) : Res Reader :=
  if s.pkt.length < 16 + n then .panic else .ok { s with pkt := xorAt 16 (C.ks k zeroIv n) s.pkt }

/-- A slice of a packet known to be long enough. Standard or external library, not in /repo. -/
def slice (pkt : Bytes) (a b : Nat) : Bytes := (pkt.drop a).take (b - a)

/-- `parse` (1772-1884). `header` is the little-endian value of bytes 8-15: byte 12 is the message type, 13 the version, 14 the
network id, and the first four are the packet number, big-endian. -/
def Reader.parse (C : Crypto) (s : Reader) (k2 : Bytes) : Res (Option Kind × Reader) :=
  let s := s.mask C k2 s.iv2 8
  let ty := unbe (slice s.pkt 12 13)
  let version := unbe (slice s.pkt 13 14)
  let netId := unbe (slice s.pkt 14 15)
  let pktNum := unbe (slice s.pkt 8 12)
  match ty with
  | 0 =>
    if version ≠ 2 then .ok (none, s)
    else do
      let s ← s.tail C k2 48
      return (some (.sessionRequest (slice s.pkt 32 64) netId pktNum (unle (slice s.pkt 24 32))), s)
  | 1 =>
    if version ≠ 2 then .ok (none, s)
    else do
      let s ← s.tail C k2 48
      return (some (.sessionCreated (slice s.pkt 32 64) netId pktNum), s)
  | 2 => .ok (some (.sessionConfirmed pktNum), s)
  | 6 => .ok (some (.data pktNum), s)
  | 9 =>
    if version ≠ 2 then .ok (none, s)
    else do
      let s ← s.tail C k2 16
      return (some (.retry netId pktNum (unle (slice s.pkt 24 32))), s)
  | 10 =>
    if version ≠ 2 then .ok (none, s)
    else do
      let s ← s.tail C k2 16
      return (some (.tokenRequest netId pktNum (unle (slice s.pkt 16 24))), s)
  | _ => .ok (none, s)

/-- Opening a packet in an active session (active/mod.rs 232-251): the first half of the header was unmasked by the socket.
`pkt.len() - 12` and `pkt[16..]` panic on short packets; the socket passes on only packets of at least 24 bytes. -/
def openData (C : Crypto) (kc : KeyCtx) (pkt : Bytes) : Res (Nat × Bytes) :=
  if pkt.length < 16 then .panic
  else
    let pkt := xorAt 8 (C.ks kc.kHeader2 (pkt.drop (pkt.length - 12)) 8) pkt
    let pktNum := unbe (slice pkt 8 12)
    match C.unseal kc.kData pktNum (pkt.take 16) (pkt.drop 16) with
    | none => .err
    | some payload => .ok (pktNum, payload)

/-! ## Socket -/

/-- What the socket does with a datagram (socket.rs 213-290). -/
inductive Routed (σ : Type) where
  /-- handed to the session -/
  | deliver (session : σ) (pkt : Bytes)
  /-- a new inbound session is started for the connection id -/
  | inbound (dst src pktNum : Nat) (pkt : Bytes)
  /-- dropped without an error -/
  | dropped
  | error
  | panic
deriving Repr, DecidableEq

/-- `handle_packet` (socket.rs 213-290). `sessions` are the channels by connection id, `pending` the intro keys of routers being
dialled, by address. A full channel (`try_send` fails) is an error and not modelled. `debug_assert!(false)` at 276 panics in
checked builds. -/
def route {σ : Type} (C : Crypto) (chk : Bool) (introKey : Bytes) (sessions : Nat → Option σ) (pending : Option Bytes)
    (pkt : Bytes) : Routed σ :=
  match Reader.new introKey pkt with
  | none => .error
  | some s =>
    let (cid, s) := s.dstId C
    match sessions cid with
    | some tx => .deliver tx s.pkt
    | none =>
      match s.parse C introKey with
      | .panic => .panic
      | .err => .error
      | .ok (some (.tokenRequest _ pktNum src), s) => .inbound cid src pktNum s.pkt
      | .ok (some _, _) => .dropped
      | .ok (none, s) =>
        match pending with
        | none => .error
        | some key =>
          let (cid, s) := (s.resetKey C key).dstId C
          match sessions cid with
          | some tx => .deliver tx s.pkt
          | none => if chk then .panic else .dropped

/-- `TerminatingSsu2Session::new` (terminating.rs 127-164): the packet that tells the peer. -/
def terminationPacket (C : Crypto) (introKey : Bytes) (send : KeyCtx) (dst nextPktNum reason : Nat) : Res Bytes :=
  buildData C introKey send dst nextPktNum .none none (some reason)

/-- `next_pkt_num` (active/mod.rs 181-186): `u32` addition panics on overflow in checked builds and wraps otherwise. -/
def nextNum (chk : Bool) (n : Nat) : Res (Nat × Nat) :=
  if n + 1 < 2 ^ 32 then .ok (n, n + 1) else if chk then .panic else .ok (n, 0)

/-- The packet numbers, and so the nonces, of the next `k` packets of a session (active/mod.rs 355, 378, 403, 447). -/
def sentNums (chk : Bool) : Nat → Nat → Res (List Nat)
  | _, 0 => .ok []
  | n, k + 1 => do
    let (m, n) ← nextNum chk n
    let ms ← sentNums chk n k
    return m :: ms

end Emissary.Ssu2
