import Verif.Model.I2np
import Verif.Model.OMap
import Verif.Model.StreamTx
/-!
# Tunnel data messages, fragmentation and layered encryption

Models `emissary-core/src/i2np/tunnel/data.rs` (lines 38-673), `tunnel/fragment.rs` (lines 79-206),
`TunnelKeys::decrypt_record` (`tunnel/noise.rs` 101-115), the layered decryption in
`tunnel/hop/{inbound,outbound}.rs`, `find_payload_start` (identical in `tunnel/transit/outbound.rs` 91-135 and
`tunnel/hop/inbound.rs` 91-138), the transit side of `tunnel/transit/{inbound,participant,outbound}.rs` and
CBC chaining (`crypto/aes/cbc.rs`, `crypto/aes/ecb.rs`).

Simplifications: SHA-256 and the AES-256 block function are parameters; random values (message id, IVs,
padding offsets) are inputs; the AES-CBC chaining of the `cbc` crate is written out over 16-byte blocks.  The
I2NP short header put around a tunnel data message is modelled in `Verif.Model.I2np`.
-/
namespace Emissary.Tunnel
open Emissary Emissary.Stream

/-- SHA-256. -/
abbrev Sha := Bytes → Bytes

/-- `TUNNEL_DATA_LEN` and `TUNNEL_DATA_PAYLOAD_LEN` (data.rs 62-66). -/
def tunnelDataLen : Nat := 1028
/-- i2np/tunnel/data.rs 62-66. -/
def payloadLen : Nat := 1008

/-- `EncryptedTunnelData` (data.rs 69-78). -/
structure Encrypted where
  tunnelId : Nat
  iv : Bytes
  ciphertext : Bytes
deriving DecidableEq

/-- `EncryptedTunnelData::parse_frame` (data.rs 84-97) and `parse` (100-102, ignores the rest). -/
def Encrypted.parse : Parser Encrypted := fun i => do
  let (tid, r) ← beU 4 i
  let (iv, r) ← takeN 16 r
  let (c, r) ← takeN payloadLen r
  return (⟨tid, iv, c⟩, r)

/-- `DeliveryInstructions` (data.rs 133-151) and `OwnedDeliveryInstructions` (fragment.rs 30-48). -/
inductive DI
  | loc
  | router (hash : Bytes)
  | tunnel (id : Nat) (hash : Bytes)
deriving DecidableEq

/-- `MessageKind` (data.rs 158-196). -/
inductive Kind
  | unfragmented (di : DI)
  | first (mid : Nat) (di : DI)
  | middle (mid seq : Nat)
  | last (mid seq : Nat)
deriving DecidableEq

/-- `TunnelDataBlock` (data.rs 303-311). -/
structure Block where
  kind : Kind
  msg : Bytes
deriving DecidableEq

/-- Bits 5 and 6 of the flag byte and the delivery fields (data.rs 231-247, 252-276). -/
def DI.code : DI → Nat
  | .loc => 0
  | .router _ => 2
  | .tunnel .. => 1

/-- i2np/tunnel/data.rs 231-276. -/
def DI.fields : DI → Bytes
  | .loc => []
  | .router h => h
  | .tunnel id h => be 4 id ++ h

/-- `MessageKind::serialized_len` of an unfragmented message (data.rs 201-212). -/
def DI.len : DI → Nat
  | .loc => 1
  | .router _ => 33
  | .tunnel .. => 37

/-- `MessageKind::serialize` (data.rs 227-299); `sequence_number as u8 & 0x3f` is `seq % 64`. -/
def Kind.serialize : Kind → Bytes
  | .unfragmented di => be 1 (di.code * 32) ++ di.fields
  | .first mid di => be 1 (8 + di.code * 32) ++ di.fields ++ be 4 mid
  | .middle mid seq => be 1 (128 + seq % 64 * 2) ++ be 4 mid
  | .last mid seq => be 1 (128 + seq % 64 * 2 + 1) ++ be 4 mid

/-- The size field and the message (data.rs 344-345, 417-418). -/
def parseSized (k : Kind) : Parser Block := fun i => do
  let (size, r) ← beU 2 i
  let (m, r) ← takeN size r
  return (⟨k, m⟩, r)

/-- Follow-on delivery instructions (data.rs 337-372). -/
def parseFollowOn (flag : Nat) : Parser Block := fun i => do
  let (mid, r) ← beU 4 i
  parseSized (if flag % 2 = 1 then .last mid (flag / 2 % 64) else .middle mid (flag / 2 % 64)) r

/-- Delivery instructions (data.rs 380-394). -/
def parseDI (flag : Nat) : Parser DI := fun i =>
  match flag / 32 % 4 with
  | 0 => some (.loc, i)
  | 1 => do
    let (id, r) ← beU 4 i
    let (h, r) ← takeN 32 r
    return (.tunnel id h, r)
  | 2 => do
    let (h, r) ← takeN 32 i
    return (.router h, r)
  | _ => none

/-- Message kind of an unfragmented message or first fragment (data.rs 396-415). -/
def parseKind (flag : Nat) (di : DI) : Parser Kind := fun i =>
  if flag / 8 % 2 = 1 then do
    let (mid, r) ← beU 4 i
    return (.first mid di, r)
  else some (.unfragmented di, i)

/-- `TunnelData::parse_frame` (data.rs 330-427). -/
def parseBlock : Parser Block := fun i => do
  let (flag, r) ← beU 1 i
  if flag / 128 = 1 then parseFollowOn flag r
  else do
    let (di, r) ← parseDI flag r
    let (k, r) ← parseKind flag di r
    parseSized k r

/-- `TunnelData::parse_inner` (data.rs 430-441), `fuel ≥ input.length`: each block takes at least one byte. -/
def parseInner : Nat → Bytes → Option (List Block)
  | 0, _ => none
  | fuel + 1, i => do
    let (b, r) ← parseBlock i
    if r.isEmpty then some [b]
    else do
      let bs ← parseInner fuel r
      return b :: bs

/-- `TunnelData::parse` (data.rs 444-448). -/
def parseBlocks (i : Bytes) : Option (List Block) := parseInner (i.length + 1) i

/-- `TunnelDataBuilder::checksum` (data.rs 514-524). -/
def checksum (sha : Sha) (di msg iv : Bytes) : Bytes :=
  (sha (di ++ be 2 msg.length ++ msg ++ iv)).take 4

/-- The slice of the padding bytes put in front (data.rs 549-555); `rnd` is the random number drawn. -/
def padSlice (padding : Bytes) (n rnd : Nat) : Bytes :=
  (padding.drop (rnd % (tunnelDataLen - n))).take n

/-- `TunnelDataBuilder::serialize` (data.rs 526-563). -/
def serialize (sha : Sha) (tid : Nat) (di : Bytes) (payloadSize : Nat) (msg : Bytes) (padding : Option Bytes)
    (iv : Bytes) (rnd : Nat) : Bytes :=
  be 4 tid ++ iv ++ checksum sha di msg iv ++
    (match padding with
     | none => []
     | some p => padSlice p (payloadSize - msg.length) rnd) ++
    [0] ++ di ++ be 2 msg.length ++ msg

/-- Random values used while building: message id, and per fragment an IV and a padding offset.
Not in the code: what the model takes as given, for every value of it. -/
structure Rnd where
  mid : Nat
  iv : Nat → Bytes
  off : Nat → Nat

/-- The follow-on fragments `idx + 1 ..` (data.rs 602-628). -/
def followOn (sha : Sha) (tid n size : Nat) (padding : Bytes) (r : Rnd) : Nat → List Bytes → List Bytes
  | _, [] => []
  | idx, c :: cs =>
    (if idx + 1 = n then
      serialize sha tid (Kind.last r.mid (idx + 1)).serialize size c (some padding) (r.iv (idx + 1)) (r.off (idx + 1))
    else
      serialize sha tid (Kind.middle r.mid (idx + 1)).serialize c.length c none (r.iv (idx + 1)) (r.off (idx + 1))) ::
    followOn sha tid n size padding r (idx + 1) cs

/-- `TunnelDataBuilder::serialize_fragmented` (data.rs 566-631). -/
def serializeFragmented (sha : Sha) (tid : Nat) (di : DI) (msg : Bytes) (payloadSize : Nat) (padding : Bytes)
    (r : Rnd) : List Bytes :=
  let firstSize := payloadSize - 4
  let followSize := payloadSize - 1 - 4 + di.len
  let rest := msg.drop firstSize
  let cs := chunksOf followSize rest.length rest
  serialize sha tid (Kind.first r.mid di).serialize firstSize (msg.take firstSize) none (r.iv 0) (r.off 0) ::
    followOn sha tid cs.length followSize padding r 0 cs

/-- `TunnelDataBuilder::build` (data.rs 634-672) for a message with delivery instructions `di`. -/
def build (sha : Sha) (tid : Nat) (di : DI) (msg padding : Bytes) (r : Rnd) : List Bytes :=
  let payloadSize := tunnelDataLen - 16 - 4 - di.len - 4 - 1 - 2
  if payloadSize ≥ msg.length then
    [serialize sha tid (Kind.unfragmented di).serialize payloadSize msg
      (if payloadSize ≠ msg.length then some padding else none) (r.iv 0) (r.off 0)]
  else serializeFragmented sha tid di msg payloadSize padding r

/-- The padding bytes of a tunnel: random bytes with zeroes replaced (hop/outbound.rs 199-212,
transit/inbound.rs 168-181). -/
def paddingBytes (random : Bytes) : Bytes := random.map (fun b => if b = 0 then 1 else b)

/-- `find_payload_start` (transit/outbound.rs 91-135, hop/inbound.rs 91-138). -/
def findPayloadStart (sha : Sha) (text iv : Bytes) : Option Nat :=
  match (text.drop 4).findIdx? (· = 0) with
  | none => none
  | some e =>
    if text.take 4 ≠ (sha (text.drop (4 + e + 1) ++ iv)).take 4 then none
    else if e + 1 + 4 ≥ text.length then none
    else some (e + 1 + 4)

/-- Locate, check and parse the payload of a decrypted tunnel data message
(hop/inbound.rs 184-199, transit/outbound.rs 154-179). -/
def openPayload (sha : Sha) (text iv : Bytes) : Option (List Block) := do
  let start ← findPayloadStart sha text iv
  parseBlocks (text.drop start)

/-! ## Reassembly -/

/-- `Fragment` (fragment.rs 81-102); `total_size` is only a capacity hint and left out. -/
structure Fragment where
  di : Option DI := none
  first : Option Bytes := none
  frags : OMap Bytes := []
  num : Option Nat := none

/-- `Fragment::is_ready` (fragment.rs 106-111). -/
def Fragment.isReady (f : Fragment) : Bool :=
  f.num.isSome && f.di.isSome && f.first.isSome && (f.num == some f.frags.length)

/-- The reassembled bytes and instructions, `Fragment::construct` (fragment.rs 114-124). -/
def Fragment.raw (f : Fragment) : Option (Bytes × DI) := do
  let di ← f.di
  let first ← f.first
  return (first ++ (f.frags.map (·.2)).flatten, di)

/-- `Fragment::construct` (fragment.rs 114-127). -/
def Fragment.construct (f : Fragment) : Option (I2np.Message × DI) := do
  let (bytes, di) ← f.raw
  let (m, _) ← I2np.Message.parseStandard bytes
  return (m, di)

/-- `FragmentHandler` (fragment.rs 131-134): the messages being reassembled. -/
abbrev Handler := Nat → Option Fragment

/-- `FragmentHandler::new`. tunnel/fragment.rs 131-134. -/
def Handler.new : Handler := fun _ => none

/-- Standard or external library, not in /repo. -/
def Handler.upd (h : Handler) (mid : Nat) (v : Option Fragment) : Handler :=
  fun k => if k = mid then v else h k

/-- Effect of a fragment on its entry (fragment.rs 155-158, 177-178, 197-199); the sequence numbers of a
`BTreeMap<usize, _>`. -/
def Fragment.add (f : Fragment) : Kind → Bytes → Fragment
  | .unfragmented _, _ => f
  | .first _ di, m => { f with first := some m, di := some di }
  | .middle _ seq, m => { f with frags := f.frags.ins seq m }
  | .last _ seq, m => { f with frags := f.frags.ins seq m, num := some seq }

/-- `FragmentHandler::{first,middle,last}_fragment` (fragment.rs 147-205): a completed entry is removed, then
constructed. -/
def Handler.fragment (h : Handler) (mid : Nat) (k : Kind) (m : Bytes) : Handler × Option (I2np.Message × DI) :=
  let f := ((h mid).getD {}).add k m
  if f.isReady then (h.upd mid none, f.construct)
  else (h.upd mid (some f), none)

/-- One block at a tunnel endpoint (transit/outbound.rs 180-212, hop/inbound.rs 200-247). -/
def Handler.block (h : Handler) (b : Block) : Handler × Option (I2np.Message × DI) :=
  match b.kind with
  | .unfragmented di => (h, (I2np.Message.parseStandard b.msg).map (fun p => (p.1, di)))
  | .first mid _ => h.fragment mid b.kind b.msg
  | .middle mid _ => h.fragment mid b.kind b.msg
  | .last mid _ => h.fragment mid b.kind b.msg

/-- A sequence of blocks; the outputs in order. Not in the code: a fold of the steps. -/
def Handler.blocks (h : Handler) : List Block → Handler × List (Option (I2np.Message × DI))
  | [] => (h, [])
  | b :: bs =>
    let (h1, o) := h.block b
    let (h2, os) := h1.blocks bs
    (h2, o :: os)

/-! ## Layered encryption -/

/-- The AES-256 block function under a key. -/
structure Aes where
  enc : Bytes → Bytes → Bytes
  dec : Bytes → Bytes → Bytes

/-- Bytewise exclusive or. Standard or external library, not in /repo. -/
def xor (a b : Bytes) : Bytes := List.zipWith (· ^^^ ·) a b

/-- CBC encryption of a list of blocks, `cbc::Encryptor::encrypt_blocks_mut`. Standard or external library, not in /repo. -/
def cbcEncBlocks (A : Aes) (key : Bytes) : Bytes → List Bytes → List Bytes
  | _, [] => []
  | iv, b :: bs => let c := A.enc key (xor b iv); c :: cbcEncBlocks A key c bs

/-- CBC decryption of a list of blocks, `cbc::Decryptor::decrypt_blocks_mut`. Standard or external library, not in /repo. -/
def cbcDecBlocks (A : Aes) (key : Bytes) : Bytes → List Bytes → List Bytes
  | _, [] => []
  | iv, c :: cs => xor (A.dec key c) iv :: cbcDecBlocks A key c cs

/-- `cbc::Aes::encrypt` (cbc.rs 76-98). -/
def cbcEnc (A : Aes) (key iv data : Bytes) : Bytes :=
  (cbcEncBlocks A key iv (chunksOf 16 data.length data)).flatten

/-- `cbc::Aes::decrypt` (cbc.rs 103-123). -/
def cbcDec (A : Aes) (key iv data : Bytes) : Bytes :=
  (cbcDecBlocks A key iv (chunksOf 16 data.length data)).flatten

/-- `iv_key` and `layer_key` of a hop (noise.rs 45-66). -/
structure Keys where
  ivKey : Bytes
  layerKey : Bytes

/-- `TunnelKeys::decrypt_record` (noise.rs 101-115): what a transit hop applies; also the inbound gateway
(transit/inbound.rs 132-139). -/
def addLayer (A : Aes) (k : Keys) (p : Bytes × Bytes) : Bytes × Bytes :=
  let iv := A.enc k.ivKey p.1
  let c := cbcEnc A k.layerKey iv p.2
  (A.enc k.ivKey iv, c)

/-- One step of the creator's fold (hop/inbound.rs 171-180, hop/outbound.rs 99-108, 161-170). -/
def removeLayer (A : Aes) (p : Bytes × Bytes) (k : Keys) : Bytes × Bytes :=
  let iv := A.dec k.ivKey p.1
  let c := cbcDec A k.layerKey iv p.2
  (A.dec k.ivKey iv, c)

/-- `self.hops.iter().rev().fold(…)` (hop/inbound.rs 169-181, hop/outbound.rs 93-110). -/
def removeLayers (A : Aes) (hops : List Keys) (p : Bytes × Bytes) : Bytes × Bytes :=
  hops.reverse.foldl (removeLayer A) p

/-- The owner of an outbound tunnel prepares one built message (hop/outbound.rs 92-113). -/
def ownerSend (A : Aes) (hops : List Keys) (message : Bytes) : Bytes :=
  let p := removeLayers A hops ((message.drop 4).take 16, message.drop 20)
  message.take 4 ++ p.1 ++ p.2

/-- A participant forwards a tunnel data message (transit/participant.rs 89-107). -/
def participant (A : Aes) (k : Keys) (nextId : Nat) (message : Bytes) : Option Bytes := do
  let (e, _) ← Encrypted.parse message
  let p := addLayer A k (e.iv, e.ciphertext)
  return be 4 nextId ++ p.1 ++ p.2

/-- A chain of participants with the tunnel ids they forward to. Not in the code: a fold of the steps. -/
def participants (A : Aes) : List (Keys × Nat) → Bytes → Option Bytes
  | [], m => some m
  | (k, next) :: rest, m => do
    let m' ← participant A k next m
    participants A rest m'

/-- The outbound endpoint decrypts and opens a tunnel data message (transit/outbound.rs 141-179). -/
def endpointOpen (A : Aes) (sha : Sha) (k : Keys) (message : Bytes) : Option (List Block) := do
  let (e, _) ← Encrypted.parse message
  let p := addLayer A k (e.iv, e.ciphertext)
  openPayload sha p.2 p.1

/-- The inbound gateway encrypts one built message (transit/inbound.rs 131-142). -/
def gatewaySend (A : Aes) (k : Keys) (message : Bytes) : Bytes :=
  let p := addLayer A k ((message.drop 4).take 16, message.drop 20)
  message.take 4 ++ p.1 ++ p.2

/-- The owner of an inbound tunnel decrypts and opens a tunnel data message (hop/inbound.rs 141-199). -/
def ownerOpen (A : Aes) (sha : Sha) (hops : List Keys) (message : Bytes) : Option (List Block) := do
  let (e, _) ← Encrypted.parse message
  let p := removeLayers A hops (e.iv, e.ciphertext)
  openPayload sha p.2 p.1

end Emissary.Tunnel
