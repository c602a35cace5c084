import Verif.Model.Primitives
import Verif.Model.SamParser
/-!
# I2CP payloads and SAM datagrams

`emissary-core/src/protocol.rs`, `emissary-core/src/i2cp/payload.rs` and `emissary-core/src/sam/protocol/datagram/mod.rs`.

Simplifications: compression and decompression are parameters. A compressed payload has the ten bytes of a gzip header (`build` would panic otherwise). The text of a
destination (base64) is a parameter. Of the options of a session only `PORT` is kept.
-/
namespace Emissary.Datagram

open Emissary.Prim (Destination Env parseUInt)
open Emissary.SamParser (Kind)

/-- `Protocol`, protocol.rs 21-30. -/
inductive Protocol where
  | streaming
  | datagram
  | anonymous
deriving DecidableEq

/-- `Protocol::from_u8`, protocol.rs 34-44. -/
def Protocol.ofCode (b : UInt8) : Option Protocol :=
  if b = 6 then some .streaming else if b = 17 then some .datagram else if b = 18 then some .anonymous else none

/-- `Protocol::as_u8`, protocol.rs 47-53. -/
def Protocol.code : Protocol → UInt8
  | .streaming => 6
  | .datagram => 17
  | .anonymous => 18

/-- `From<SessionKind> for Protocol`, sam/parser.rs 86-94. -/
def Protocol.ofKind : Kind → Protocol
  | .stream => .streaming
  | .datagram => .datagram
  | .anonymous => .anonymous

/-- `Runtime::gzip_compress` and `Runtime::gzip_decompress`. emissary-core/src/runtime/mod.rs, trait `Runtime`. -/
structure Gzip where
  compress : Bytes → Option Bytes
  decompress : Bytes → Option Bytes

/-- `copy_from_slice` into two bytes at `i`. Standard or external library, not in /repo. -/
def put2 (c : Bytes) (i n : Nat) : Bytes := (c.set i (UInt8.ofNat (n / 256))).set (i + 1) (UInt8.ofNat n)

/-- `I2cpPayloadBuilder::build`, payload.rs 81-89. -/
def build (G : Gzip) (src dst : Nat) (p : Protocol) (payload : Bytes) : Option Bytes :=
  (G.compress payload).map fun c => (put2 (put2 c 4 src) 6 dst).set 9 p.code

/-- `I2cpPayload`, payload.rs 95-107. -/
structure Payload where
  dst : Nat
  payload : Bytes
  protocol : Protocol
  src : Nat
deriving DecidableEq

/-- `I2cpParameters::new`, payload.rs 148-164: source port, destination port, protocol. -/
def parameters (b : Bytes) : Option (Nat × Nat × Protocol) :=
  if b.length < 10 then none
  else do
    let p ← Protocol.ofCode (b.getD 9 0)
    return (unbe ((b.drop 4).take 2), unbe ((b.drop 6).take 2), p)

/-- `I2cpPayload::decompress`, payload.rs 111-128. -/
def decompress (G : Gzip) (b : Bytes) : Option Payload :=
  if b.length < 10 then none
  else do
    let p ← Protocol.ofCode (b.getD 9 0)
    let data ← G.decompress b
    return { src := unbe ((b.drop 4).take 2), dst := unbe ((b.drop 6).take 2), protocol := p, payload := data }

/-! ## Datagrams -/

/-- `DatagramManager`, datagram/mod.rs 38-56. `port` is the option `PORT`, if there is one. -/
structure Mgr where
  dest : Destination
  kind : Kind
  port : Option Bytes
  sign : Bytes → Bytes

/-- `make_datagram`, lines 78-95. Sessions for streams do not get here (`none`: panic). -/
def Mgr.make (m : Mgr) (data : Bytes) : Option Bytes :=
  match m.kind with
  | .datagram => some (m.dest.serialized ++ m.sign data ++ data)
  | .anonymous => some data
  | .stream => none

/-- What a datagram leads to: it is queued for the client, `lost` because the channel is full, refused with an error, or the task panics.
Not in the code: the effects that can be observed. -/
inductive Res where
  | client (port : Nat) (data : Bytes)
  | lost
  | error
  | panic
deriving DecidableEq

/-- Standard or external library, not in /repo. -/
def dec (n : Nat) : Bytes := (Nat.toDigits 10 n).map fun c => UInt8.ofNat c.toNat

/-- Standard or external library, not in /repo. -/
def ascii (s : String) : Bytes := s.toList.map fun c => UInt8.ofNat c.toNat

/-- Lines 116-121: what the client is told about the sender. -/
def info (b64 : Bytes → Bytes) (d : Destination) (a b : Nat) : Bytes :=
  b64 d.serialized ++ ascii " FROM_PORT=" ++ dec a ++ ascii " TO_PORT=" ++ dec b ++ [10]

/-- `try_send` after `parse::<u16>().expect(..)`, lines 127-129 and 136-137. -/
def Mgr.pass (port : Bytes) (room : Bool) (data : Bytes) : Res :=
  match parseUInt 65535 port with
  | none => .panic
  | some n => if room then .client n data else .lost

/-- `on_datagram`, lines 98-143. -/
def Mgr.onDatagram (E : Env) (b64 : Bytes → Bytes) (m : Mgr) (room : Bool) (p : Payload) : Res :=
  match p.protocol with
  | .datagram => match Destination.parse E p.payload with
    | none => .error
    | some (d, rest) => match takeN 64 rest with
      | none => .error
      | some (_, rest) => match m.port with
        | none => .error
        | some port => Mgr.pass port room (info b64 d p.dst p.src ++ rest)
  | .anonymous => match m.port with
    | none => .error
    | some port => Mgr.pass port room p.payload
  | .streaming => .panic

/-- `on_inbound_message`, sam/session.rs 914-957, for one message: packets of streams go to the stream manager (`inl`). -/
def Mgr.receive (E : Env) (G : Gzip) (b64 : Bytes → Bytes) (m : Mgr) (room : Bool) (message : Bytes) : Option (Payload ⊕ Res) :=
  (decompress G message).map fun p => if p.protocol = .streaming then .inl p else .inr (m.onDatagram E b64 room p)

/-- What is sent for a datagram of the client, sam/session.rs 628-633 and 742-747: the ports are not set. -/
def Mgr.send (G : Gzip) (m : Mgr) (data : Bytes) : Option Bytes := do
  let d ← m.make data
  build G 0 0 (.ofKind m.kind) d

end Emissary.Datagram
