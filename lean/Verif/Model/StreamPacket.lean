import Verif.Model.Primitives
/-!
# Streaming packets

Models `emissary-core/src/sam/protocol/streaming/packet.rs`: `Flags`, `Packet::{parse,peek}`, `PacketBuilder`.
Signing is the parameter `sign`; key checks and verification are in `Env` (Model/Primitives.lean).
-/
namespace Emissary.Pkt
open Emissary Emissary.Prim

/-- `Flags`, packet.rs:55-73. -/
structure Flags where
  destination : Option Destination
  flags : Nat
  maxPacketSize : Option Nat
  offline : Option VKey
  requestedDelay : Option Nat
  signature : Option Bytes
deriving Repr, DecidableEq

/-- `(flags >> k) & 1 == 1`. -/
def bit (flags k : Nat) : Bool := flags / 2 ^ k % 2 = 1

/-- `synchronize`/`close`/`reset`/`echo`/`no_ack`, packet.rs:208-250. -/
def Flags.synchronize (f : Flags) : Bool := bit f.flags 0
/-- packet.rs 208-250. -/
def Flags.close (f : Flags) : Bool := bit f.flags 1
/-- packet.rs 208-250. -/
def Flags.reset (f : Flags) : Bool := bit f.flags 2
/-- packet.rs 208-250. -/
def Flags.echo (f : Flags) : Bool := bit f.flags 9
/-- packet.rs 208-250. -/
def Flags.noAck (f : Flags) : Bool := bit f.flags 10

/-- `match flag { true => parser(rest).map(Some), false => (rest, None) }`. packet.rs, `Flags::parse`. -/
def optP {α : Type} (b : Bool) (p : Parser α) : Parser (Option α) := fun rest =>
  if b then (p rest).map (fun x => (some x.1, x.2)) else some (none, rest)

/-- The offline signature field, packet.rs:160-178; without a destination it is an error
(and a failed `debug_assert!` in debug builds). -/
def parseOffline (E : Env) (b : Bool) (dest : Option Destination) : Parser (Option VKey) := fun rest =>
  if b then
    match dest with
    | none => none
    | some d => (OfflineSignature.parse E d.key rest).map (fun x => (some x.1, x.2))
  else some (none, rest)

/-- The signature field, packet.rs:180-192. Without a destination everything is consumed and the
*empty* remainder is returned as the signature. -/
def parseSignature (b : Bool) (dest : Option Destination) : Parser (Option Bytes) := fun rest =>
  if b then
    match dest with
    | none => some (some (rest.drop rest.length), rest.drop rest.length)
    | some d => (takeN d.key.sigLen rest).map (fun x => (some x.1, x.2))
  else some (none, rest)

/-- `Flags::new`, packet.rs:143-205. -/
def Flags.parse (E : Env) (flags : Nat) : Parser Flags := fun options => do
  let (delay, rest) ← optP (bit flags 6) (beU 2) options
  let (dest, rest) ← optP (bit flags 5) (Destination.parse E) rest
  let (mtu, rest) ← optP (bit flags 7) (beU 2) rest
  let (off, rest) ← parseOffline E (bit flags 11) dest rest
  let (sig, rest) ← parseSignature (bit flags 3) dest rest
  return ({ destination := dest, flags := flags, maxPacketSize := mtu, offline := off, requestedDelay := delay,
            signature := sig }, rest)

/-- `Packet`, packet.rs:320-344. -/
structure Packet where
  sendStreamId : Nat
  recvStreamId : Nat
  seq : Nat
  ackThrough : Nat
  nacks : List Nat
  resendDelay : Nat
  flags : Flags
  payload : Bytes
deriving Repr, DecidableEq

/-- The nack loop, packet.rs:373-388. -/
def takeNacks : Nat → Parser (List Nat)
  | 0, rest => some ([], rest)
  | n + 1, rest => do
    let (a, rest) ← beU 4 rest
    let (t, rest) ← takeNacks n rest
    return (a :: t, rest)

/-- `Packet::parse_frame`/`parse`, packet.rs:367-414. -/
def Packet.parse (E : Env) (input : Bytes) : Option Packet := do
  let (send, rest) ← beU 4 input
  let (recv, rest) ← beU 4 rest
  let (seq, rest) ← beU 4 rest
  let (ack, rest) ← beU 4 rest
  let (n, rest) ← beU 1 rest
  let (nacks, rest) ← takeNacks n rest
  let (delay, rest) ← beU 1 rest
  let (flags, rest) ← beU 2 rest
  let (size, rest) ← beU 2 rest
  let (options, rest) ← takeN size rest
  let (f, _) ← Flags.parse E flags options
  return { sendStreamId := send, recvStreamId := recv, seq := seq, ackThrough := ack, nacks := nacks,
           resendDelay := delay, flags := f, payload := rest }

/-- `PeekInfo`, packet.rs:268-280. -/
structure PeekInfo where
  flags : Nat
  recvStreamId : Nat
  sendStreamId : Nat
  seq : Nat
deriving Repr, DecidableEq

/-- `Packet::peek`, packet.rs:417-440. -/
def Packet.peek (input : Bytes) : Option PeekInfo := do
  let (send, rest) ← beU 4 input
  let (recv, rest) ← beU 4 rest
  let (seq, rest) ← beU 4 rest
  let (_, rest) ← takeN 4 rest
  let (n, rest) ← beU 1 rest
  let (_, rest) ← takeN (4 * n + 1) rest
  let (flags, _) ← beU 2 rest
  return { flags := flags, recvStreamId := recv, sendStreamId := send, seq := seq }

/-- `PacketBuilder` with its `FlagsBuilder`, packet.rs:445-466 and 561-585. The option fields are present exactly
when the corresponding `with_…` method was called, which also sets the flag bit. -/
structure Builder where
  sendStreamId : Nat := 0
  recvStreamId : Nat
  seq : Nat := 0
  ackThrough : Nat := 0
  nacks : Option (List Nat) := none
  resendDelay : Nat := 0
  synchronize : Bool := false
  close : Bool := false
  reset : Bool := false
  signature : Bool := false
  destination : Option Destination := none
  requestedDelay : Option Nat := none
  maxPacketSize : Option Nat := none
  echo : Bool := false
  noAck : Bool := false
  payload : Option Bytes := none
deriving Repr

/-- The accumulated flag bits, packet.rs:469-528. -/
def Builder.flags (b : Builder) : Nat :=
  b.synchronize.toNat + 2 * b.close.toNat + 4 * b.reset.toNat + 8 * b.signature.toNat +
    32 * b.destination.isSome.toNat + 64 * b.requestedDelay.isSome.toNat + 128 * b.maxPacketSize.isSome.toNat +
    512 * b.echo.toNat + 1024 * b.noAck.toNat

/-- `if let Some(v) = … { out.put_u16(v) }`. -/
def putOpt : Option Nat → Bytes
  | some d => be 2 d
  | none => []

/-- `if let Some(destination) = … { out.put_slice(&destination) }`, packet.rs:543-545. -/
def putDest : Option Destination → Bytes
  | some d => d.serialized
  | none => []

/-- The options before the signature, packet.rs:539-549 (`FlagsBuilder::build` returns `None` for no options, which
is written like an empty option field). -/
def Builder.optionFields (b : Builder) : Bytes :=
  putOpt b.requestedDelay ++ putDest b.destination ++ putOpt b.maxPacketSize

/-- `FlagsBuilder::build`, packet.rs:531-557, with the content `sig` of the signature field. -/
def Builder.options (b : Builder) (sig : Bytes) : Bytes :=
  b.optionFields ++ (if b.signature then sig else [])

/-- `PacketBuilder::with_replay_protection`, packet.rs:627-636: the words of the destination's hash. -/
def words : Nat → Bytes → List Nat
  | 0, _ => []
  | n + 1, bs => unbe (bs.take 4) :: words n (bs.drop 4)

/-- The serialized packet, packet.rs:719-748, with `sig` in the signature field. -/
def Builder.bytes (b : Builder) (sig : Bytes) : Bytes :=
  be 4 b.sendStreamId ++ be 4 b.recvStreamId ++ be 4 b.seq ++ be 4 b.ackThrough ++
    be 1 (b.nacks.getD []).length ++ ((b.nacks.getD []).map (be 4)).flatten ++ be 1 b.resendDelay ++ be 2 b.flags ++
    be 2 (b.options sig).length ++ b.options sig ++ b.payload.getD []

/-- `PacketBuilder::build`, packet.rs:705-751; `none` is the panic. -/
def Builder.build (b : Builder) : Option Bytes := if b.signature then none else some (b.bytes [])

/-- `[u8]::copy_from_slice` into `out[start..start + sig.len()]`. -/
def overwrite (out : Bytes) (start : Nat) (sig : Bytes) : Bytes :=
  out.take start ++ sig ++ out.drop (start + sig.length)

/-- `PacketBuilder::build_and_sign`, packet.rs:756-813; `none` is the panic. -/
def Builder.buildAndSign (sign : Bytes → Bytes) (b : Builder) : Option Bytes :=
  if b.signature then
    let out := b.bytes (List.replicate 64 0)
    some (overwrite out (out.length - 64 - (b.payload.getD []).length) (sign out))
  else none

end Emissary.Pkt
