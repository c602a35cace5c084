import Verif.Model.I2np
/-!
# Garlic messages

Models `emissary-core/src/i2np/garlic.rs`: blocks, parser and builder.
Simplification: `StaticPublicKey` is its 32 bytes; `Duration` is nanoseconds.
-/
namespace Emissary.Garlic
open Emissary Emissary.I2np

/-- `DeliveryInstructions`, garlic.rs:112-136. -/
inductive Delivery where
  | localNode
  | destination (hash : Bytes)
  | router (hash : Bytes)
  | tunnel (hash : Bytes) (tunnelId : Nat)
deriving Repr, DecidableEq

/-- `DeliveryInstructions::serialized_len`, garlic.rs:186-197. -/
def Delivery.len : Delivery → Nat
  | .localNode => 1
  | .destination _ | .router _ => 33
  | .tunnel _ _ => 37

/-- `DeliveryInstructions::serialize`, garlic.rs:200-221. -/
def Delivery.serialize : Delivery → Bytes
  | .localNode => be 1 0
  | .destination h => be 1 0x20 ++ h
  | .router h => be 1 0x40 ++ h
  | .tunnel h id => be 1 0x60 ++ h ++ be 4 id

/-- `NextKeyKind`, garlic.rs:291-312. -/
inductive NextKey where
  | forward (keyId : Nat) (key : Option Bytes) (reverseRequested : Bool)
  | reverse (keyId : Nat) (key : Option Bytes)
deriving Repr, DecidableEq

/-- `GarlicMessageBlock`, garlic.rs:350-404. -/
inductive Block where
  | dateTime (timestamp : Nat)
  | termination
  | options
  | messageNumber
  | nextKey (kind : NextKey)
  | ack (acks : List (Nat × Nat))
  | ackRequest
  | clove (type : MessageType) (id : Nat) (expiration : Duration) (delivery : Delivery) (body : Bytes)
  | padding (bytes : Bytes)
deriving Repr, DecidableEq

/-- `parse_date_time`, garlic.rs:451-456 (the size is ignored). -/
def parseDateTime : Parser Block := fun input => do
  let (_, rest) ← beU 2 input
  let (ts, rest) ← beU 4 rest
  return (.dateTime ts, rest)

/-- `parse_delivery_instructions`, garlic.rs:459-505. -/
def parseDelivery : Parser Delivery := fun input => do
  let (flag, rest) ← beU 1 input
  if flag / 128 % 2 ≠ 0 then none
  else if flag / 16 % 2 ≠ 0 then none
  else match flag / 32 % 4 with
    | 0 => some (.localNode, rest)
    | 1 => do
      let (h, rest) ← takeN 32 rest
      return (.destination h, rest)
    | 2 => do
      let (h, rest) ← takeN 32 rest
      return (.router h, rest)
    | 3 => do
      let (h, rest) ← takeN 32 rest
      let (id, rest) ← beU 4 rest
      return (.tunnel h id, rest)
    | _ => none

/-- `parse_garlic_clove`, garlic.rs:508-533. -/
def parseClove : Parser Block := fun input => do
  let (size, rest) ← beU 2 input
  let (d, rest) ← parseDelivery rest
  let (ty, rest) ← beU 1 rest
  let (id, rest) ← beU 4 rest
  let (exp, rest) ← beU 4 rest
  let ty ← MessageType.ofCode ty
  let (body, rest) ← takeN (size - (d.len + 1 + 2 * 4)) rest
  return (.clove ty id (fromSecs exp) d body, rest)

/-- `parse_padding`, garlic.rs:536-541. -/
def parsePadding : Parser Block := fun input => do
  let (size, rest) ← beU 2 input
  let (b, rest) ← takeN size rest
  return (.padding b, rest)

/-- The optional key, garlic.rs:549-562. -/
def parseOptKey (flag : Nat) : Parser (Option Bytes) := fun rest =>
  if flag % 2 = 0 then some (none, rest)
  else do
    let (k, rest) ← takeN 32 rest
    return (some k, rest)

/-- `parse_next_key`, garlic.rs:544-580 (the size is ignored). -/
def parseNextKey : Parser Block := fun input => do
  let (_, rest) ← beU 2 input
  let (flag, rest) ← beU 1 rest
  let (keyId, rest) ← beU 2 rest
  let (key, rest) ← parseOptKey flag rest
  return (.nextKey (if flag / 2 % 2 = 1 then .reverse keyId key
    else .forward keyId key (flag / 4 % 2 = 1)), rest)

/-- `parse_ack_request`, garlic.rs:583-588 (the size is ignored). -/
def parseAckRequest : Parser Block := fun input => do
  let (_, rest) ← beU 2 input
  let (_, rest) ← beU 1 rest
  return (.ackRequest, rest)

/-- The loop of `parse_ack`, garlic.rs:598-607. -/
def takeAcks : Nat → Parser (List (Nat × Nat))
  | 0, rest => some ([], rest)
  | n + 1, rest => do
    let (a, rest) ← beU 2 rest
    let (b, rest) ← beU 2 rest
    let (t, rest) ← takeAcks n rest
    return ((a, b) :: t, rest)

/-- `parse_ack`, garlic.rs:591-610. -/
def parseAck : Parser Block := fun input => do
  let (size, rest) ← beU 2 input
  if size % 4 ≠ 0 then none
  else do
    let (acks, rest) ← takeAcks (size / 4) rest
    return (.ack acks, rest)

/-- Skipping a block of a kind the parser does not handle, garlic.rs:630-631. -/
def skipBlock : Parser Unit := fun input => do
  let (size, rest) ← beU 2 input
  let (_, rest) ← takeN size rest
  return ((), rest)

/-- `GarlicMessage::parse_frame`, garlic.rs:613-636. Unhandled kinds (termination, options, message number and
unknown codes) are skipped and the next block is parsed; `fuel` bounds that recursion and is at least the input
length, which every skipped block shortens. -/
def parseFrame : Nat → Parser Block
  | 0, _ => none
  | fuel + 1, input => do
    let (ty, rest) ← beU 1 input
    match ty with
    | 0 => parseDateTime rest
    | 11 => parseClove rest
    | 254 => parsePadding rest
    | 7 => parseNextKey rest
    | 9 => parseAckRequest rest
    | 8 => parseAck rest
    | _ => do
      let (_, rest) ← skipBlock rest
      parseFrame fuel rest

/-- `GarlicMessage::parse_inner`, garlic.rs:639-650. -/
def parseInner : Nat → Bytes → Option (List Block)
  | 0, _ => none
  | fuel + 1, input => do
    let (b, rest) ← parseFrame (input.length + 1) input
    if rest.isEmpty then some [b]
    else do
      let bs ← parseInner fuel rest
      return b :: bs

/-- `GarlicMessage::parse`, garlic.rs:653-657. -/
def parse (input : Bytes) : Option (List Block) := parseInner (input.length + 1) input

/-- `GarlicMessage::garlic_tag`, garlic.rs:662-667: little-endian; `none` is the panic. -/
def garlicTag (payload : Bytes) : Option Nat :=
  if 12 ≤ payload.length then some (unbe ((payload.drop 4).take 8).reverse) else none

/-- The flag byte of a forward key, garlic.rs:782-789; `none` is the panic. -/
def forwardFlag (key : Option Bytes) (rev : Bool) : Option Nat :=
  match key.isSome, rev with
  | true, true => some 5
  | true, false => some 1
  | false, true => some 4
  | false, false => none

/-- One block in `GarlicMessageBuilder::build`, garlic.rs:746-829; `none` is a panic (`panic!`/`todo!`, and the
overflow of `acks.len() as u16 * 4` in builds with overflow checks; without them it wraps). -/
def Block.serialize : Block → Option Bytes
  | .dateTime ts => some (be 1 0 ++ be 2 4 ++ be 4 ts)
  | .clove ty id exp d body =>
    some (be 1 11 ++ be 2 (d.len + 1 + 4 + 4 + body.length) ++ d.serialize ++ be 1 ty.code ++ be 4 id ++
      be 4 (asSecs exp) ++ body)
  | .nextKey (.forward keyId key rev) => do
    let flag ← forwardFlag key rev
    return be 1 7 ++ be 2 (if key.isSome then 35 else 3) ++ be 1 flag ++ be 2 keyId ++ key.getD []
  | .nextKey (.reverse keyId (some key)) => some (be 1 7 ++ be 2 35 ++ be 1 3 ++ be 2 keyId ++ key)
  | .nextKey (.reverse keyId none) => some (be 1 7 ++ be 2 3 ++ be 1 2 ++ be 2 keyId)
  | .ackRequest => some (be 1 9 ++ be 2 1 ++ be 1 0)
  | .ack acks =>
    some (be 1 8 ++ be 2 (acks.length % 65536 * 4) ++ (acks.map (fun a => be 2 a.1 ++ be 2 a.2)).flatten)
  | .termination | .options | .messageNumber | .padding _ => none

/-- `GarlicMessageBuilder::build`, garlic.rs:742-833. -/
def build : List Block → Option Bytes
  | [] => some []
  | b :: bs => do
    let x ← b.serialize
    let y ← build bs
    return x ++ y

end Emissary.Garlic
