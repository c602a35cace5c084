import Verif.Model.Datagram
import Verif.Model.I2cpSocket
/-!
# I2CP messages

`emissary-core/src/i2cp/message/`: the messages that a client sends (`mod.rs`) and the messages that the router builds for it.

Simplifications: a session id is a number; `SessionId::NoSession` is 0xffff and `SessionId::from` and `as_u16` are inverse to each other (mod.rs 70-87). Times are
milliseconds. The options of a session are the list of its entries in key order.
-/
namespace Emissary.I2cpMessage

open Emissary.Prim (Destination Env Mapping Options Str LeaseSet2 Lease)
open Emissary.I2cpSocket (Msg)

/-- `RequestKind`, mod.rs 90-102. -/
inductive Request where
  | name (s : Str)
  | hash (b : Bytes)
deriving DecidableEq

/-- The kinds of `Message` (mod.rs 267-413) that a client can send and that are understood. -/
inductive Message where
  | getDate (version : Str) (options : List Mapping)
  | setDate (date : Nat) (version : Str)
  | getBandwidthLimits
  | destroySession (sid : Nat)
  | createSession (destination : Destination) (date : Nat) (options : Options)
  | hostLookup (sid req timeout : Nat) (kind : Request)
  | createLeaseSet2 (sid : Nat) (key leaseSet : Bytes) (keys : List Bytes)
  | sendMessageExpires (sid : Nat) (destination : Destination) (parameters : Nat × Nat × Datagram.Protocol) (payload : Bytes) (nonce options expires : Nat)
deriving DecidableEq

/-- A result together with what is left. `debug_assert!(rest.is_empty())` when assertions are compiled in (`chk`).
i2cp/message/mod.rs 267-413. -/
def empty (chk : Bool) : Option (Message × Bytes) → Msg Message
  | none => .bad
  | some (m, rest) => if chk && !rest.isEmpty then .panic else .ok m

/-- A result. i2cp/message/mod.rs 267-413. -/
def plain : Option Message → Msg Message
  | none => .bad
  | some m => .ok m

/-- `parse_get_date`, mod.rs 419-426. -/
def getDate (E : Env) (input : Bytes) : Option (Message × Bytes) := do
  let (version, rest) ← Str.parse E input
  let (options, rest) ← Mapping.parseMulti E rest
  return (.getDate version options, rest)

/-- `parse_set_date`, mod.rs 431-438. -/
def setDate (E : Env) (input : Bytes) : Option (Message × Bytes) := do
  let (date, rest) ← beU 8 input
  let (version, rest) ← Str.parse E rest
  return (.setDate date version, rest)

/-- `parse_destroy_session`, mod.rs 452-460. -/
def destroySession (input : Bytes) : Option (Message × Bytes) := do
  let (sid, rest) ← beU 2 input
  return (.destroySession sid, rest)

/-- `SIGNATURE_LEN`, mod.rs 58. -/
def sigLen : Nat := 64

/-- `parse_create_session`, mod.rs 465-489. -/
def createSession (E : Env) (input : Bytes) : Option Message := do
  let (d, rest) ← Destination.parse E input
  let (options, rest) ← Mapping.parseMulti E rest
  let (date, rest) ← beU 8 rest
  let (sig, _) ← takeN sigLen rest
  let _ ← E.check d.key (input.take (input.length - sigLen)) sig
  return .createSession d date (Options.ofList options)

/-- Lines 500-515 of `parse_host_lookup`. -/
def request (E : Env) (kind : Nat) (rest : Bytes) : Option Request :=
  if kind = 0 then do
    let (h, _) ← takeN 32 rest
    return .hash h
  else if kind = 1 then do
    let (s, _) ← Str.parse E rest
    return .name s
  else none

/-- `parse_host_lookup`, mod.rs 494-523. -/
def hostLookup (E : Env) (input : Bytes) : Option Message := do
  let (sid, rest) ← beU 2 input
  let (req, rest) ← beU 4 rest
  let (timeout, rest) ← beU 4 rest
  let (kind, rest) ← beU 1 rest
  let k ← request E kind rest
  return .hostLookup sid req timeout k

/-- The loop over the private keys, mod.rs 584-607. `StaticPrivateKey::from_bytes` takes any 32 bytes (crypto/mod.rs 160-166). -/
def keys : Nat → Bytes → Option (List Bytes)
  | 0, _ => some []
  | n + 1, rest => do
    let (kind, rest) ← beU 2 rest
    let (len, rest) ← beU 2 rest
    let (key, rest) ← takeN len rest
    if kind = 4 ∧ len = 32 then do
      let ks ← keys n rest
      return key :: ks
    else none

/-- `parse_create_leaseset2`, mod.rs 528-622. -/
def createLeaseSet2 (E : Env) (input : Bytes) : Option Message := do
  let (sid, rest) ← beU 2 input
  let (kind, rest) ← beU 1 rest
  if kind = 3 then do
    let (ls, rest) ← LeaseSet2.parse E rest
    let leaseSet := (input.take (input.length - rest.length)).drop 3
    let (n, rest) ← beU 1 rest
    let ks ← keys n rest
    return .createLeaseSet2 sid ls.header.destination.hash leaseSet ks
  else none

/-- `parse_send_message_expires`, mod.rs 627-660. -/
def sendMessageExpires (E : Env) (input : Bytes) : Option Message := do
  let (sid, rest) ← beU 2 input
  let (d, rest) ← Destination.parse E rest
  let (len, rest) ← beU 4 rest
  let (payload, rest) ← takeN len rest
  let (nonce, rest) ← beU 4 rest
  let (options, rest) ← beU 2 rest
  let (expires, _) ← beU 6 rest
  let p ← Datagram.parameters payload
  return .sendMessageExpires sid d p payload nonce options expires

/-- `MessageType::from_u8` (mod.rs 226-262) and `Message::parse` (mod.rs 663-683): the other types, known or not, are ignored. -/
def parse (E : Env) (chk : Bool) (ty : UInt8) (input : Bytes) : Msg Message :=
  if ty = 32 then empty chk (getDate E input)
  else if ty = 33 then empty chk (setDate E input)
  else if ty = 8 then empty chk (some (.getBandwidthLimits, input))
  else if ty = 3 then empty chk (destroySession input)
  else if ty = 1 then plain (createSession E input)
  else if ty = 38 then plain (hostLookup E input)
  else if ty = 41 then plain (createLeaseSet2 E input)
  else if ty = 36 then plain (sendMessageExpires E input)
  else .bad

/-! ## Messages of the router -/

/-- `SetDate::new`, set_date.rs 33-46. -/
def mkSetDate (date : Nat) (version : Str) : Bytes :=
  be 4 (8 + (Str.serialize version).length) ++ be 1 33 ++ be 8 date ++ Str.serialize version

/-- `BandwidthLimits::new`, bandwidth.rs 30-50. -/
def mkBandwidthLimits : Bytes :=
  be 4 (16 * 4) ++ be 1 23 ++ be 4 50 ++ be 4 50 ++ be 4 20 ++ be 4 20 ++ be 4 20 ++ be 4 20 ++ be 4 0 ++ (List.replicate 9 (be 4 0)).flatten

/-- `MessagePayload::new`, payload.rs 32-48. -/
def mkPayload (sid id : Nat) (data : Bytes) : Bytes :=
  be 4 (2 + 4 + 4 + data.length) ++ be 1 31 ++ be 2 sid ++ be 4 id ++ be 4 data.length ++ data

/-- `SessionStatusKind`, session_status.rs 25-42. -/
inductive Status where
  | destroyed
  | created
  | updated
  | invalid
  | refused
deriving DecidableEq

/-- `as_u8`, session_status.rs 46-54. -/
def Status.code : Status → Nat
  | .destroyed => 0
  | .created => 1
  | .updated => 2
  | .invalid => 3
  | .refused => 4

/-- `SessionStatus::new`, session_status.rs 84-93. -/
def mkStatus (sid : Nat) (k : Status) : Bytes := be 4 3 ++ be 1 20 ++ be 2 sid ++ be 1 k.code

/-- `HostReplyKind`, host_reply.rs 24-49: a destination or the code of a failure (51-62). Of the failures only 1 is used. -/
inductive Reply where
  | success (destination : Bytes)
  | failure (code : Nat)
deriving DecidableEq

/-- The code and what follows it, lines 91-95. -/
def Reply.bytes : Reply → Bytes
  | .success d => be 1 0 ++ d
  | .failure c => be 1 c

/-- `serialized_len`, host_reply.rs 67-72. -/
def Reply.len : Reply → Nat
  | .success d => 1 + d.length
  | .failure _ => 1

/-- `HostReply::new`, host_reply.rs 82-98. -/
def mkHostReply (sid req : Nat) (k : Reply) : Bytes := be 4 (2 + 3 + k.len) ++ be 1 39 ++ be 2 sid ++ be 4 req ++ k.bytes

/-- `RequestVariableLeaseSet::new`, lease_set.rs 37-51. `none`: there is no first lease and the code panics. -/
def mkLeaseRequest (sid : Nat) (leases : List Lease) : Option Bytes :=
  if leases = [] then none
  else some (be 4 (1 + leases.length * 44) ++ be 1 37 ++ be 2 sid ++ be 1 leases.length ++ (leases.map Lease.serialize1).flatten)

end Emissary.I2cpMessage
