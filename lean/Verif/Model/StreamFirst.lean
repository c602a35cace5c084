import Verif.Model.StreamTask
/-!
# What a client is given first

Models `spawn_stream` (sam/protocol/streaming/mod.rs 541-690) and `Stream::new` (stream/active.rs 565-716) as far as the beginning of a stream is concerned: the line
that is written to the client's socket, the data that came before the socket, and where the numbering of the peer goes on. Base 64 is a parameter.
-/
namespace Emissary.StreamTask
open Emissary Emissary.Stream

/-- `SocketKind`, listener.rs 98-140, without the sockets. -/
inductive Sock where
  | accept (silent : Bool)
  | forwarded (silent : Bool)
  | connect (silent : Bool)
deriving Repr, DecidableEq

/-- `StreamKind`, active.rs 219-260: what is known of the stream when its task begins. -/
inductive Kind where
  | /-- payload of the `SYN` -/ inbound (payload : Bytes)
  | /-- packets that came before there was a listener -/ pending (seq : Nat) (packets : List Bytes)
  | /-- payload of the answer to the own `SYN` -/ outbound (payload : Bytes)
deriving Repr, DecidableEq

/-- `String::into_bytes` of a text in ASCII. Standard or external library, not in /repo. -/
def ascii (s : List Char) : Bytes := s.map fun c => c.toNat.toUInt8

/-- `initial_message` of `spawn_stream`, mod.rs 565-575; `remote` is the `DestinationId`, the hash of the destination. -/
def greeting (b64 : Bytes → List Char) (remote : Bytes) : Sock → Option Bytes
  | .accept false | .forwarded false => some (ascii (b64 remote) ++ [10])
  | .connect false => some (ascii "STREAM STATUS RESULT=OK\n".toList)
  | _ => none

/-- The data of the peer that is there already, active.rs 586-587, 619-628, 665-666. -/
def Kind.data : Kind → Bytes
  | .inbound p => p
  | .pending _ ps => ps.flatten
  | .outbound p => p

/-- `highest_ack`, active.rs 618, 660, 680. -/
def Kind.highest : Kind → Nat
  | .inbound _ => 0
  | .pending n _ => n
  | .outbound _ => 0

/-- The initial message with the data after it, active.rs 609-617, 643-651, 671-679. -/
def firstMessage (initial : Option Bytes) (data : Bytes) : Option Bytes :=
  match initial, data.isEmpty with
  | some i, false => some (i ++ data)
  | some i, true => some i
  | none, false => some data
  | none, true => none

/-- `spawn_stream` and `Stream::new`, mod.rs 541-690, active.rs 565-716. -/
def Task.start (b64 : Bytes → List Char) (remote : Bytes) (s : Sock) (k : Kind) : Task :=
  Task.new k.highest (firstMessage (greeting b64 remote s) k.data)

end Emissary.StreamTask
