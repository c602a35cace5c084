import Verif.Model.HopLoop
import Verif.Model.Session
/-!
# A message of a destination on its way

Models `destination/mod.rs` where it connects the sessions with the tunnels: `send_message_inner` (395-400, the I2NP message around what the session
manager encrypted, and the delivery to a lease, 402-470) and `decrypt_message` (513-700, what is read from a message of an inbound tunnel). The parts are
modelled elsewhere: the sessions in `Session`, the tunnels in `TunnelData` and `HopLoop`, leases and held back messages in `Destination`.
-/
namespace Emissary.Journey
open Emissary Emissary.I2np Emissary.Tunnel

/-- The message with which what the session manager encrypted is sent (destination/mod.rs 395-400): `I2NP_MESSAGE_EXPIRATION` is eight seconds. -/
def enclose (sha : Sha) (now : Duration) (id : Nat) (out : Bytes) : Bytes :=
  Message.serializeStandard sha { type := .garlic, id := id, expiration := now + fromSecs 8, payload := out }

/-- What is returned to the user for a clove (destination/mod.rs 617-698). Data of no bytes fails an assertion in debug builds; lease sets are stored. -/
def dataOf (c : Ecies.Clove) : Option Bytes :=
  match c.type with
  | .data => if c.body.length ≤ 4 then none else some (c.body.drop 4)
  | _ => none

/-- `decrypt_message` (destination/mod.rs 520-700) for messages from inbound tunnels, without the ones that answer queries for the database. -/
def read (C : Ecies.Cfg) (v : Ecies.Draw) (n : Ecies.Mgr) (M : Message) : Option (List Bytes) :=
  match M.type with
  | .garlic =>
    if M.payload.length ≤ 12 then none
    else match (n.decrypt C v M.payload).1 with
      | .ok cs => some (cs.filterMap dataOf)
      | _ => none
  | _ => none

end Emissary.Journey
