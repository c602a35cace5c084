import Verif.Model.Ssu2Active
/-!
# SSU2 sessions: messages to send, as bytes

`send_message` of `emissary-core/src/transport/ssu2/session/active/mod.rs` 339-427 is given the serialized message, which it parses again.
-/
namespace Emissary.Ssu2
open Emissary.I2np

/-- `send_message`, mod.rs 339-427. `none`: the `unwrap` (348) panics, and with it the task of the session. -/
def sendBytes (bytes : Bytes) : Option (List MBlock) :=
  match Message.parseShort bytes with
  | none => none
  | some (m, _) => some (sendMessage m)

end Emissary.Ssu2
