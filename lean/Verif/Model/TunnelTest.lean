import Verif.Model.NetdbWire
import Verif.Model.HopLoop
/-!
# Tests of tunnels

Models the messages by which a tunnel pool tests its tunnels, `emissary-core/src/tunnel/pool/mod.rs` 736-834. Which tunnels are tested, and when, is in Model/Pool.lean; how the
message gets to the test when it comes back is in Model/PoolContext.lean.
-/
namespace Emissary.TunnelTest
open Emissary Emissary.I2np Emissary.Tunnel Emissary.Hop
open Emissary.Ssu2 (Prims)

/-- The text of a test with its length (mod.rs 738-744). -/
def text : Bytes := be 4 11 ++ "tunnel test".toUTF8.toList

/-- The message of a test: a garlic message of the router to itself with one clove, in which there is a whole standard message (mod.rs 747-796). `id` is the number of the test's
listener. `none` would be a panic of the builder. -/
def message (P : Prims) (now : Duration) (id : Nat) (sk esk : Bytes) : Option Bytes :=
  NetdbWire.garlicTo P now { cloveId := id, messageId := id, innerId := 0, token := 0, esk } (P.pub sk) .data
    ((Message.mk .data id (now + TBuild.i2npExpiration) text).serializeStandard P.sha)

/-- What is sent of it: the first tunnel message; there must be no second one (mod.rs 799-809, 832). -/
def sends (A : Aes) (sha : Sha) (hops : List Keys) (router : Bytes) (first : Nat) (padding : Bytes) (inbound : Nat) (gateway : Bytes) (bytes : Bytes)
    (now : Duration) (ids : Nat → Nat) (rnd : Rnd) : Option Out :=
  (ownerSends A sha hops router first padding (.tunnel inbound gateway) bytes now ids rnd).head?

end Emissary.TunnelTest
