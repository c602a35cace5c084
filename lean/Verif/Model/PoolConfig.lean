import Verif.Model.I2cpServer
import Verif.Model.Selector
import Verif.Model.TunnelBuild
/-!
# From the options of a client to the tunnels of its pool

The configuration of the pools of I2CP and SAM clients, and one attempt of `TunnelPool::maintain_pool` to build a tunnel, `emissary-core/src/tunnel/pool/mod.rs` 340-566 and 569-695.
-/
namespace Emissary.PoolConfig

open Emissary.I2cpServer (Config)
open Emissary.Prim (Options)
open Emissary.TBuild (Params Pending Direction Rnd)
open Emissary.Profile (Sel Draws)
open Emissary.I2np (Duration)

/-- `TunnelPoolConfig::default`, tunnel/pool/mod.rs 124-134. -/
def standard : Config := { numIn := 3, hopsIn := 2, numOut := 3, hopsOut := 2 }

/-- The configuration for a SAM session, sam/mod.rs 450-454: the name is the session id and the rest is the default. `_o` are the options of the SESSION CREATE
command (479), which are not looked at. -/
def sam (_o : Options) : Config := standard

/-- The configuration for an I2CP session, i2cp/pending.rs 324-351, without the name: that `inbound.nickname` may be added to the options changes nothing else. -/
def i2cp (o : Options) : Config := Config.of o

/-- `num_outbound_hops` and `num_inbound_hops`, tunnel/pool/mod.rs 344 and 576. -/
def hops (c : Config) : Direction → Nat
  | .inbound => c.hopsIn
  | .outbound => c.hopsOut

/-- `num_outbound` and `num_inbound`, tunnel/pool/mod.rs 299-320. -/
def tunnels (c : Config) : Direction → Nat
  | .inbound => c.numIn
  | .outbound => c.numOut

/-- What an attempt depends on besides the configuration: the selector with its random choices, the hash and the key of each router, the ids, where the answer goes, and
random values. Not in the code: what the model takes as given, for every value of it. -/
structure Around where
  prims : Ssu2.Prims
  sel : Sel
  now : Duration
  draws : Draws
  info : Nat → Bytes × Bytes
  rnd : Rnd
  messageId : Nat
  gateway : Nat
  tunnelId : Nat
  router : Bytes

/-- One attempt, tunnel/pool/mod.rs 340-566 (outbound) and 569-695 (inbound): the tunnel that is pending afterwards. The outer `none` is a panic; `some none`: there are not enough
routers (345-353, 577-585) or the request cannot be made (450-463, 553-566, 681-693). -/
def attempt (a : Around) (c : Config) (dir : Direction) : Option (Option Pending) :=
  match a.sel.selectHops a.now a.draws (hops c dir) with
  | none => none
  | some none => some none
  | some (some (routers, _)) =>
    match TBuild.create a.prims { dir, hops := routers.map a.info, messageId := a.messageId, gateway := a.gateway, tunnelId := a.tunnelId, router := a.router, now := a.now } a.rnd with
    | none => none
    | some (.error _) => some none
    | some (.ok (p, _)) => some (some p)

end Emissary.PoolConfig
