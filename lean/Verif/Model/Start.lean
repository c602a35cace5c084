import Verif.Model.Bytes
/-!
# The start of the program

`parse_log_targets` of `emissary-cli/src/logger.rs` and `setup_router` of `emissary-cli/src/main.rs` (82-270). Simplifications: levels and how
`tracing-subscriber` applies its directives are left open; reading the configuration is in `Verif.Model.Config`, the reseeder in `Verif.Model.Su3`;
`Router::new` either fails or gives the address of its SAM server.
-/
namespace Emissary.Start
open Emissary

/-- A `str` as characters. Not in the code: a helper of the model. -/
abbrev Str := List Char

/-- `str::split` at a character. Standard library, not in /repo. -/
def splitAt (c : Char) : Str → List Str
  | [] => [[]]
  | x :: s =>
    if x = c then [] :: splitAt c s
    else match splitAt c s with
      | [] => [[x]]
      | p :: ps => (x :: p) :: ps

/-- `PRESETS` (logger.rs 25-40). -/
def preset (s : Str) : Option Str :=
  if s = "i2cp".toList then some "emissary::destination,emissary::i2cp=trace,emissary::tunnel::pool=off".toList
  else if s = "sam".toList then
    some "emissary::sam,emissary::streaming,emissary::destination,yosemite=trace,emissary::tunnel::pool=off,emissary::client-tunnel=trace".toList
  else if s = "transit".toList then
    some "emissary::tunnel::pool=off,emissary::tunnel::transit=trace,emissary::transport-manager=debug".toList
  else none

/-- The loop of `parse_log_targets` (logger.rs 53-68). `names` is `log_targets`, `out` the directives so far; `none` is the panic of `expect` (64). -/
def logLoop (level : Str → Option L) : List Str → List Str → List (Str × L) → Option (List (Str × L))
  | [], _, out => some out
  | t :: ts, names, out =>
    match splitAt '=' t with
    | [] => none
    | [n] => logLoop level ts (names ++ [n]) out
    | n :: l :: _ =>
      match level l with
      | none => none
      | some v => logLoop level ts [] (out ++ (names ++ [n]).map (·, v))

/-- `parse_log_targets` (logger.rs 45-71): the directives that come after the one that sets everything to `INFO`. -/
def logTargets (level : Str → Option L) : Option Str → Option (List (Str × L))
  | none => some []
  | some log => logLoop level (splitAt ',' ((preset log).getD log)) [] []

/-- What `setup_router` reads of the configuration (main.rs 163-168) with what is known of the network. -/
structure Settings where
  /-- router infos on the disk -/
  known : List Nat := []
  /-- the threshold of the reseed section, if there is one -/
  threshold : Option Nat := some 25
  force : Bool := false
  http : Bool := false
  addressBook : Bool := false
  clients : List Nat := []
  servers : List Nat := []
deriving DecidableEq, Repr

/-- What runs afterwards (emissary-cli/src/main.rs 83-283). Not in the code: what can be observed. -/
structure Running where
  /-- the routers that the router is given -/
  routers : List Nat := []
  /-- router infos that are written to the disk -/
  stored : List Nat := []
  http : Bool := false
  /-- the task that downloads the address lists -/
  addressBook : Bool := false
  clients : List Nat := []
  servers : List Nat := []
deriving DecidableEq, Repr

/-- `should_reseed` (main.rs 106-111). -/
def Settings.reseeds (s : Settings) : Bool := (s.threshold.any fun t => decide (s.known.length < t)) || s.force

/-- The routers after the reseeding (main.rs 113-161): those downloaded with names of the right form are stored, all are used. `none` is the
error "no routers available". -/
def Settings.reseed (s : Settings) (download : Option (List (Bool × Nat))) : Option (List Nat × List Nat) :=
  if s.reseeds then
    match download with
    | some l => some (s.known ++ l.map (·.2), (l.filter (·.1)).map (·.2))
    | none => if s.known.isEmpty then none else some (s.known, [])
  else some (s.known, [])

/-- `setup_router` (main.rs 82-270). `download` is what the reseeder gives, `made n` says that the destination of server tunnel `n` could be loaded
or generated, `sam` that the router is made and whether its SAM server listens. -/
def setup (s : Settings) (download : Option (List (Bool × Nat))) (sam : Option Bool) (made : Nat → Bool) : Option Running := do
  let (routers, stored) ← s.reseed download
  let sam ← sam
  if sam then
    some { routers, stored, http := s.http, addressBook := s.http && s.addressBook, clients := s.clients, servers := s.servers.filter made }
  else some { routers, stored }

end Emissary.Start
