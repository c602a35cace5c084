/-!
# The configuration of the program and the arguments of the command line

Models `emissary-cli/src/config.rs` and `emissary-cli/src/cli.rs`. Simplifications: numbers are natural
numbers; the sections that `merge` does not look at (address book, I2CP, SAM, NTCP2, SSU2, router infos,
profiles, keys) are one value of a type `R`; hash sets are duplicate-free lists.
-/
namespace Emissary.Config

/-- Exploratory tunnel pool (config.rs:79-85, cli.rs:24-46). -/
structure Exploratory where
  inLen : Option Nat := none
  inCount : Option Nat := none
  outLen : Option Nat := none
  outCount : Option Nat := none
deriving DecidableEq

/-- Reseeding (config.rs:115-119). -/
structure Reseed where
  hosts : Option (List String)
  threshold : Nat
deriving DecidableEq

/-- HTTP proxy (config.rs:121-125). -/
structure Http where
  port : Nat
  host : String
deriving DecidableEq

/-- Port forwarding (config.rs:158-163). -/
structure Forwarding where
  natPmp : Bool
  upnp : Bool
  name : String
deriving DecidableEq

/-- Theme of the interface (config.rs:165-171). -/
inductive Theme where
  | light | dark
deriving DecidableEq

/-- Interface (config.rs:179-183). -/
structure Ui where
  theme : Theme
  refresh : Nat
deriving DecidableEq

/-- Client tunnel (config.rs:133-140). -/
structure Client where
  name : String
  address : Option String
  port : Nat
  destination : String
  destinationPort : Option Nat
deriving DecidableEq

/-- Server tunnel (config.rs:142-147). -/
structure Server where
  name : String
  port : Nat
  path : String
deriving DecidableEq

/-- The configuration (`Config`, config.rs:277-358). `transit`: `none` if transit tunnels are disabled,
`some none` if their number is not limited. -/
structure Config (R : Type) where
  rest : R
  floodfill : Bool
  insecure : Bool
  allowLocal : Bool
  metrics : Option Nat
  caps : Option String
  netId : Option Nat
  log : Option String
  reseed : Option Reseed
  http : Option Http
  exploratory : Option Exploratory
  transit : Option (Option Nat)
  forwarding : Option Forwarding
  ui : Option Ui
  clients : List Client
  servers : List Server

/-- The arguments (`Arguments`, cli.rs:23-190). Switches are `some true` if given and `some false` if
not (`ArgAction::SetTrue`). -/
structure Args where
  floodfill : Option Bool := some false
  insecure : Option Bool := some false
  allowLocal : Option Bool := some false
  disableMetrics : Option Bool := some false
  metricsPort : Option Nat := none
  caps : Option String := none
  netId : Option Nat := none
  log : Option String := none
  reseedHosts : Option (List String) := none
  reseedThreshold : Option Nat := none
  disableReseed : Option Bool := some false
  forceReseed : Option Bool := some false
  httpPort : Option Nat := none
  httpHost : Option String := none
  exploratory : Exploratory := {}
  maxTransit : Option Nat := none
  disableTransit : Option Bool := some false
  disableUpnp : Option Bool := some false
  disableNatPmp : Option Bool := some false
  upnpName : Option String := none
  theme : Option Theme := none
  refresh : Option Nat := none
  disableUi : Option Bool := some false

/-- `merge`, reseeding (config.rs:1048-1078). -/
def mergeReseed (r : Option Reseed) (a : Args) : Option Reseed :=
  let r1 := match a.reseedHosts with
    | none => r
    | some hs => match r with
      | none => some ⟨some hs, 25⟩
      | some c => some { c with hosts := some hs }
  let r2 := match a.reseedThreshold with
    | none => r1
    | some t => match r1 with
      | none => some ⟨none, t⟩
      | some c => some { c with threshold := t }
  if a.disableReseed = some true then none else r2

/-- `merge`, HTTP proxy (config.rs:1080-1109). -/
def mergeHttp (h : Option Http) (a : Args) : Option Http :=
  match h with
  | some c => some ⟨a.httpPort.getD c.port, a.httpHost.getD c.host⟩
  | none => match a.httpPort, a.httpHost with
    | some p, some s => some ⟨p, s⟩
    | _, _ => none

/-- `merge`, exploratory tunnels (config.rs:1111-1127). -/
def mergeExploratory (x : Option Exploratory) (a : Args) : Option Exploratory :=
  match x with
  | none => some a.exploratory
  | some c => some
    { inLen := a.exploratory.inLen.or c.inLen
      inCount := a.exploratory.inCount.or c.inCount
      outLen := a.exploratory.outLen.or c.outLen
      outCount := a.exploratory.outCount.or c.outCount }

/-- `merge`, transit tunnels (config.rs:1129-1137). -/
def mergeTransit (t : Option (Option Nat)) (a : Args) : Option (Option Nat) :=
  let t1 := match a.maxTransit with
    | none => t
    | some n => some (some n)
  if a.disableTransit = some true then none else t1

/-- `merge`, metrics (config.rs:1025-1035). -/
def mergeMetrics (m : Option Nat) (a : Args) : Option Nat :=
  match a.disableMetrics, a.metricsPort with
  | some true, _ => none
  | some false, some p => some p
  | _, _ => m

/-- `merge`, port forwarding (config.rs:1139-1156). -/
def mergeForwarding (f : Option Forwarding) (a : Args) : Option Forwarding :=
  f.map fun c =>
    { upnp := if a.disableUpnp = some true then false else c.upnp
      natPmp := if a.disableNatPmp = some true then false else c.natPmp
      name := a.upnpName.getD c.name }

/-- `merge`, interface (config.rs:1157-1174). -/
def mergeUi (u : Option Ui) (a : Args) : Option Ui :=
  match u with
  | none => none
  | some c => if a.disableUi = some true then none else some ⟨a.theme.getD c.theme, a.refresh.getD c.refresh⟩

/-- `merge` (config.rs:1006-1178). -/
def merge (c : Config R) (a : Args) : Config R :=
  { c with
    floodfill := if a.floodfill = some true then true else c.floodfill
    insecure := if a.insecure = some true then true else c.insecure
    allowLocal := if a.allowLocal = some true then true else c.allowLocal
    metrics := mergeMetrics c.metrics a
    caps := match a.caps with | some x => some x | none => c.caps
    netId := match a.netId with | some x => some x | none => c.netId
    log := match a.log with | some x => some x | none => c.log
    reseed := mergeReseed c.reseed a
    http := mergeHttp c.http a
    exploratory := mergeExploratory c.exploratory a
    transit := mergeTransit c.transit a
    forwarding := mergeForwarding c.forwarding a
    ui := mergeUi c.ui a }

/-- `HashSet::from_iter`, as a list. Standard or external library, not in /repo. -/
def toSet [DecidableEq α] : List α → List α
  | [] => []
  | x :: xs => if x ∈ toSet xs then toSet xs else x :: toSet xs

/-- The checks of the tunnels in `Config::new` (config.rs:770-831): the names and ports of client
tunnels, and the names, ports and paths of server tunnels are as many as there are tunnels. -/
def check (cs : List Client) (ss : List Server) : Bool :=
  (toSet (cs.map (·.name))).length = cs.length &&
  (toSet (cs.map (·.port))).length = cs.length &&
  (toSet (ss.map (·.name))).length = ss.length &&
  (toSet (ss.map (·.port))).length = ss.length &&
  (toSet (ss.map (·.path))).length = ss.length

/-- The decision to reseed in `setup_router` (main.rs:105-111). -/
def shouldReseed (c : Config R) (a : Args) (routers : Nat) : Bool :=
  (match c.reseed with
    | none => false
    | some r => r.threshold > routers) || a.forceReseed.getD false

end Emissary.Config
