import Verif.Model.TunnelBuild
/-!
# How the transit manager ends

`TransitTunnelManager::poll` (`tunnel/transit/mod.rs` 774-885) around the steps of
`Model/TunnelBuild.lean`: when it tells the router that it is done and stops. The task of a tunnel is
taken to end by itself and not by a panic.
-/
namespace Emissary.TBuild
open Emissary Emissary.I2np Emissary.Build Emissary.Prim
open Emissary.Ssu2 (Prims)

/-- The manager, and whether it has answered the shutdown request and returned `Ready`, which it does
together (827-829, 869-874). -/
structure Manager where
  t : Transit
  over : Bool := false

/-- One step of the poll loop. Not in the code: one event, handled by the definitions above. -/
def Manager.step (P : Prims) (E : Env) (chk : Bool) (s : Manager) (o : TransitOp) : Manager :=
  if s.over then s
  else
    let t := (s.t.step P E chk o).1
    match o with
    -- 820-837
    | .shutdown => { t, over := t.tunnels.isEmpty }
    -- 839-875
    | .ended i => { t, over := decide (i < s.t.tunnels.length) && t.tunnels.isEmpty && t.shuttingDown }
    | _ => { t }

/-- A history. Not in the code: a fold of the steps. -/
def Manager.run (P : Prims) (E : Env) (chk : Bool) (s : Manager) (os : List TransitOp) : Manager :=
  os.foldl (Manager.step P E chk) s

end Emissary.TBuild
