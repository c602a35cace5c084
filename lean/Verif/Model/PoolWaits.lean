import Verif.Model.PoolContext
/-!
# Who waits for messages in a tunnel pool

The uses of the listeners of `PoolContext`: builds of outbound tunnels whose answer comes through a tunnel of the pool, `emissary-core/src/tunnel/pool/mod.rs` 472-563 with
`emissary-core/src/tunnel/pool/listener.rs` 98-207, and tests of tunnels, `emissary-core/src/tunnel/pool/mod.rs` 725-838.

Simplifications: a build may belong to another pool, which makes no difference to the listeners; that the receiver sees its channel closed (listener.rs 149-166) is left out, since a
listener is dropped only by the one who waits. An answer that comes before the result of the dial ends the task
here, while the code keeps the answer in the channel until the dial is known; the listener is gone in both. The assertion after two minutes without the result of a dial (listener.rs 128) is left out.
-/
namespace Emissary.PoolWaits

open Emissary.PoolCtx (Ctx)
open Emissary.I2np (Message)

/-- What is waited for: the result of the dial (listener.rs 109), the answer to the request (listener.rs 133) or the message of a test (mod.rs 810). -/
inductive Kind where
  | dial
  | reply
  | test
deriving Repr, DecidableEq

/-- A task of `TunnelBuildListener::pending` (listener.rs 73) or of `TunnelPool::pending_tests`, with its message id and the receiving end of its channel. -/
structure Wait where
  id : Nat
  ch : Nat
  kind : Kind
deriving Repr, DecidableEq

/-- The listeners (context.rs 59-69) and the tasks that wait. -/
structure State where
  ctx : Ctx := {}
  waits : List Wait := []

/-- What happens. `test`: a test begins, and its message can be sent or not. `build`: a build begins; the request has a garlic tag, or it cannot be made. `dialled`: the
result of the dial of a build. `timeout`: the time of a task is over. Not in the code: the events that the theorems quantify over. -/
inductive Op where
  | test (draws : List Nat) (sent : Bool)
  | build (draws : List Nat) (tag : Option Bytes)
  | dialled (ch : Nat) (ok : Bool)
  | timeout (ch : Nat)
  | route (m : Message)
  | ownerReads
  | poolReads

/-- A task ends and its receiver is dropped, listener.rs 119, 129 and 133-166, mod.rs 813-817. -/
def State.over (s : State) (ch : Nat) : State := { ctx := { s.ctx with gone := ch :: s.ctx.gone }, waits := s.waits.filter (·.ch ≠ ch) }

/-- One event, at the lines that are cited in the head of the file. -/
def State.step (chk : Bool) (s : State) : Op → State
  | .test draws sent => match s.ctx.add draws with
    | (c, .added id ch) => if sent then { ctx := c, waits := ⟨id, ch, .test⟩ :: s.waits } else { s with ctx := c.remove id }
    | _ => s
  | .build draws tag => match s.ctx.add draws with
    | (c, .added id ch) => match tag with
      | some t => { ctx := (c.tag chk id t).1, waits := ⟨id, ch, .dial⟩ :: s.waits }
      | none => { s with ctx := c.remove id }
    | _ => s
  | .dialled ch ok => match s.waits.find? (·.ch = ch) with
    | some ⟨_, _, .dial⟩ => if ok then { s with waits := s.waits.map fun w => if w.ch = ch then { w with kind := .reply } else w } else s.over ch
    | _ => s
  | .timeout ch => match s.waits.find? (·.ch = ch) with
    | some ⟨id, _, .reply⟩ => { s with ctx := s.ctx.remove id }.over ch
    | some ⟨_, _, .test⟩ => s.over ch
    | _ => s
  | .route m => match s.ctx.route chk m with
    | (c, .listener ch) => { ctx := c, waits := s.waits.filter (·.ch ≠ ch) }
    | (c, _) => { s with ctx := c }
  | .ownerReads => { s with ctx := { s.ctx with owner := s.ctx.owner.recv.1 } }
  | .poolReads => { s with ctx := { s.ctx with pool := s.ctx.pool.recv.1 } }

/-- How the build of an inbound tunnel fails: the request cannot be made (mod.rs 682-698), the first router cannot be dialled (listener.rs 111-120), or the answer is too
late (listener.rs 133-148). -/
inductive Failure where
  | noRequest
  | dial
  | late
deriving Repr, DecidableEq

/-- The build of an inbound tunnel that fails, as the routing table sees it: mod.rs 591-595, then as `Failure` says, and mod.rs 919. The receiver is dropped with the task. What
others do with the table in between is left out. -/
def inbound (t : Routing.Table) (draws tunnelDraws : List Nat) (size : Nat) (f : Failure) : Routing.Table :=
  match t.insertListener draws with
  | (t, some (id, h)) => match t.insertTunnel size tunnelDraws with
    | (t, some (tunnel, _)) => match f with
      | .noRequest => ((t.removeTunnel tunnel).removeListener id).dropListener h
      | .dial => (t.dropListener h).removeTunnel tunnel
      | .late => ((t.removeListener id).dropListener h).removeTunnel tunnel
    | (t, none) => t
  | (t, none) => t

/-- A history. Not in the code: a fold of the steps. -/
def State.run (chk : Bool) (s : State) (ops : List Op) : State := ops.foldl (State.step chk) s

end Emissary.PoolWaits
