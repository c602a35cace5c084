import Verif.Model.SamServer
/-!
# How a SAM session comes to be

`PendingSamSession::run`, `emissary-core/src/sam/pending/session.rs` 183-274, from the first line to the last, with the handles it uses:
`NetDbHandle::wait_until_ready` (`netdb/handle.rs` 204-211) and the future of `TunnelManagerHandle::create_tunnel_pool` (`tunnel/handle.rs` 85-96).

Simplifications: the channels, the timer and the tasks at their other ends are inputs. An input that `run` does not wait for is left alone.
-/
namespace Emissary.SamPending

open Emissary.SamServer (Tunnels Event)

/-- What `run` waits for. sam/pending/session.rs 183-254: `ask` is line 185, `pause` line 190, `wait` line 187, `pool` line 194, `tunnels` line 203,
`ready` line 257 and `failed` the question mark of line 203. `panicked`: `expect` of tunnel/handle.rs 94. -/
inductive Stage (L : Type) where
  | ask
  | pause
  | wait
  | pool
  | tunnels (t : Tunnels L)
  | ready (t : Tunnels L)
  | failed
  | panicked

/-- What happens. `asked`: the channel of the network database takes the request, or is full or closed. `slept`: `RETRY_DURATION` (line 45) is over.
`told`: the network database answers, or drops the request. `built`: the tunnel manager answers with the new pool, or drops the request. `event`: something
happens to the pool. `closed`: the pool is gone. Not in the code: the inputs of the model. -/
inductive Ev (L : Type) where
  | asked (ok : Bool)
  | slept
  | told (ok : Bool)
  | built (ok : Bool)
  | event (e : Event L)
  | closed

/-- `run`, sam/pending/session.rs 183-254, up to the next thing it waits for. -/
def Stage.step {L : Type} (s : Stage L) (e : Ev L) : Stage L :=
  match s, e with
  | .ask, .asked true => .wait
  | .ask, .asked false => .pause
  | .pause, .slept => .ask
  | .wait, .told true => .pool
  | .wait, .told false => .ask
  | .pool, .built true => .tunnels ⟨[], []⟩
  | .pool, .built false => .panicked
  | .tunnels t, .event e =>
    if e.built && !(t.step e).inbound.isEmpty && !(t.step e).outbound.isEmpty then .ready (t.step e) else .tunnels (t.step e)
  | .tunnels _, .closed => .failed
  | s, _ => s

/-- Not in the code: a fold of the steps. -/
def Stage.run {L : Type} (s : Stage L) (evs : List (Ev L)) : Stage L := evs.foldl Stage.step s

end Emissary.SamPending
