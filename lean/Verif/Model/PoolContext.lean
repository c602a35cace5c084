import Verif.Model.Routing
import Verif.Model.AMap
/-!
# Messages that arrive in a tunnel pool

Models `tunnel/pool/context.rs`. Oneshot channels are numbered; what is sent over them is seen as the result of a step, and `gone` are the channels whose
receiver was dropped. The channel to the owner of the pool (`event_tx`, 64 elements) is modelled for messages only. `chk`: built with debug assertions.
-/
namespace Emissary.PoolCtx
open Emissary Emissary.I2np Emissary.Routing

/-- `MessageListeners` (context.rs 59-69) and the channels of `TunnelPoolContextHandle` (73-82). -/
structure Ctx where
  listeners : AMap Nat Nat := []
  tags : AMap Bytes Nat := []
  ids : AMap Nat Bytes := []
  next : Nat := 0
  gone : List Nat := []
  owner : Chan Message := { cap := 64 }
  pool : Chan Message := { cap := 4096 }

/-- Where a message went. Not in the code: the effects that can be observed. -/
inductive Res where
  | added (id ch : Nat)
  | listener (ch : Nat)
  | owner
  | pool
  | lost
  | panic
  | done
deriving Repr, DecidableEq

/-- `oneshot::Sender::send`. Standard or external library, not in /repo. -/
def Ctx.deliver (c : Ctx) (ch : Nat) : Ctx × Res := (c, if ch ∈ c.gone then .lost else .listener ch)

/-- Lines 153-173 and 180-199. -/
def Ctx.toOwner (c : Ctx) (m : Message) : Ctx × Res :=
  match c.owner.trySend m with
  | (q, .ok) => ({ c with owner := q }, .owner)
  | (q, _) => ({ c with owner := q }, .lost)

/-- Lines 212-225. -/
def Ctx.byId (c : Ctx) (id : Nat) (m : Message) : Ctx × Res :=
  match c.listeners.get id with
  | some ch => { c with listeners := c.listeners.del id }.deliver ch
  | none => match c.pool.trySend m with
    | (q, .ok) => ({ c with pool := q }, .pool)
    | (q, _) => ({ c with pool := q }, .lost)

/-- Lines 262-270 (and 202-205) without the listener itself. -/
def Ctx.untag (c : Ctx) (id : Nat) : Ctx :=
  match c.ids.get id with
  | some tag => { c with ids := c.ids.del id, tags := c.tags.del tag }
  | none => c

/-- `route_message` (129-226). -/
def Ctx.route (chk : Bool) (c : Ctx) (m : Message) : Ctx × Res :=
  match m.type with
  | .garlic =>
    if m.payload.length < 12 then (c, .panic)
    else
      let tag := (m.payload.drop 4).take 8
      match c.tags.get tag with
      | some id =>
        let v := c.ids.get id
        let c := { c with tags := c.tags.del tag, ids := c.ids.del id }
        if chk && v ≠ some tag then (c, .panic) else c.byId id m
      | none => match c.listeners.get m.id with
        | some ch => { c with listeners := c.listeners.del m.id }.deliver ch
        | none => c.toOwner m
  | .databaseStore => c.toOwner m
  | .databaseLookup => c.toOwner m
  | .databaseSearchReply => c.toOwner m
  | .outboundTunnelBuildReply => (c.untag m.id).byId m.id m
  | _ => c.byId m.id m

/-- `add_listener` (229-242 and 378-391); `draws` are random numbers. With no fresh one among them nothing happens, as if they had not been drawn yet. -/
def Ctx.add (c : Ctx) (draws : List Nat) : Ctx × Res :=
  match draws.find? fun id => (c.listeners.get id).isNone with
  | some id => ({ c with listeners := c.listeners.put id c.next, next := c.next + 1 }, .added id c.next)
  | none => (c, .done)

/-- `add_garlic_listener` (252-259). -/
def Ctx.tag (chk : Bool) (c : Ctx) (id : Nat) (tag : Bytes) : Ctx × Res :=
  if chk && (c.listeners.get id).isNone then (c, .panic)
  else ({ c with tags := c.tags.put tag id, ids := c.ids.put id tag }, .done)

/-- `remove_listener` (262-270 and 394-402). -/
def Ctx.remove (c : Ctx) (id : Nat) : Ctx := { c with listeners := c.listeners.del id }.untag id

/-- What happens to a context. Not in the code: the events that the theorems quantify over. -/
inductive Op where
  | add (draws : List Nat)
  | tag (id : Nat) (tag : Bytes)
  | remove (id : Nat)
  | route (m : Message)
  | drop (ch : Nat)
  | ownerReads
  | poolReads
deriving Repr, DecidableEq

/-- Not in the code: one event, handled by the definitions above. -/
def Ctx.step (chk : Bool) (c : Ctx) : Op → Ctx × Res
  | .add draws => c.add draws
  | .tag id tag => c.tag chk id tag
  | .remove id => (c.remove id, .done)
  | .route m => c.route chk m
  | .drop ch => ({ c with gone := ch :: c.gone }, .done)
  | .ownerReads => ({ c with owner := c.owner.recv.1 }, .done)
  | .poolReads => ({ c with pool := c.pool.recv.1 }, .done)

/-- A run, with what was seen. Not in the code: a fold of the steps. -/
def Ctx.run (chk : Bool) (c : Ctx) : List Op → Ctx × List (Op × Res)
  | [] => (c, [])
  | o :: ops =>
    let x := c.step chk o
    let y := Ctx.run chk x.1 ops
    (y.1, (o, x.2) :: y.2)

end Emissary.PoolCtx
