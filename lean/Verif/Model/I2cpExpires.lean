import Verif.Model.I2cpSession
/-!
# Messages of an I2CP client with the time until which they are to be sent

`Message::SendMessageExpires` in `emissary-core/src/i2cp/session.rs` 318-402, with the fields that the session leaves out and with the time at which things happen.
-/
namespace Emissary.I2cpSession

/-- A `SendMessageExpires` message as it was parsed, i2cp/message/mod.rs 379-400, and whether the lease set of its destination is known. Ports and protocol are left out. -/
structure Given (D : Type) where
  dest : D
  data : Bytes
  nonce : Nat
  expires : Nat
  cached : Bool

/-- What the session is polled with: a message to send or anything else. Not in the code: the events that the theorems quantify over. -/
inductive TOp (D : Type) where
  | send (m : Given D)
  | op (o : Op D)

/-- What the session sees of it, i2cp/session.rs 318-329: nonce, options and expiration are not looked at. -/
def TOp.seen {D : Type} : TOp D → Op D
  | .send m => .send m.dest m.data m.cached
  | .op o => o

variable {D : Type} [DecidableEq D]

/-- The session after a history of things, each with its time. Not in the code: a fold of the steps. -/
def State.timed (s : State D) (h : List (Nat × TOp D)) : State D := h.foldl (fun s x => s.step x.2.seen) s

/-- What is seen when one thing happens. Not in the code: a helper of the model. -/
def State.seen (s : State D) (o : TOp D) : List (Out D) := (s.step o.seen).out.drop s.out.length

/-- What is seen, each with its time. Not in the code: a fold of the steps. -/
def State.times (s : State D) : List (Nat × TOp D) → List (Nat × Out D)
  | [] => []
  | (t, o) :: h => (s.seen o).map (fun x => (t, x)) ++ (s.step o.seen).times h

end Emissary.I2cpSession
