import Verif.Model.AMap
import Verif.Model.SamParser
/-!
# The ports of streams

`StreamManager`, `emissary-core/src/sam/protocol/streaming/mod.rs`, and `Stream`, `emissary-core/src/sam/protocol/streaming/stream/active.rs`: the two ports
that go with each packet that is sent (`I2cpPayloadBuilder`, `emissary-core/src/sam/session.rs` 435-438 and 1189-1192). What the packets say is in
`Model/StreamManager` and `Model/StreamTask`.

Simplifications: a stream is one number, from the first packet to the last. When packets are sent is an input, and so is whether there is a listener.
-/
namespace Emissary.StreamPorts

open Emissary.SamParser (Str)

/-- The ports of a packet as they are sent: the one it comes from and the one it goes to. sam/protocol/streaming/mod.rs 1079-1085. -/
structure Ports where
  src : Nat
  dst : Nat
deriving DecidableEq

/-- `StreamManager`, lines 237-286: `calling` is `pending_outbound`, `waiting` is `pending_inbound` and `active` the streams that run, with their ports
(stream/active.rs 499-500 and 548-549). `sent`: not in the code, the packets that left, each with its stream. -/
structure State where
  calling : AMap Nat Ports := []
  waiting : List Nat := []
  active : AMap Nat Ports := []
  sent : List (Nat × Ports) := []

/-- A port of the options of `STREAM CONNECT`, sam/protocol/streaming/mod.rs 914-919: 0 if it is missing or not a number of a port. -/
def port (value : Option Str) : Nat := match value with
  | none => 0
  | some v => (SamParser.port v).getD 0

/-- What happens. `connect`: the client opens a stream, with the values of `FROM_PORT` and `TO_PORT`. `again`: the SYN is sent again. `accepted`: the answer to
it came. `called`: a SYN came, with its ports, and there is a listener or not. `early`: a packet for a stream that waits for a listener came, with its ports,
and is answered. `listener`: there is a listener for the stream. `send`: a running stream sends something. `ended`: it is over. Not in the code: the inputs
of the model. -/
inductive Op where
  | connect (k : Nat) (fromPort toPort : Option Str)
  | again (k : Nat)
  | accepted (k : Nat)
  | called (k : Nat) (p : Ports) (listener : Bool)
  | early (k : Nat) (p : Ports)
  | listener (k : Nat)
  | send (k : Nat)
  | ended (k : Nat)

/-- A packet of the stream is sent. Not in the code: a helper of the model. -/
def State.emit (s : State) (k : Nat) (p : Ports) : State := { s with sent := s.sent ++ [(k, p)] }

/-- One thing happens. sam/protocol/streaming/mod.rs: `create_stream` 905-986, resending 1176-1201, `on_synchronize` 409-445 and 484-530, `on_packet` 804-829,
`on_listener_ready` 706-736. sam/protocol/streaming/stream/active.rs: the ports of a new stream 584-684, packets 805-815, 932-942, 1023-1030, 1105-1115,
1315-1325 and 1408-1418. -/
def State.step (s : State) : Op → State
  | .connect k f t => { s with calling := s.calling.put k ⟨port f, port t⟩ }.emit k ⟨port f, port t⟩
  | .again k => match s.calling.get k with
    | some p => s.emit k p
    | none => s
  | .accepted k => match s.calling.get k with
    | some p => { s with calling := s.calling.del k, active := s.active.put k p }
    | none => s
  | .called k p listener =>
    if listener then { s with active := s.active.put k ⟨0, 0⟩ }.emit k ⟨0, 0⟩
    else { s with waiting := k :: s.waiting }.emit k ⟨p.dst, p.src⟩
  | .early k p => if k ∈ s.waiting then s.emit k ⟨p.dst, p.src⟩ else s
  | .listener k => if k ∈ s.waiting then { s with waiting := s.waiting.filter (· ≠ k), active := s.active.put k ⟨0, 0⟩ } else s
  | .send k => match s.active.get k with
    | some p => s.emit k p
    | none => s
  | .ended k => { s with active := s.active.del k, calling := s.calling.del k, waiting := s.waiting.filter (· ≠ k) }

/-- Not in the code: a fold of the steps. -/
def State.run (s : State) (ops : List Op) : State := ops.foldl State.step s

end Emissary.StreamPorts
