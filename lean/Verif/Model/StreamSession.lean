import Verif.Model.StreamFirst
import Verif.Model.StreamPending
/-!
# The streams of one SAM session

The tasks that `StreamManager` (`emissary-core/src/sam/protocol/streaming/mod.rs`) keeps in its `JoinSet`, and what their ends do to the manager and to the session that
owns it. A task has the number that it got when it was spawned; the maps of the manager are those of Model/StreamManager.lean and left out here.
-/
namespace Emissary.StreamTask
open Emissary Emissary.Stream

/-- `StreamManager::streams`, mod.rs 264-266, and whether the session has ended. -/
structure Sess where
  tasks : Nat → Option Task := fun _ => none
  over : Bool := false

/-- What can happen. Not in the code: the events that the theorems quantify over. -/
inductive SEv where
  | /-- `spawn_stream` -/ start (id : Nat) (remote : Bytes) (sock : Sock) (kind : Kind)
  | /-- a step of one task -/ task (id : Nat) (op : Op)
  | /-- the `JoinSet` gives the result of a task to the manager -/ collect (id : Nat)

/-- The task that an event is about. Not in the code: a helper of the model. -/
def SEv.id : SEv → Nat
  | .start id .. => id
  | .task id _ => id
  | .collect id => id

/-- One event. `spawn_stream` (mod.rs 616-690); a task of its own (`poll`, active.rs 1146-1436); the end of a task (mod.rs 1088-1128): a task that has panicked makes
`JoinSet::poll_next` give `None` (emissary-util/src/runtime/tokio.rs 260-269), for which the manager gives `None` (mod.rs 1091) and `SamSession` ends (sam/session.rs 1182);
its tasks are aborted when the `JoinSet` is dropped. -/
def Sess.step (b64 : Bytes → List Char) (s : Sess) (e : SEv) : Sess :=
  if s.over then s else
  match e with
  | .start id remote sock kind =>
    match s.tasks id with
    | some _ => s
    | none => { s with tasks := fun i => if i = id then some (Task.start b64 remote sock kind) else s.tasks i }
  | .task id op =>
    match s.tasks id with
    | none => s
    | some t => { s with tasks := fun i => if i = id then some (t.step op).1 else s.tasks i }
  | .collect id =>
    match s.tasks id with
    | none => s
    | some t =>
      match t.ended with
      | none => s
      | some .panic => { tasks := fun _ => none, over := true }
      | some _ => { s with tasks := fun i => if i = id then none else s.tasks i }

/-- A history. Not in the code: a fold of the steps. -/
def Sess.run (b64 : Bytes → List Char) (s : Sess) (es : List SEv) : Sess := es.foldl (Sess.step b64) s

end Emissary.StreamTask
