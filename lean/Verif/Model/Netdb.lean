import Verif.Model.Bytes
import Verif.Model.OMap
/-!
# Kademlia tables of the network database (netdb/types.rs, bucket.rs, routing_table.rs, dht.rs)

A router id is represented by its 32 hash bytes (`RouterId::to_vec`); `Key<T>` is its preimage and those bytes, so for router
ids both coincide. `HashSet<RouterId>` is a list in iteration order.
-/
namespace Emissary.Netdb
open Emissary

/-- `KeyBytes::distance` (types.rs 142-149): both keys read as 256-bit big-endian integers, then xor. -/
def distance (a b : Bytes) : Nat := unbe a ^^^ unbe b

/-- `Distance::ilog2` (types.rs 166-168). -/
def ilog2 (d : Nat) : Option Nat := if d = 0 then none else some d.log2

/-- `FloodFill` (types.rs 173-179). -/
structure FloodFill where
  key : Bytes
  score : Int := 0
deriving Repr, DecidableEq

/-- `KBucket` (bucket.rs 35-38). -/
abbrev KBucket := List FloodFill

/-- The score found by `iter_mut().min()` (bucket.rs 66), `FloodFill` being ordered by score (types.rs 199-203). -/
def lowest : KBucket → Option Int
  | [] => none
  | f :: t => match lowest t with
    | none => some f.score
    | some m => some (if f.score ≤ m then f.score else m)

/-- Replaces the first entry with score `m`: `min` returns the first of several equal elements (bucket.rs 66, 76-77). -/
def replaceFirst (m : Int) (key : Bytes) : KBucket → KBucket
  | [] => []
  | f :: t => if f.score = m then { key, score := 0 } :: t else f :: replaceFirst m key t

/-- `KBucket::try_insert` (bucket.rs 56-84). -/
def KBucket.tryInsert (b : KBucket) (key : Bytes) : KBucket × Bool :=
  if b.any (fun f => f.key == key) then (b, true)
  else if b.length < 20 then (b ++ [{ key }], true)
  else match lowest b with
    | some m => if m < 0 then (replaceFirst m key b, true) else (b, false)
    | none => (b, false)

/-- `KBucket::adjust_score` (bucket.rs 87-103). Scores are unbounded integers here; the code uses `isize`, whose bounds would
take more than 2^58 lookups to reach. -/
def KBucket.adjustScore (key : Bytes) (adj : Int) : KBucket → KBucket
  | [] => []
  | f :: t => if f.key = key then { f with score := f.score + adj } :: t else f :: KBucket.adjustScore key adj t

/-- Inserts before the first element that is not smaller. Standard or external library, not in /repo. -/
def insertBy {α : Type} (le : α → α → Bool) (a : α) : List α → List α
  | [] => [a]
  | b :: t => if le a b then a :: b :: t else b :: insertBy le a t

/-- `slice::sort_by`: a stable sort, modelled by insertion sort (stable sorts by the same order give the same result).
Standard or external library, not in /repo. -/
def sortBy {α : Type} (le : α → α → Bool) (l : List α) : List α := l.foldr (insertBy le) []

/-- `KBucket::closest_iter` (bucket.rs 107-112); `sort_by` is a stable sort. -/
def KBucket.closestIter (b : KBucket) (target : Bytes) : List Bytes :=
  (sortBy (fun x y => distance target x.key ≤ distance target y.key) b).map (·.key)

/-- `RoutingTable` (routing_table.rs 43-49). The 256 buckets are a function of the index. -/
structure Table where
  localKey : Bytes
  buckets : Nat → KBucket := fun _ => []

/-- `RoutingTable::new` (79-84). -/
def Table.new (localKey : Bytes) : Table := { localKey }

/-- `self.buckets[i] = b`. Standard or external library, not in /repo. -/
def Table.set (t : Table) (i : Nat) (b : KBucket) : Table :=
  { t with buckets := fun j => if j = i then b else t.buckets j }

/-- `RoutingTable::add_router` (103-120). -/
def Table.addRouter (t : Table) (id : Bytes) : Table :=
  match ilog2 (distance t.localKey id) with
  | some i => t.set i ((t.buckets i).tryInsert id).1
  | none => t

/-- `RoutingTable::adjust_score` (123-129). -/
def Table.adjustScore (t : Table) (id : Bytes) (adj : Int) : Table :=
  match ilog2 (distance t.localKey id) with
  | some i => t.set i (KBucket.adjustScore id adj (t.buckets i))
  | none => t

/-- `ClosestBucketsIterState` (173-194). -/
inductive IterState where
  | start (i : Nat)
  | zoomIn (i : Nat)
  | zoomOut (i : Nat)
  | done
deriving Repr, DecidableEq

/-- `ClosestBucketsIter::new` (197-203). -/
def IterState.new (d : Nat) : IterState :=
  match ilog2 d with
  | some i => .start i
  | none => .start 0

/-- `next_in` (205-207). -/
def nextIn (d i : Nat) : Option Nat := (List.range i).reverse.find? fun j => d.testBit j

/-- `next_out` (209-211); `NUM_BUCKETS` = 256 (41). -/
def nextOut (d i : Nat) : Option Nat := (List.range' (i + 1) (256 - (i + 1))).find? fun j => !d.testBit j

/-- `Iterator::next` (217-242). -/
def IterState.next (d : Nat) : IterState → Option Nat × IterState
  | .start i => (some i, .zoomIn i)
  | .zoomIn i => match nextIn d i with
    | some j => (some j, .zoomIn j)
    | none => (some 0, .zoomOut 0)
  | .zoomOut i => match nextOut d i with
    | some j => (some j, .zoomOut j)
    | none => (none, .done)
  | .done => (none, .done)

/-- Everything the iterator yields until it returns `None`, at most `fuel` items. Not in the code: a helper of the model. -/
def IterState.drain (d : Nat) : Nat → IterState → List Nat
  | 0, _ => []
  | fuel + 1, s => match s.next d with
    | (some i, s) => i :: IterState.drain d fuel s
    | (none, _) => []

/-- The bucket indices `ClosestBucketsIter` visits. It stops by itself within 600 items (`visited_eq`). -/
def visited (d : Nat) : List Nat := IterState.drain d 600 (IterState.new d)

/-- `RoutingTable::closest` (132-140). -/
def Table.closest (t : Table) (target : Bytes) (limit : Nat) : List Bytes :=
  ((visited (distance t.localKey target)).flatMap fun i => (t.buckets i).closestIter target).take limit

/-- `RoutingTable::closest_with_ignore` (144-154). -/
def Table.closestWithIgnore (t : Table) (target : Bytes) (limit : Nat) (ignore : List Bytes) : List Bytes :=
  (((visited (distance t.localKey target)).flatMap fun i => (t.buckets i).closestIter target).filter
    fun id => !ignore.contains id).take limit

/-- `Dht::new` (dht.rs 64-106) for floodfills: routers are inserted by decreasing score; `score` is the profile's
`floodfill_score` or 0. -/
def Table.ofFloodfills (localKey : Bytes) (routers : List Bytes) (score : Bytes → Int) : Table :=
  (sortBy (fun a b => b.2 ≤ a.2) (routers.map fun r => (r, score r))).foldl (fun t r => t.addRouter r.1) (Table.new localKey)

/-- `Dht::new` (dht.rs 93-99) for other routers. -/
def Table.ofRouters (localKey : Bytes) (routers : List Bytes) : Table :=
  routers.foldl Table.addRouter (Table.new localKey)

/-- The calls that change a `Dht` (dht.rs 117-137): scores change by +10, +1 and -5. -/
inductive DhtOp where
  | add (id : Bytes)
  | success (id : Bytes)
  | failure (id : Bytes)
  | timeout (id : Bytes)
deriving Repr, DecidableEq

/-- dht.rs 117-137 with the constants of 37-49. The profile storage is not part of the table. -/
def Table.step (t : Table) : DhtOp → Table
  | .add id => t.addRouter id
  | .success id => t.adjustScore id 10
  | .failure id => t.adjustScore id 1
  | .timeout id => t.adjustScore id (-5)

/-- Not in the code: a fold of the steps. -/
def Table.run (t : Table) (ops : List DhtOp) : Table := ops.foldl Table.step t

/-- The `BTreeMap` from distance to router id built in `get_closest` and `get_n_closest` (172-179, 196-203). -/
def byDistance (target : Bytes) (routers : List Bytes) : OMap Bytes :=
  routers.foldl (fun m r => m.ins (distance target r) r) []

/-- `Dht::get_closest` (165-182); `target` is the hash of key and date. -/
def getClosest (target : Bytes) (routers : List Bytes) : Option Bytes :=
  if routers.isEmpty then none else (byDistance target routers).head?.map (·.2)

/-- `Dht::get_n_closest` (185-210). The result is collected in a `HashSet`. -/
def getNClosest (target : Bytes) (routers : List Bytes) (limit : Nat) : List Bytes :=
  if routers.isEmpty then [] else ((byDistance target routers).take limit).map (·.2)

end Emissary.Netdb
