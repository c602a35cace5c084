import Verif.Model.I2np
/-!
# Router profiles (emissary-core/src/profile.rs)

Router ids are natural numbers. Hash maps are association lists without repeated keys, hash sets lists without repetitions; the order
of such a list stands for the (arbitrary) order in which the map is iterated. The weighted participation rates are floating point
numbers that are only used for sorting (336, 392, 859): the sorting function, which sees the profiles, is a parameter of which only
that it permutes its argument will be assumed. A failed `expect` or a negative `Duration` is `none`. Locks are not modelled: no function of this file
holds a lock while it waits. `R::time_since_epoch()` is a parameter.
-/
namespace Emissary.Profile
open Emissary.I2np (Duration)

/-! ## Maps and sets -/

/-- Standard or external library, not in /repo. -/
abbrev Map (α : Type) := List (Nat × α)

/-- Standard or external library, not in /repo. -/
def Map.get (m : Map α) (k : Nat) : Option α := (m.find? (·.1 == k)).map (·.2)

/-- Standard or external library, not in /repo. -/
def Map.has (m : Map α) (k : Nat) : Bool := (m.get k).isSome

/-- `HashMap::insert`. Standard or external library, not in /repo. -/
def Map.insert (m : Map α) (k : Nat) (v : α) : Map α :=
  if m.has k then m.map fun e => if e.1 = k then (k, v) else e else m ++ [(k, v)]

/-- `HashMap::remove`. Standard or external library, not in /repo. -/
def Map.remove (m : Map α) (k : Nat) : Map α := m.filter (·.1 ≠ k)

/-- `*map.get_mut(k) = f(..)`. Standard or external library, not in /repo. -/
def Map.update (m : Map α) (k : Nat) (f : α → α) : Map α := m.map fun e => if e.1 = k then (k, f e.2) else e

/-- `HashSet::insert`. Standard or external library, not in /repo. -/
def setInsert (s : List Nat) (k : Nat) : List Nat := if k ∈ s then s else s ++ [k]

/-- `HashSet::remove`. Standard or external library, not in /repo. -/
def setRemove (s : List Nat) (k : Nat) : List Nat := s.filter (· ≠ k)

/-! ## One profile -/

/-- `Profile` (71-119) without the lookup counters that only matter for floodfills. -/
structure Profile where
  lastActivity : Duration := 0
  lastDeclined : Option Duration := none
  lastDialFailure : Option Duration := none
  accepted : Nat := 0
  connections : Nat := 0
  dialFailures : Nat := 0
  rejected : Nat := 0
  selected : Nat := 0
  testFailures : Nat := 0
  testSuccesses : Nat := 0
  unanswered : Nat := 0
deriving Repr, DecidableEq

/-- `LAST_DECLINE_THRESHOLD`, `UNREACHABILITY_THRESHOLD` (42-45): 180 s. -/
def threshold : Duration := 180000000000

/-- `a - b` on durations panics if it would be negative. Standard or external library, not in /repo. -/
def since (now t : Duration) : Option Duration := if t ≤ now then some (now - t) else none

/-- `has_recently_declined` (145-150). -/
def Profile.hasRecentlyDeclined (now : Duration) (p : Profile) : Option Bool :=
  match p.lastDeclined with
  | none => some false
  | some t => (since now t).map fun d => decide (d < threshold)

/-- `has_low_participation_rate` (153-155). -/
def Profile.lowRate (p : Profile) : Bool := decide (4 * p.accepted < p.rejected)

/-- `participation_rate().is_some()` (158-167). -/
def Profile.tracked (p : Profile) : Bool := p.accepted + p.rejected + p.unanswered ≠ 0

/-- `is_unreachable` (176-183). -/
def Profile.isUnreachable (now : Duration) (p : Profile) : Option Bool :=
  match p.lastDialFailure with
  | none => some false
  | some t => (since now t).map fun d => decide (threshold < d)

/-- `is_always_declining` (186-188). -/
def Profile.alwaysDeclining (p : Profile) : Bool := p.accepted = 0 && decide (5 ≤ p.rejected)

/-- `is_failing` (191-196); `||` stops at the first `true`. -/
def Profile.isFailing (now : Duration) (p : Profile) : Option Bool :=
  match p.hasRecentlyDeclined now with
  | none => none
  | some true => some true
  | some false => match p.isUnreachable now with
    | none => none
    | some true => some true
    | some false => some (p.alwaysDeclining || p.lowRate)

/-! ## The storage -/

/-- The address of a transport: its first two octets and the rest, or a version 6 address. -/
inductive Addr where
  | v4 (a b : UInt8) (rest : Nat)
  | v6 (ip : Nat)
deriving Repr, DecidableEq

/-- What is used of a `RouterInfo`: `is_reachable`, `is_usable`, `capabilities.is_fast`, `is_reachable_ntcp2`
(primitives/router_info.rs 312-357, primitives/capabilities.rs 135-159) and the two socket addresses. -/
structure Info where
  reachable : Bool
  usable : Bool
  fast : Bool
  ntcp2Reachable : Bool := true
  ntcp2 : Option Addr := none
  ssu2 : Option Addr := none
deriving Repr, DecidableEq

/-- `ProfileStorage` (229-250). -/
structure Store where
  discovered : Map Bytes := []
  untracked : List Nat := []
  fast : List Nat := []
  standard : List Nat := []
  profiles : Map Profile := []
  routers : Map Info := []

/-- Splitting the candidates of a bucket of size `n` (301-349, 357-407): the bucket and the leftover. -/
def split (sort : Map Profile → List Nat → List Nat) (profiles : Map Profile) (n : Nat) (candidates : List Nat) : Option (List Nat × List Nat) := do
  let marked ← candidates.mapM fun r => (profiles.get r).map fun p => (r, p.tracked)
  let tracked := (marked.filter (·.2)).map (·.1)
  let untracked := (marked.filter (! ·.2)).map (·.1)
  if tracked = [] then return ([], untracked)
  else
    let sorted := sort profiles tracked
    return (sorted.take n, sorted.drop n)

/-- `ProfileStorage::new` (254-422) from the parsed router infos and the profiles, whose name is `none` if it is not base64 (272).
`NUM_HIGH_CAPACITY_ROUTERS` = 100, `NUM_STANDARD_ROUTERS` = 300 (51-54). -/
def Store.new (sort : Map Profile → List Nat → List Nat) (routers : List (Nat × Info)) (profiles : List (Option Nat × Profile)) : Option Store := do
  let routers : Map Info := routers.foldl (fun m e => m.insert e.1 e.2) []
  let named ← profiles.mapM fun e => e.1.map fun id => (id, e.2)
  let profiles : Map Profile := (named.filter fun e => routers.has e.1).foldl (fun m e => m.insert e.1 e.2) []
  let profiles : Map Profile := routers.foldl (fun m e => if m.has e.1 then m else m.insert e.1 {}) profiles
  let usable := routers.filter fun e => e.2.reachable && e.2.usable
  let (fast, rest) ← split sort profiles 100 ((usable.filter (·.2.fast)).map (·.1))
  let (standard, untracked) ← split sort profiles 300 (((usable.filter (! ·.2.fast)).map (·.1)) ++ rest)
  return { untracked, fast, standard, profiles, routers }

/-- `add_router` (425-467). -/
def Store.addRouter (s : Store) (id : Nat) (info : Info) : Store × Bool :=
  if !info.reachable || !info.usable then (s, false)
  else if !info.ntcp2Reachable then (s, false)
  else
    let s := if info.fast then { s with fast := setInsert s.fast id, standard := setRemove s.standard id }
      else { s with standard := setInsert s.standard id, fast := setRemove s.fast id }
    let known := s.routers.has id
    let s := { s with routers := s.routers.insert id info }
    (if known then s else { s with profiles := s.profiles.insert id {} }, true)

/-- `discover_router` (470-481). -/
def Store.discoverRouter (s : Store) (id : Nat) (info : Info) (serialized : Bytes) : Store × Bool :=
  let (s, ok) := s.addRouter id info
  (if ok then { s with discovered := s.discovered.insert id serialized } else s, ok)

/-- profile.rs 57-69, 508-566. -/
inductive Bucket where
  | any
  | fast
  | standard
  | untracked
deriving Repr, DecidableEq

/-- profile.rs 57-69, 508-566. -/
def Store.bucket (s : Store) : Bucket → List Nat
  | .any => s.fast ++ s.standard ++ s.untracked
  | .fast => s.fast
  | .standard => s.standard
  | .untracked => s.untracked

/-- The loop of `get_router_ids` (500-568). -/
def Store.collect (s : Store) (filter : Nat → Info → Profile → Option Bool) : List Nat → Option (List Nat)
  | [] => some []
  | id :: ids => do
    let profile ← s.profiles.get id
    let info ← s.routers.get id
    let keep ← filter id info profile
    let rest ← s.collect filter ids
    return if keep then id :: rest else rest

/-- profile.rs 500-568. -/
def Store.getRouterIds (s : Store) (b : Bucket) (filter : Nat → Info → Profile → Option Bool) : Option (List Nat) :=
  s.collect filter (s.bucket b)

/-- What is recorded about a router (588-711). -/
inductive Event where
  | selected
  | unselected
  | accepted
  | rejected
  | notAnswered
  | testSucceeded
  | testFailed
  | dialSucceeded
  | dialFailed
deriving Repr, DecidableEq

/-- The effect of an event on the profile. profile.rs 588-711. -/
def Profile.record (now : Duration) (p : Profile) : Event → Profile
  | .selected => { p with selected := p.selected + 1 }
  | .unselected => { p with selected := p.selected - 1 }
  | .accepted => { p with accepted := p.accepted + 1, lastActivity := now, lastDeclined := none }
  | .rejected => { p with rejected := p.rejected + 1, lastActivity := now, lastDeclined := some now }
  | .notAnswered => { p with unanswered := p.unanswered + 1, lastActivity := now, lastDeclined := some now }
  | .testSucceeded => { p with testSuccesses := p.testSuccesses + 1, lastActivity := now }
  | .testFailed => { p with testFailures := p.testFailures + 1, lastActivity := now }
  | .dialSucceeded => { p with connections := p.connections + 1, lastActivity := now }
  | .dialFailed => { p with dialFailures := p.dialFailures + 1, lastActivity := now, lastDialFailure := some now }

/-- The functions that record an event: those about dials create the profile (672-711), the others expect it. -/
def Store.record (s : Store) (now : Duration) (id : Nat) (e : Event) : Option Store :=
  match s.profiles.get id with
  | some _ => some { s with profiles := s.profiles.update id fun p => p.record now e }
  | none => match e with
    | .dialSucceeded | .dialFailed => some { s with profiles := s.profiles.insert id (({} : Profile).record now e) }
    | _ => none

/-- `backup` (741-755): every profile, and the router infos discovered since the last backup. -/
def Store.backup (s : Store) : Store × List (Nat × Option Bytes × Profile) :=
  ({ s with discovered := s.discovered.filter fun e => !s.profiles.has e.1 },
   s.profiles.map fun e => (e.1, s.discovered.get e.1, e.2))

/-- One router in the loop of the maintenance task (868-888); the state is fast, standard, untracked. -/
def place (routers : Map Info) (b : List Nat × List Nat × List Nat) (id : Nat) : List Nat × List Nat × List Nat :=
  match routers.get id with
  | none => b
  | some info =>
    if !info.reachable then b
    else if info.fast && b.1.length < 100 then (setInsert b.1 id, b.2)
    else if b.2.1.length < 300 then (b.1, setInsert b.2.1 id, b.2.2)
    else (b.1, b.2.1, setInsert b.2.2 id)

/-- One round of the maintenance task (814-895). The first fold collects sets, so a router in two buckets counts once. -/
def Store.maintain (sort : Map Profile → List Nat → List Nat) (s : Store) : Option Store := do
  let marked ← (s.bucket .any).mapM fun r => (s.profiles.get r).map fun p => (r, p.tracked)
  let tracked := ((marked.filter (·.2)).map (·.1)).foldl setInsert []
  let none := ((marked.filter (! ·.2)).map (·.1)).foldl setInsert []
  if tracked = [] then return s
  else
    let b := (sort s.profiles tracked).foldl (place s.routers) ([], [], [])
    return { s with fast := b.1, standard := b.2.1, untracked := none.foldl setInsert b.2.2 }

/-- What happens to the storage. Not in the code: the events that the theorems quantify over. -/
inductive Op where
  | add (id : Nat) (info : Info)
  | discover (id : Nat) (info : Info) (serialized : Bytes)
  | record (now : Duration) (id : Nat) (e : Event)
  | maintain
  | backup

/-- One step; `none` is a failed `expect`. Not in the code: one event, handled by the definitions above. -/
def Store.step (sort : Map Profile → List Nat → List Nat) (s : Store) : Op → Option Store
  | .add id info => some (s.addRouter id info).1
  | .discover id info b => some (s.discoverRouter id info b).1
  | .record now id e => s.record now id e
  | .maintain => s.maintain sort
  | .backup => some s.backup.1

/-- Not in the code: a fold of the steps. -/
def Store.run (sort : Map Profile → List Nat → List Nat) : Store → List Op → Option Store
  | s, [] => some s
  | s, o :: os => do Store.run sort (← s.step sort o) os

end Emissary.Profile
