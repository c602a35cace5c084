import Verif.Model.Profile
/-!
# Selecting the hops of a tunnel and counting participation

Models `tunnel/pool/selector.rs` and `util::shuffle` (util/mod.rs 171-178). Simplifications: router hashes are numbers, keys of routers
are left out, the comparison of `f64` quotients is the comparison of products (exact below 2^46 tunnels), and the iteration order of
hash maps is that of lists, which the shuffles that follow make irrelevant. The random numbers are parameters.
-/
namespace Emissary.Profile
open Emissary.I2np (Duration)

/-! ## Shuffling -/

/-- Standard or external library, not in /repo. -/
def swap (l : List α) (i j : Nat) : List α :=
  match l[i]?, l[j]? with
  | some a, some b => (l.set i b).set j a
  | _, _ => l

/-- `shuffle` (util/mod.rs 171-178); `draw i` is the random number used for position `i`. -/
def shuffle (draw : Nat → Nat) (l : List α) : List α :=
  (List.range' 1 (l.length - 1)).reverse.foldl (fun l i => swap l i (draw i % (i + 1))) l

/-! ## Subnets -/

/-- Not in the code: a helper of the model. -/
abbrev Subnet := UInt8 × UInt8

/-- The IPv4 addresses of a router, as a set (163-182). -/
def ips (i : Info) : List (UInt8 × UInt8 × Nat) :=
  let all := [i.ntcp2, i.ssu2].filterMap fun a => match a with
    | some (.v4 a b rest) => some (a, b, rest)
    | _ => none
  match all with
  | [a, b] => if a = b then [a] else [a, b]
  | l => l

/-- `grouped.entry(k).or_default().push(r)` (195). -/
def groupAdd : List (Subnet × List Nat) → Subnet → Nat → List (Subnet × List Nat)
  | [], k, r => [(k, [r])]
  | g :: gs, k, r => if g.1 = k then (k, g.2 ++ [r]) :: gs else g :: groupAdd gs k r

/-- `group_by_subnet` (152-201). -/
def groupBySubnet (s : Store) (ids : List Nat) : List (Subnet × List Nat) :=
  ids.foldl (fun g r => match s.routers.get r with
    | none => g
    | some i => (ips i).foldl (fun g a => groupAdd g (a.1, a.2.1) r) g) []

/-- Not in the code: a helper of the model. -/
def hasSubnet (l : List (Subnet × α)) (k : Subnet) : Bool := l.any (·.1 = k)

/-! ## Participation counts -/

/-- A tunnel of a pool (0 is the exploratory pool), in a direction, with an id. -/
structure Key where
  pool : Nat
  inbound : Bool
  id : Nat
deriving Repr, DecidableEq

/-- The counts shared by all selectors (120-130) and the maps of active tunnels of all of them (114-124, 640-644), which are one map
here, as its keys contain the pool and the direction. -/
structure Counts where
  parts : Nat → Nat := fun _ => 0
  total : Nat := 0
  active : List (Key × List Nat) := []

/-- Not in the code: a helper of the model. -/
def findKey (l : List (Key × List Nat)) (k : Key) : Option (List Nat) := (l.find? (·.1 = k)).map (·.2)

/-- `add_tunnel` (203-211) for the routers of a set. -/
def incr (f : Nat → Nat) (hops : List Nat) : Nat → Nat := hops.foldl (fun f r x => if x = r then f x + 1 else f x) f

/-- One iteration of the loop of `remove_tunnel` (225-240); a count of one is removed from the map, which is a count of zero. `none` is the
debug assertion. -/
def decrOne (chk : Bool) (f : Nat → Nat) (r : Nat) : Option (Nat → Nat) :=
  if f r = 0 then if chk then none else some f
  else some fun x => if x = r then f x - 1 else f x

/-- `remove_tunnel` (213-241). `fetch_sub` wraps around. -/
def Counts.removeTunnel (chk : Bool) (c : Counts) (hops : List Nat) : Option Counts :=
  if c.total = 0 ∧ chk = true then none
  else do
    let parts ← hops.foldlM (decrOne chk) c.parts
    return { c with total := if c.total = 0 then 2 ^ 64 - 1 else c.total - 1, parts }

/-- Not in the code: the events that the theorems quantify over. -/
inductive SelOp where
  /-- `add_{in,out}bound_tunnel` (272-285, 674-687) -/
  | add (k : Key) (hops : List Nat)
  /-- `remove_{in,out}bound_tunnel` (287-297, 689-699) -/
  | remove (k : Key)
  /-- a client pool shuts down and its selector is dropped (pool/mod.rs 1409-1438) -/
  | dropPool (pool : Nat)

/-- The hops are a `HashSet`. Not in the code: one event, handled by the definitions above. -/
def Counts.step (chk : Bool) (c : Counts) : SelOp → Option Counts
  | .add k hops =>
    let hops := hops.foldl setInsert []
    some { parts := incr c.parts hops, total := c.total + 1, active := (c.active.filter (·.1 ≠ k)) ++ [(k, hops)] }
  | .remove k => match findKey c.active k with
    | none => some c
    | some hops => Counts.removeTunnel chk { c with active := c.active.filter (·.1 ≠ k) } hops
  | .dropPool p => some { c with active := c.active.filter (·.1.pool ≠ p) }

/-- Not in the code: a fold of the steps. -/
def Counts.run (chk : Bool) : Counts → List SelOp → Option Counts
  | c, [] => some c
  | c, o :: os => do Counts.run chk (← c.step chk o) os

/-- `can_participate` (243-256); `MAX_PARTICIPATION` is 0.33. -/
def canParticipate (c : Counts) (r : Nat) : Bool := c.total = 0 || decide (100 * c.parts r < 33 * c.total)

/-! ## Hops -/

/-- The random choices: the number drawn for a subnet and the draws of the shuffles.
Not in the code: what the model takes as given, for every value of it. -/
structure Draws where
  pick : Subnet → Nat
  shuffle : Nat → Nat → Nat

/-- `addresses[next_u32() % len]` (472, 589). -/
def pickOne (d : Draws) (g : Subnet × List Nat) : Option (Subnet × Nat) := (g.2[d.pick g.1 % g.2.length]?).map fun r => (g.1, r)

/-- `routers.pop().expect(..)` (554, 566, 576). -/
def popOne (g : Subnet × List Nat) : Option (Subnet × Nat) := g.2.getLast?.map fun r => (g.1, r)

/-- What hop selection uses; the exploratory selector prefers standard, the client selector fast routers.
tunnel/pool/selector.rs 110-130, 633-660. -/
structure Sel where
  store : Store
  counts : Counts
  insecure : Bool
  exploratory : Bool

/-- tunnel/pool/selector.rs 379, 394, 478 (exploratory), 765, 780, 866 (client). -/
def Sel.first (S : Sel) : Bucket := if S.exploratory then .standard else .fast
/-- tunnel/pool/selector.rs 379, 394, 478 (exploratory), 765, 780, 866 (client). -/
def Sel.second (S : Sel) : Bucket := if S.exploratory then .fast else .standard

/-- The filters of `get_router_ids` (380-386, 477-484, 497-504, 523-528 and the insecure ones 393-431). -/
def Sel.good (S : Sel) (now : Duration) (r : Nat) (i : Info) (p : Profile) : Option Bool := do
  let f ← p.isFailing now
  return !f && i.reachable && (S.insecure || canParticipate S.counts r)

/-- tunnel/pool/selector.rs 380-386, 477-484, 497-504, 523-528. -/
def Sel.best (S : Sel) (now : Duration) (r : Nat) (i : Info) (p : Profile) : Option Bool := do
  let f ← p.isFailing now
  return !f && i.reachable && i.usable && (S.insecure || canParticipate S.counts r)

/-- tunnel/pool/selector.rs 393-431. -/
def Sel.anyone (S : Sel) (r : Nat) (i : Info) (_ : Profile) : Option Bool := some (i.reachable && (S.insecure || canParticipate S.counts r))

/-- The routers of the insecure mode (388-439, 774-828): the inner `none` is the return of `None`. -/
def Sel.insecureHops (S : Sel) (now : Duration) (d : Draws) (n : Nat) (ids : List Nat) : Option (Option (List Nat)) := do
  let ids := shuffle (d.shuffle 0) ids
  if ids.length < n then do
    let need := n - ids.length
    let extra ← S.store.getRouterIds S.second (S.good now)
    let extra ← (if need > extra.length then do
        let more ← S.store.getRouterIds .untracked (S.good now)
        pure ((extra ++ more).foldl setInsert [])
      else pure extra)
    let extra ← (if need > extra.length then do
        let more ← S.store.getRouterIds .any S.anyone
        pure ((extra ++ more).foldl setInsert [])
      else pure extra)
    if need > extra.length then return none
    else return some (ids ++ (shuffle (d.shuffle 1) extra).take need)
  else return some ids

/-- The routers of the secure mode with the subnet each was chosen for (462-595, 850-988). Groups that are not computed are empty; the
`expect` at 537 is only reached if the condition at 496 held. -/
def Sel.secureHops (S : Sel) (now : Duration) (d : Draws) (n : Nat) (ids : List Nat) : Option (Option (List (Subnet × Nat))) := do
  let groups := groupBySubnet S.store ids
  if groups.length < n then do
    let routers ← groups.mapM (pickOne d)
    let second := (groupBySubnet S.store (← S.store.getRouterIds S.second (S.good now))).filter fun g => !hasSubnet routers g.1
    let untracked ← (if routers.length + second.length < n then do
        let ids ← S.store.getRouterIds .untracked (S.good now)
        pure ((groupBySubnet S.store ids).filter fun g => !hasSubnet routers g.1 && !hasSubnet second g.1)
      else pure [])
    let failing ← (if routers.length + second.length + untracked.length < n then do
        let ids ← S.store.getRouterIds .any S.anyone
        pure ((groupBySubnet S.store ids).filter fun g => !hasSubnet routers g.1 && !hasSubnet second g.1 && !hasSubnet untracked g.1)
      else pure [])
    if routers.length + second.length + untracked.length + failing.length < n then return none
    else do
      let second ← second.mapM popOne
      let untracked ← untracked.mapM popOne
      let failing ← failing.mapM popOne
      return some (shuffle (d.shuffle 0) routers ++ shuffle (d.shuffle 1) second ++ shuffle (d.shuffle 2) untracked ++
        shuffle (d.shuffle 3) failing)
  else do
    let routers ← groups.mapM (pickOne d)
    return some (shuffle (d.shuffle 0) routers)

/-- The end of `select_hops` (597-618): the profiles record the selection, and the router infos are looked up. -/
def Sel.finish (S : Sel) (now : Duration) (n : Nat) (l : List Nat) : Option (List Nat × Store) := do
  let store ← (l.take n).foldlM (fun (s : Store) r => s.record now r .selected) S.store
  let hops ← (List.range n).mapM fun i => do
    let r ← l[i]?
    let _ ← store.routers.get r
    return r
  return (hops, store)

/-- `select_hops` (377-619, 763-1013). The outer `none` is a panic, the inner one the return of `None`. -/
def Sel.selectHops (S : Sel) (now : Duration) (d : Draws) (n : Nat) : Option (Option (List Nat × Store)) := do
  let ids ← S.store.getRouterIds S.first (S.best now)
  let chosen ← (if S.insecure then S.insecureHops now d n ids else do
    let l ← S.secureHops now d n ids
    pure (l.map fun l => l.map (·.2)))
  match chosen with
  | none => return none
  | some l => do
    let out ← S.finish now n l
    return some out

end Emissary.Profile
