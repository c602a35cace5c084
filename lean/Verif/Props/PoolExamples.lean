import Verif.Props.PoolFaults
/-!
# C129 to C134: cases that meet the hypotheses
-/
namespace Emissary.Pool
open Emissary Emissary.Routing

instance (s : State) (i : Input) : Decidable (Fresh s i) :=
  decidable_of_iff (((i.outDraws.filterMap id).Nodup ∧ ∀ x ∈ i.outDraws.filterMap id, x ∉ s.outbound ∧ x ∉ s.pendingOut) ∧
      ((i.inDraws.filterMap id).Nodup ∧ ∀ x ∈ i.inDraws.filterMap id, x ∉ s.pendingIn ∧ ∀ t ∈ s.inbound, t.id ≠ x) ∧
      (((i.ins.filterMap (·.2)).map (·.1)).Nodup ∧ ∀ r ∈ i.ins.filterMap (·.2), ∀ t ∈ s.inbound, t.gateway ≠ r.1))
    ⟨fun ⟨a, b, c⟩ => ⟨⟨a.1, fun x hx => a.2 x (by simpa using hx)⟩, ⟨b.1, fun x hx => b.2 x (by simpa using hx)⟩, c⟩,
      fun ⟨a, b, c⟩ => ⟨⟨a.1, fun x hx => a.2 x (by simpa using hx)⟩, ⟨b.1, fun x hx => b.2 x (by simpa using hx)⟩, c⟩⟩

instance (chk : Bool) (s : State) (i : Input) : Decidable (Prompt chk s i) :=
  decidable_of_iff (i.now < s.clock + 15000 ∧ (∀ r ∈ i.ins.filterMap (·.2), i.now ≤ r.2 + 15000) ∧ (∀ x ∈ (s.poll chk i).1.timers, i.now < x.1 + 15000) ∧
      (∀ t ∈ (s.poll chk i).1.tests, i.now < t.started + 15000))
    ⟨fun ⟨a, b, c, d⟩ => ⟨a, b, c, d⟩, fun ⟨a, b, c, d⟩ => ⟨a, b, c, d⟩⟩

instance (chk : Bool) (s : State) (i : Input) : Decidable (Supplied chk s i) :=
  decidable_of_iff (((∀ d ∈ i.outDraws, d.isSome) ∧ s.numOut + (s.poll chk i).1.expiringOut.length ≤ i.outDraws.length) ∧
      ((∀ d ∈ i.inDraws, d.isSome) ∧ s.numIn + (s.poll chk i).1.expiringIn.length ≤ i.inDraws.length))
    ⟨fun ⟨a, b⟩ => ⟨a, b⟩, fun ⟨a, b⟩ => ⟨a, b⟩⟩

def Good.dec (chk : Bool) : (s : State) → (ops : List Op) → Decidable (Good chk s ops)
  | _, [] => .isTrue trivial
  | s, .poll i :: ops =>
    let _ := Good.dec chk (s.step chk (.poll i)) ops
    inferInstanceAs (Decidable (Fresh s i ∧ Prompt chk s i ∧ Good chk (s.step chk (.poll i)) ops))
  | s, .read :: ops => Good.dec chk (s.step chk .read) ops
instance (chk : Bool) (s : State) (ops : List Op) : Decidable (Good chk s ops) := Good.dec chk s ops

def FreshRun.dec (chk : Bool) : (s : State) → (ops : List Op) → Decidable (FreshRun chk s ops)
  | _, [] => .isTrue trivial
  | s, .poll i :: ops =>
    let _ := FreshRun.dec chk (s.step chk (.poll i)) ops
    inferInstanceAs (Decidable (Fresh s i ∧ FreshRun chk (s.step chk (.poll i)) ops))
  | s, .read :: ops => FreshRun.dec chk (s.step chk .read) ops
instance (chk : Bool) (s : State) (ops : List Op) : Decidable (FreshRun chk s ops) := FreshRun.dec chk s ops

def SuppliedRun.dec (chk : Bool) : (s : State) → (ops : List Op) → Decidable (SuppliedRun chk s ops)
  | _, [] => .isTrue trivial
  | s, .poll i :: ops =>
    let _ := SuppliedRun.dec chk (s.step chk (.poll i)) ops
    inferInstanceAs (Decidable (Supplied chk s i ∧ SuppliedRun chk (s.step chk (.poll i)) ops))
  | s, .read :: ops => SuppliedRun.dec chk (s.step chk .read) ops
instance (chk : Bool) (s : State) (ops : List Op) : Decidable (SuppliedRun chk s ops) := SuppliedRun.dec chk s ops

def Monotone.dec (chk : Bool) : (s : State) → (ops : List Op) → Decidable (Monotone chk s ops)
  | _, [] => .isTrue trivial
  | s, .poll i :: ops =>
    let _ := Monotone.dec chk (s.step chk (.poll i)) ops
    inferInstanceAs (Decidable (s.clock ≤ i.now ∧ Monotone chk (s.step chk (.poll i)) ops))
  | s, .read :: ops => Monotone.dec chk (s.step chk .read) ops
instance (chk : Bool) (s : State) (ops : List Op) : Decidable (Monotone chk s ops) := Monotone.dec chk s ops

instance (s : State) (i : Input) : Decidable (Failure s i) :=
  inferInstanceAs (Decidable (((i.outs.map (·.1)).Nodup ∧ ∃ id ∈ s.pendingOut, (id, false) ∈ i.outs) ∨ ((i.ins.map (·.1)).Nodup ∧ ∃ id ∈ s.pendingIn, (id, none) ∈ i.ins)))

/-- A pool with two tunnels of each kind: they are built, one build fails and is repeated. -/
def startup : List Op :=
  [.poll { now := 0, outDraws := [some 1, some 2], inDraws := [some 3, some 4] },
   .poll { now := 2000, outs := [(1, true)], ins := [(3, some (30, 1900))] }, .read,
   .poll { now := 3000, outs := [(2, false)], ins := [(4, some (40, 2900))], outDraws := [some 5, some 6], inDraws := [some 7, some 8] }, .read, .read,
   .poll { now := 5000, outs := [(5, true)] }]

/-- Polls every ten seconds. -/
def idle (from_ n : Nat) : List Op := (List.range n).map fun k => .poll { now := from_ + 10000 * k }

/-- The pool until its first tunnels are about to expire. -/
def aged : List Op :=
  startup ++ idle 14000 53 ++
    [.poll { now := 543500, fired := [(542000, .rebuildOut 1), (542000, .rebuildIn 30), (543000, .rebuildIn 40)] },
     .poll { now := 549000, fired := [(545000, .rebuildOut 5)], outDraws := [some 11, some 12, some 13, some 14], inDraws := [some 15, some 16, some 17, some 18] }]

/-- C129: what the bound says of this pool, which really has that many tunnels. -/
example : Good true (State.init 2 2 0) aged ∧ ((State.init 2 2 0).run true aged).running = true ∧ usableOut ((State.init 2 2 0).run true aged) = 2 ∧
    usableIn ((State.init 2 2 0).run true aged) = 2 ∧ ((State.init 2 2 0).run true aged).outbound.length = 2 ∧ ((State.init 2 2 0).run true aged).pendingOut = [11, 12] ∧
    ((State.init 2 2 0).run true aged).expiringOut = [5, 1] := by decide +kernel
example := C129_bound_partial true 2 2 0 aged (by decide +kernel)

/-- C130: a failed build is repeated. -/
example : Good true (State.init 2 2 0) (startup.take 3) ∧
    (fun s i => Fresh s i ∧ Prompt true s i ∧ (s.poll true i).1.running = true ∧ Failure s i ∧ ¬ s.maintenance ≤ i.now ∧ Supplied true s i) ((State.init 2 2 0).run true (startup.take 3))
      { now := 3000, outs := [(2, false)], ins := [(4, some (40, 2900))], outDraws := [some 5, some 6], inDraws := [some 7, some 8] } := by decide +kernel

/-- C130: ten seconds. -/
def tenSeconds : List Op :=
  [.poll { now := 6000, outDraws := [some 11, some 12], inDraws := [some 13, some 14] }, .read, .poll { now := 15000, outDraws := [some 11, some 12], inDraws := [some 13, some 14] }]
theorem tenSeconds_last : ∃ i, .poll i ∈ tenSeconds ∧ ((State.init 2 2 0).run true startup).clock + 10000 ≤ i.now := by
  refine ⟨{ now := 15000, outDraws := [some 11, some 12], inDraws := [some 13, some 14] }, by simp [tenSeconds], ?_⟩
  have e : ((State.init 2 2 0).run true startup).clock = 5000 := by decide +kernel
  rw [e]
  exact Nat.le_refl 15000
example := C130_ten_seconds true 2 2 0 startup tenSeconds (by decide +kernel) (by decide +kernel) ((State.init 2 2 0).run true startup) rfl (by decide +kernel) (by decide +kernel) tenSeconds_last

/-- C131: the owner of this pool has read all events and knows the tunnels. -/
example : (fun s : State => (∀ x ∈ s.log, x.2 = true) ∧ s.queue.queue = [] ∧ s.outbound = [5, 1] ∧ s.got.length = 4) ((State.init 2 2 0).run true (startup ++ [.read])) := by decide +kernel
def readAll : List Op := startup ++ [.read]
example : UpOut ((State.init 2 2 0).run true readAll).got 5 := by
  have h1 : ∀ x ∈ ((State.init 2 2 0).run true readAll).log, x.2 = true := by decide +kernel
  have h2 : ((State.init 2 2 0).run true readAll).queue.queue = [] := by decide +kernel
  have h3 : 5 ∈ ((State.init 2 2 0).run true readAll).outbound := by decide +kernel
  have key := C131_view_partial true 2 2 0 readAll
  generalize (State.init 2 2 0).run true readAll = s at *
  exact ((key s rfl h1 h2).1 5).1 h3

/-- C131: an owner that does not read. -/
def unread : List Op :=
  [.poll { now := 0, outDraws := (List.range 70).map some }, .poll { now := 1000, outs := (List.range 64).map fun n => (n, true) }]
example : 64 ∈ (((State.init 0 70 0).run true unread).step true (.poll { now := 2000, outs := [(64, true)] })).outbound ∧
    Event.outboundBuilt 64 ∉ ((((State.init 0 70 0).run true unread).step true (.poll { now := 2000, outs := [(64, true)] })).run true (List.replicate 100 .read)).got :=
  C131_lost_violated true 0 70 0 unread (by decide +kernel) _ rfl (by decide +kernel) 64 (by decide +kernel) (by decide +kernel) (by decide +kernel) _ (by decide) (by decide) _
    (fun j hj => by have := List.eq_of_mem_replicate hj; cases this)

/-- C129: the pool was not polled for eleven minutes. -/
def short : List Op :=
  [.poll { now := 0, outDraws := [some 1], inDraws := [some 2] }, .poll { now := 1000, outs := [(1, true)], ins := [(2, some (20, 1000))] }]
example : 1 + 1 ≤ usableIn ((((State.init 1 1 0).run true short).step true (.poll { now := 700000, ended := [⟨2, 20, 601000⟩], fired := [(541000, .rebuildIn 20)] })).poll true
    { now := 720000, outDraws := [some 3, some 4], inDraws := [some 5, some 6] }).1 :=
  C129_late_violated true 1 1 0 short _ rfl (by decide +kernel) ⟨2, 20, 601000⟩ (by decide +kernel) 541000 (by decide +kernel) 700000 (by decide) (by decide) []
    { now := 720000, outDraws := [some 3, some 4], inDraws := [some 5, some 6] } (by decide +kernel) (fun j hj r hr => by simp at hj; subst hj; cases hr) _ rfl (by decide +kernel)
    (by decide +kernel) (by decide +kernel)

/-- C132: the routing table while the pool runs, and after its shutdown. -/
example : FreshRun true (State.init 2 2 0) aged ∧ ((State.init 2 2 0).run true aged).table = [3, 4, 15, 16] ∧ ((State.init 2 2 0).run true aged).pendingIn = [15, 16] := by decide +kernel
example := C132_table true 2 2 0 aged (by decide +kernel) _ rfl (by decide +kernel)
example : 15 ∈ ((((State.init 2 2 0).run true aged).step true (.poll { now := 550000, shutdown := true })).run true [.read]).table :=
  ((C132_shutdown_violated true 2 2 0 aged (by decide +kernel) _ rfl (by decide +kernel) 550000 [.read]).1 15).2 (by decide +kernel)

/-- C133: a test is under way and ends. -/
def testing : List Op := startup ++ [.poll { now := 16000, outOrder := [5, 1], inOrder := [30, 40], sent := [true, true] }]
example : Good true (State.init 2 2 0) testing ∧ ((State.init 2 2 0).run true testing).tests = [⟨5, 30, 16000⟩, ⟨1, 40, 16000⟩] := by decide +kernel
example : (((State.init 2 2 0).run true testing).poll true { now := 17000, tested := [⟨5, 30, 16000⟩] }).2 ≠ .panic :=
  C133_no_panic true 2 2 0 testing (by decide +kernel) _ rfl _ (by decide +kernel) (by decide +kernel)

/-- C134: the pool runs, and a crash ends it. -/
example : ((State.init 2 2 0).run true testing).running = true :=
  C134_runs_partial true 2 2 0 testing (by decide +kernel) (fun i hi => by
    simp only [testing, startup, List.cons_append, List.nil_append, List.mem_cons, Op.poll.injEq, reduceCtorEq, List.not_mem_nil, or_false, false_or] at hi
    rcases hi with rfl | rfl | rfl | rfl | rfl <;> exact ⟨rfl, rfl⟩)
example : (((State.init 2 2 0).run true testing).step true (.poll { now := 18000, crashed := true })).table = [3, 4] := by decide +kernel
example := C134_crash_violated true ((State.init 2 2 0).run true testing) (by decide +kernel) 18000 [] _ rfl

end Emissary.Pool
