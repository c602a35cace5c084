import Verif.Props.TunnelTransit
import Verif.Props.Ssu2Handshake
import Verif.Props.Primitives
/-!
# Tunnel building: the hypotheses of C43 and C101-C107 are met by a concrete run

Two routers, toy primitives whose digests are long enough, builds in both directions, a refusal and the effects of each.
-/
namespace Emissary.TBuild
open Emissary Emissary.I2np Emissary.Build Emissary.Prim
open Emissary.Ssu2 (Prims)

/-- The toy primitives with digests of 8 bytes. -/
def toyQ : Prims where
  toCrypto := Ssu2.toyC
  sha b := List.replicate 8 (b.foldl (· + ·) 1)
  hmac k d := List.replicate 8 (k.foldl (· + ·) 5 ^^^ d.foldl (· + ·) 9)
  dh a b := [a.headD 0 + b.headD 0]
  pub a := a.headD 0 :: List.replicate 31 0
  info _ := none

theorem toyQ_lawful : toyQ.Lawful :=
  ⟨Ssu2.toyC_lawful, fun a b => by simp [toyQ, UInt8.add_comm], fun a => by simp [toyQ]⟩

theorem toyQ_digests : Digests toyQ := ⟨fun _ => by simp [toyQ], fun _ _ => by simp [toyQ]⟩

/-- `NoClash`, as a computation. -/
def noClash (P : Prims) (E : Env) : Nat → List (Transit × Duration) → Message → Bool
  | _, [], _ => true
  | i, (t, now) :: rest, m =>
    ((records 218 m.payload).take i).all (fun r => r.take 16 ≠ t.hash.take 16) &&
    match t.handleShort P E now m with
    | some (_, r) => match Message.parseShort r.message with
      | some (m', _) => noClash P E (i + 1) rest m'
      | none => true
    | none => true

theorem noClash_sound (P : Prims) (E : Env) : ∀ i nodes m, noClash P E i nodes m = true → NoClash P E i nodes m
  | _, [], _, _ => trivial
  | i, (t, now) :: rest, m, h => by
    simp only [noClash, Bool.and_eq_true, List.all_eq_true, decide_eq_true_eq] at h
    refine ⟨h.1, fun t' r m' tail h1 h2 => ?_⟩
    have h3 := h.2
    simp only [h1, h2] at h3
    exact noClash_sound P E _ _ _ h3

/-- A router that takes up to `max` transit tunnels. -/
def router (k : UInt8) (max : Nat) : Transit :=
  { sk := [k], hash := List.replicate 32 k, config := some (some max),
    table := { localId := List.replicate 32 k, transit := ⟨64, [], false⟩, manager := ⟨64, [], false⟩ } }

def demoRnd : Rnd := ⟨1, fun i => 1000 + i % 8, fun i => [UInt8.ofNat (40 + i)], fun i n => List.replicate n (UInt8.ofNat i),
  fun _ => List.replicate 218 9, [77]⟩

def demoNodes (max : Nat) : List (Transit × Duration) := [(router 3 1, 60000000000), (router 4 max, 61000000000)]

def demoParams (dir : Direction) : Params where
  dir := dir
  hops := [(List.replicate 32 3, toyQ.pub [3]), (List.replicate 32 4, toyQ.pub [4])]
  messageId := 555
  gateway := 777
  tunnelId := 888
  router := List.replicate 32 5
  now := 60000000000

theorem num1 : 60000000000 + 10000000000 < 2 ^ 32 * 1000000000 := by decide
theorem num2 : 60000000000 + 8000000000 < 2 ^ 32 * 1000000000 := by decide
theorem num3 : 61000000000 + 8000000000 < 2 ^ 32 * 1000000000 := by decide

theorem demo_sane (dir : Direction) (max : Nat) : Sane toyQ (demoParams dir) demoRnd (demoNodes max) where
  hops := rfl
  some := by simp [demoNodes]
  few := by simp [demoNodes]
  hash := by simp [demoNodes, router]
  router := by simp [demoParams]
  mid := by show (555 : Nat) < 4294967296; omega
  gateway := by show (777 : Nat) < 4294967296; omega
  ids := fun i => show 1000 + i % 8 < 4294967296 by omega
  pad := by simp [demoRnd]
  fake := fun _ => List.length_replicate
  now := num1
  clocks := by
    intro n hn
    rcases List.mem_cons.mp hn with rfl | hn
    · exact num2
    · rw [List.mem_singleton.mp hn]; exact num3

/-- The run of an outbound build up to the creator's conclusion: no clash, the answers, the number of tunnels of each router
afterwards and the conclusion. -/
def demoOut (max : Nat) : Option (Bool × List (Bool × Nat) × Built) :=
  match create toyQ (demoParams .outbound) demoRnd with
  | some (.ok (pending, first, m)) => do
    let (m0, _) ← Message.parseShort m.serializeShort
    let (answers, _, reply) ← relay toyQ Env.sample (demoNodes max) first m0
    let (gw, _) ← TunnelGateway.parse reply.payload
    let (g, _) ← Message.parseStandard gw.payload
    return (noClash toyQ Env.sample 0 (demoNodes max) m0, answers.map fun a => (a.2, a.1.tunnels.length), tryBuild toyQ pending g)
  | _ => none

/-- Both agree: a tunnel with two hops. -/
example : (demoOut 1).map (fun r => (r.1, r.2.1, match r.2.2 with | .tunnel hops => hops.map (·.tunnelId) | _ => [])) =
    some (true, [(true, 1), (true, 1)], [1000, 1001]) := by decide +kernel

/-- The second refuses (it has no room): the build fails, and the report has the answers the wrong way round (C103). -/
example : demoOut 0 = some (true, [(true, 1), (false, 0)],
    .failed [(List.replicate 32 4, some .accepted), (List.replicate 32 3, some (.rejected 30))]) := by decide +kernel

/-- An inbound build. -/
def demoIn (max : Nat) : Option (Bool × List (Bool × Nat) × Built) :=
  match create toyQ (demoParams .inbound) demoRnd with
  | some (.ok (pending, first, m)) => do
    let (m0, _) ← Message.parseShort m.serializeShort
    match ← handleGarlic toyQ [3] 60000000000 1 m0 with
    | [.localMsg m1] => do
      let (answers, _, reply) ← relay toyQ Env.sample (demoNodes max) first m1
      return (noClash toyQ Env.sample 0 (demoNodes max) m1, answers.map fun a => (a.2, a.1.tunnels.length), tryBuild toyQ pending reply)
    | _ => none
  | _ => none

example : (demoIn 1).map (fun r => (r.1, r.2.1, match r.2.2 with | .tunnel hops => hops.map (·.tunnelId) | _ => [])) =
    some (true, [(true, 1), (true, 1)], [1000, 1001]) := by decide +kernel

example : demoIn 0 = some (true, [(true, 1), (false, 0)],
    .failed [(List.replicate 32 4, some .accepted), (List.replicate 32 3, some (.rejected 30))]) := by decide +kernel

/-- C101 and C103 apply to the run. -/
example := C101_outbound_build toyQ_lawful toyQ_digests Env.sample _ _ _ (demo_sane .outbound 1) rfl

example := C101_inbound_build toyQ_lawful Env.sample _ _ _ (demo_sane .inbound 1) rfl (router 3 1) 60000000000 rfl
  (show 60000000000 ≤ (60000000000 + 8000000000) / 1000000000 * 1000000000 by decide) 1

example := C103_failure_report_violated toyQ_lawful toyQ_digests Env.sample _ _ _ _ (demo_sane .outbound 0) rfl (by decide) (by decide)
  (by decide)

/-- The agreed routers' newest tunnels are linked up to the gateway (C102): ids, next ids and roles. -/
example : (match create toyQ (demoParams .outbound) demoRnd with
    | some (.ok (_, first, m)) => do
      let (m0, _) ← Message.parseShort m.serializeShort
      let (answers, _, _) ← relay toyQ Env.sample (demoNodes 1) first m0
      return answers.filterMap fun a => (newest a.1).map fun t => (t.id, t.nextId, t.role)
    | _ => none) = some [(1000, 1001, .participant), (1001, 777, .outboundEndpoint)] := by decide +kernel

/-- The request of a router with index `i`, for another router in the middle of a tunnel. -/
def demoPlan (id : Nat) : Plan := ⟨0, id, List.replicate 32 3, 2000, List.replicate 32 6, .participant, toyQ.pub [3]⟩

def demoRequest (id : Nat) : Message := ⟨.shortTunnelBuild, 555, 70000000000, 1 :: (sealRecord toyQ (demoParams .outbound) demoRnd (demoPlan id)).2⟩

def answers (log : List (TransitOp × TransitOut)) : List (Option Bool) :=
  log.map fun e => match e.2 with
    | .sent r _ => some r.feedback
    | _ => none

/-- A router with room for one transit tunnel (C43): it takes the first, refuses the second, takes the first again when it has ended
(C107, C104), and nothing after the shutdown request. Requests are an hour late. -/
example : answers ((router 3 1).run toyQ Env.sample true [.message 3660000000000 (demoRequest 1) 0, .message 3660000000000 (demoRequest 2) 1,
      .ended 0, .message 3660000000000 (demoRequest 1) 2, .ended 0, .shutdown, .message 3660000000000 (demoRequest 1) 3]).2 =
    [some true, some false, none, some true, none, none, some false] := by decide +kernel

example := C107_replayed_request_violated toyQ_lawful Env.sample true (demoParams .outbound) demoRnd (demo_sane .outbound 1).pad
  (demo_sane .outbound 1).mid (demoPlan 1) ⟨by decide, by decide, by decide, by decide⟩ (by decide) (router 3 1) rfl rfl (by decide)
  0 3660000000000 555 70000000000 1 0 1

/-- A garlic message without payload stops the manager (C105). -/
example : (((router 3 1).step toyQ Env.sample true (.message 0 ⟨.garlic, 1, 0, []⟩ 0)).2 = .panic) := by decide +kernel

end Emissary.TBuild
