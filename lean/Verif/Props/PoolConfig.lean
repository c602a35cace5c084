import Verif.Model.PoolConfig
import Verif.Props.Net
import Verif.Props.Selector
import Verif.Props.TunnelBuild
import Verif.Props.TunnelDemo
/-!
# C296: the tunnels of a client are as many and as long as it asks for
-/
namespace Emissary.PoolConfig

open Emissary.I2cpServer (Config number)
open Emissary.Prim (Options parseUInt)
open Emissary.TBuild (Params Pending Direction Rnd)
open Emissary.I2np (Message)

/-! ## Specification -/

/-- The decimal digits of a number. -/
def decimal (n : Nat) : Bytes := if n < 10 then [UInt8.ofNat (48 + n)] else decimal (n / 10) ++ [UInt8.ofNat (48 + n % 10)]

/-- The name of an option as it is in the specification of I2CP. -/
def lengthOf : Direction → String
  | .inbound => "inbound.length"
  | .outbound => "outbound.length"

def quantityOf : Direction → String
  | .inbound => "inbound.quantity"
  | .outbound => "outbound.quantity"

/-- The client gives this number for this option. -/
def Asks (o : Options) (name : String) (n : Nat) : Prop := o.get (Datagram.ascii name) = some (decimal n)

/-- The client does not give this option. -/
def Silent (o : Options) (name : String) : Prop := o.get (Datagram.ascii name) = none

/-! ## Proofs -/

theorem decimal_eq (n : Nat) : decimal n = Net.dec n := by
  induction n using Nat.strongRecOn with
  | _ n ih =>
    rw [decimal, Net.dec]
    split
    · rename_i h; simp
    · rename_i h; rw [ih (n / 10) (by omega)]

theorem parse_decimal (max n : Nat) (h : n ≤ max) : parseUInt max (decimal n) = some n := by
  rw [decimal_eq]
  obtain ⟨h1, h2, h3, -⟩ := Net.dec_spec n
  unfold parseUInt
  cases hd : Net.dec n with
  | nil => exact absurd hd h2
  | cons c cs =>
    have hc := h1 c (by rw [hd]; simp)
    have : c ≠ 43 := by rintro rfl; simp at hc
    split
    next s e => injection e with e; exact absurd e this
    next s e =>
      rw [← hd]
      dsimp only
      rw [h3]
      simp [h, h2]

theorem number_asked {o : Options} {name : String} {n d : Nat} (h : Asks o name n) (hn : n < 2 ^ 64) : number o name d = n := by
  unfold number
  rw [h]
  dsimp only
  rw [parse_decimal _ _ (by omega)]
  rfl

theorem number_silent {o : Options} {name : String} {d : Nat} (h : Silent o name) : number o name d = d := by
  unfold number
  rw [h]

/-- The pool of an I2CP client is to have as many tunnels of as many hops as the client asks for, and 3 of 2 hops if it does not say. -/
theorem C296_asked (o : Options) (dir : Direction) (n : Nat) (small : n < 2 ^ 64) :
    (Asks o (lengthOf dir) n → hops (i2cp o) dir = n) ∧ (Asks o (quantityOf dir) n → tunnels (i2cp o) dir = n) ∧
    (Silent o (lengthOf dir) → hops (i2cp o) dir = 2) ∧ (Silent o (quantityOf dir) → tunnels (i2cp o) dir = 3) := by
  cases dir
  · exact ⟨fun h => number_asked h small, fun h => number_asked h small, fun h => number_silent h, fun h => number_silent h⟩
  · exact ⟨fun h => number_asked h small, fun h => number_asked h small, fun h => number_silent h, fun h => number_silent h⟩

theorem select_length {S : Profile.Sel} {now : I2np.Duration} {d : Profile.Draws} {n : Nat} {routers : List Nat} {s' : Profile.Store}
    (h : S.selectHops now d n = some (some (routers, s'))) : routers.length = n := by
  cases hi : S.insecure with
  | true => exact (Profile.C48_insecure_partial hi h).1
  | false => exact (Profile.C48_subnets hi h).1

theorem create_length {P : Ssu2.Prims} {p : Params} {rnd : Rnd} {t : Pending} {x : Bytes × Message} (h : TBuild.create P p rnd = some (.ok (t, x))) :
    t.hops.length = p.hops.length ∧ 0 < p.hops.length ∧ p.hops.length ≤ 8 := by
  unfold TBuild.create at h
  dsimp only at h
  split at h
  · cases h
  · rename_i h8
    cases hh : p.hops with
    | nil => rw [hh] at h; simp at h
    | cons y ys =>
      have hpos : 0 < p.hops.length := by rw [hh]; simp
      have hrl : (TBuild.hopRoles p.dir p.hops.length).length = p.hops.length := TBuild.hopRoles_length _ _ hpos
      have hxl : (TBuild.plans p rnd).length = p.hops.length := by rw [TBuild.plans_eq]; exact TBuild.planList_length _ _ _ _ _ _ hrl
      have key : t.hops = ((TBuild.plans p rnd).map (TBuild.sealRecord P p rnd)).map (·.1) := by
        rw [hh] at h
        dsimp only at h
        cases hd : p.dir with
        | outbound =>
          rw [hd] at h
          simp only [Option.some.injEq, Except.ok.injEq, Prod.mk.injEq] at h
          rw [← h.1]
        | inbound =>
          rw [hd] at h
          obtain ⟨m, _, e⟩ := Option.map_eq_some_iff.mp h
          simp only [Except.ok.injEq, Prod.mk.injEq] at e
          rw [← e.1]
      rw [← hh]
      refine ⟨by rw [key, List.length_map, List.length_map, hxl], hpos, by omega⟩

theorem built_length {P : Ssu2.Prims} {t : Pending} {m : Message} {l : List TBuild.Hop} (h : TBuild.tryBuild P t m = .tunnel l) : l.length = t.hops.length := by
  unfold TBuild.tryBuild at h
  dsimp only at h
  split at h
  · cases h
  · cases h
  · split at h
    · cases h
    · split at h
      · cases h
      · cases h
      · split at h
        · cases h
        · rename_i hn
          cases h
          rw [List.length_reverse]
          exact Classical.byContradiction hn

theorem attempt_length {a : Around} {c : Config} {dir : Direction} {t : Pending} (h : attempt a c dir = some (some t)) :
    t.hops.length = hops c dir ∧ 0 < hops c dir ∧ hops c dir ≤ 8 := by
  unfold attempt at h
  split at h
  · cases h
  · cases h
  · rename_i routers s' hs
    have hl := select_length hs
    split at h
    · cases h
    · cases h
    · rename_i p x hc
      cases h
      have := create_length hc
      simp only [List.length_map] at this
      omega

/-- A tunnel that is built for an I2CP client has as many hops as the client asks for, whichever routers there are and whatever they answer. -/
theorem C296_length (o : Options) (dir : Direction) (n : Nat) (small : n < 2 ^ 64) (asks : Asks o (lengthOf dir) n) (a : Around) (t : Pending)
    (requested : attempt a (i2cp o) dir = some (some t)) (m : Message) (l : List TBuild.Hop) (built : TBuild.tryBuild a.prims t m = .tunnel l) : l.length = n := by
  rw [built_length built, (attempt_length requested).1, (C296_asked o dir n small).1 asks]

/-- A client that asks for tunnels without hops, or with more than 8, gets none: no attempt to build one ever comes to a request. -/
theorem C296_none_violated (o : Options) (dir : Direction) (n : Nat) (small : n < 2 ^ 64) (asks : Asks o (lengthOf dir) n) (odd : n = 0 ∨ 8 < n) (a : Around) (t : Pending) :
    attempt a (i2cp o) dir ≠ some (some t) := by
  intro h
  have h1 := attempt_length h
  have h2 := (C296_asked o dir n small).1 asks
  omega

/-- The options of a SAM client change nothing: all its tunnels have two hops, so if it asks for another number no tunnel has that number. -/
theorem C296_sam_violated (o : Options) (dir : Direction) (n : Nat) (_asks : Asks o (lengthOf dir) n) (other : n ≠ 2) (a : Around) (t : Pending)
    (requested : attempt a (sam o) dir = some (some t)) (m : Message) (l : List TBuild.Hop) (built : TBuild.tryBuild a.prims t m = .tunnel l) : l.length ≠ n := by
  have h1 := built_length built
  have h2 := (attempt_length requested).1
  have h3 : hops (sam o) dir = 2 := by cases dir <;> rfl
  omega

/-- What holds for a SAM client: what it gets is what a client that asks for nothing gets. -/
theorem C296_sam_partial (o : Options) (dir : Direction) (length : Silent o (lengthOf dir)) (quantity : Silent o (quantityOf dir)) (a : Around) :
    attempt a (sam o) dir = attempt a (i2cp o) dir ∧ tunnels (sam o) dir = tunnels (i2cp o) dir := by
  have h := C296_asked o dir 0 (by decide)
  have h1 := h.2.2.1 length
  have h2 := h.2.2.2 quantity
  have e1 : hops (sam o) dir = hops (i2cp o) dir := by rw [h1]; cases dir <;> rfl
  have e2 : tunnels (sam o) dir = tunnels (i2cp o) dir := by rw [h2]; cases dir <;> rfl
  exact ⟨by unfold attempt; rw [e1], e2⟩

/-! ## The hypotheses can be met -/

def three : Options := [⟨Datagram.ascii "inbound.length", [0x33]⟩, ⟨Datagram.ascii "outbound.length", [0x33]⟩, ⟨Datagram.ascii "inbound.quantity", [0x31, 0x32]⟩]

theorem three_asks : Asks three "outbound.length" 3 ∧ Asks three "inbound.quantity" 12 ∧ Silent three "outbound.quantity" := by
  refine ⟨?_, ?_, by show Options.get _ _ = none; decide +kernel⟩ <;> (show Options.get _ _ = some _; simp [decimal]; decide +kernel)

example : i2cp three = ⟨12, 3, 3, 3⟩ := by decide +kernel

/-- A client that asks for tunnels of two hops. -/
def two : Options := [⟨Datagram.ascii "outbound.length", [0x32]⟩]

theorem two_asks : Asks two "outbound.length" 2 := by show Options.get _ _ = some _; simp [decimal]; decide +kernel

/-- Four routers, of which the ones that are selected are those of the run in `TunnelDemo`. -/
def around : Around :=
  { prims := TBuild.toyQ, sel := Profile.four, now := 60000000000, draws := Profile.zeros,
    info := fun r => if r = 1 then (List.replicate 32 3, TBuild.toyQ.pub [3]) else (List.replicate 32 4, TBuild.toyQ.pub [4]),
    rnd := TBuild.demoRnd, messageId := 555, gateway := 777, tunnelId := 888, router := List.replicate 32 5 }

/-- The answer that the routers give. -/
def answer : Option Message :=
  match TBuild.create TBuild.toyQ (TBuild.demoParams .outbound) TBuild.demoRnd with
  | some (.ok (_, first, m)) => do
    let (m0, _) ← Message.parseShort m.serializeShort
    let (_, _, reply) ← TBuild.relay TBuild.toyQ Prim.Env.sample (TBuild.demoNodes 1) first m0
    let (gw, _) ← I2np.TunnelGateway.parse reply.payload
    let (g, _) ← Message.parseStandard gw.payload
    return g
  | _ => none

def hopsOf : TBuild.Built → Nat
  | .tunnel l => l.length
  | _ => 0

def run (c : Config) : Nat :=
  match attempt around c .outbound, answer with
  | some (some p), some g => hopsOf (TBuild.tryBuild TBuild.toyQ p g)
  | _, _ => 0

theorem run_works (c : Config) (h : run c = 2) :
    ∃ t m l, attempt around c .outbound = some (some t) ∧ TBuild.tryBuild around.prims t m = .tunnel l := by
  unfold run at h
  split at h
  · rename_i p g hp _
    cases hb : TBuild.tryBuild TBuild.toyQ p g with
    | tunnel l => exact ⟨p, g, l, hp, hb⟩
    | failed r => rw [hb] at h; cases h
    | panic => rw [hb] at h; cases h
  · cases h

theorem two_run : run (i2cp two) = 2 := by decide +kernel
theorem sam_run : run (sam three) = 2 := by decide +kernel

example : ∃ t m l, attempt around (i2cp two) .outbound = some (some t) ∧ TBuild.tryBuild around.prims t m = .tunnel l ∧ l.length = 2 := by
  obtain ⟨t, m, l, h1, h2⟩ := run_works _ two_run
  exact ⟨t, m, l, h1, h2, C296_length two .outbound 2 (by decide) two_asks around t h1 m l h2⟩

example : ∃ t m l, attempt around (sam three) .outbound = some (some t) ∧ TBuild.tryBuild around.prims t m = .tunnel l ∧ l.length ≠ 3 := by
  obtain ⟨t, m, l, h1, h2⟩ := run_works _ sam_run
  exact ⟨t, m, l, h1, h2, C296_sam_violated three .outbound 3 three_asks.1 (by decide) around t h1 m l h2⟩

/-- A client that wants no hops, where routers are known. -/
def zero : Options := [⟨Datagram.ascii "inbound.length", [0x30]⟩]

example (t : Pending) := C296_none_violated zero .inbound 0 (by decide) (by show Options.get _ _ = some _; simp [decimal]; decide +kernel) (Or.inl rfl) around t
example := C296_sam_partial two .inbound (by show Options.get _ _ = none; decide +kernel) (by show Options.get _ _ = none; decide +kernel) around

end Emissary.PoolConfig
