import Verif.Props.JourneyLong
import Verif.Props.EndToEndExamples
/-!
# An example for a stream that opens across the network
-/
namespace Emissary.Journey
open Emissary Emissary.I2np Emissary.Tunnel Emissary.Hop Emissary.Ecies

def tellEnv : Prim.Env := { Prim.Env.sample with sha256 := fun b => List.replicate 32 (b.headD 0), verify := fun _ _ _ => true }

def tell (k : UInt8) : Mgr.Owner tellEnv where
  dest := Prim.Destination.new tellEnv (List.replicate 32 k) (List.replicate 352 k)
  sign := fun _ => List.replicate 64 0
  ed := rfl
  parses := fun r => Prim.C26_new_destination_roundtrip tellEnv _ _ r List.length_replicate List.length_replicate rfl
  size := by simp only [Prim.Destination.new, List.length_append, List.length_replicate]; decide
  hash := List.length_replicate
  len := fun _ => List.length_replicate
  ok := fun _ => rfl

def tellEnds : Ends := { a := [2], b := [3], own := (tell 1).dest.hash, remote := (tell 2).dest.hash, leaseSet := [3] }
def tellCfg : Cfg := { chatCfg with readStore := fun _ => some ((tell 1).dest.hash, (tell 1).dest.hash) }
def tellM : Ecies.Mgr := (Ecies.Mgr.new tellCfg (tell 1).dest.hash [2] [3]).addRemote (tell 2).dest.hash (spreadPrims.pub [3])
def tellN : Ecies.Mgr := Ecies.Mgr.new tellCfg (tell 2).dest.hash [3] [4]

theorem tell_strangers : Strangers tellCfg tellEnds tellM tellN :=
  ⟨⟨rfl, rfl, rfl⟩, ⟨rfl, rfl⟩, ⟨by decide +kernel, by decide +kernel, by decide +kernel⟩, ⟨by decide +kernel, by decide +kernel⟩, rfl⟩

def synBytes : Bytes := ((Mgr.syn (tell 1).dest (tell 2).dest.hash 77).buildAndSign (tell 1).sign).getD []
def ackBytes : Bytes := ((Mgr.synAck (tell 2).dest 77 88).buildAndSign (tell 2).sign).getD []
theorem synBytes_eq : (Mgr.syn (tell 1).dest (tell 2).dest.hash 77).buildAndSign (tell 1).sign = some synBytes := by decide +kernel
theorem ackBytes_eq : (Mgr.synAck (tell 2).dest 77 88).buildAndSign (tell 2).sign = some ackBytes := by decide +kernel

def wrapped (src dst : Nat) (p : Bytes) : Bytes := (Datagram.build Datagram.toyGzip src dst .streaming p).getD []

def tellX : Draw × Bytes := (chatDraw 9, wrapped 80 443 synBytes)
def tellY : Draw × Bytes := (chatDraw 20, wrapped 0 0 ackBytes)
def tellZ : Draw × Bytes := (chatDraw 1, wrapped 80 443 [1, 2, 3])

theorem tell_bases : From (tellEnds.replyChain tellCfg tellX) 17825802 ∧ From (tellEnds.there tellCfg tellX 0 tellY) 71303182 ∧
    From (tellEnds.back tellCfg tellX 0 tellY) 71303182 := by decide +kernel

def road (id : Nat) : Road := ⟨toyOut, toyIn, toySend, 5, toyHash, id⟩
theorem road_ok (id : Nat) (h : id < 2 ^ 32) : (road id).Ok := ⟨toyOut_ok, toyIn_ok, toySend_ok, by show 5 < 2 ^ 32; decide, by show toyHash.length = 32; decide, h⟩

/-- The stream 77 of the sample client 1 to the sample client 2. -/
example (v1 v2 v3 : Draw) := C291_opens_partial (N := ⟨toyAes, toySha, true⟩) ⟨toyAes_lawful, toySha_ok⟩ (road_ok 1 (by decide)) (road_ok 2 (by decide)) (road_ok 3 (by decide))
  (C := tellCfg) spreadPrims_lawful (by decide) (by decide) tell_strangers Datagram.toyGzip_ok (fun _ => Datagram.ascii "AAAA") Datagram.alice Datagram.bob (tell 1) (tell 2) rfl rfl true
  (ports := (80, 443)) (ports' := (0, 0)) (by decide) (by decide) (sA := Mgr.Mgr.new (tell 1).dest) (sB := Mgr.Mgr.new (tell 2).dest) rfl rfl (id := 77) (rnd := 88) (rnd' := 5) (by decide) (by decide)
  ⟨rfl, rfl, rfl, rfl⟩ (by decide) ⟨rfl, rfl, rfl⟩ (by decide) (p3 := [1, 2, 3]) synBytes_eq ackBytes_eq (x := tellX) (y := tellY) (z := tellZ) (by decide +kernel) (by decide +kernel)
  (by decide +kernel)
  ⟨by show (0 + 8000000000) / 1000000000 < 2 ^ 32; decide, ⟨by show 0 % 8 < 2 ^ 32; decide, by show 1 % 8 < 2 ^ 32; decide⟩, by decide +kernel, by decide +kernel, by decide +kernel⟩
  ⟨by decide +kernel, rfl⟩
  ⟨by show 0 % 8 < 2 ^ 32; decide, by show (0 + 8 * 1000000000) / 1000000000 < 2 ^ 32; decide, by decide +kernel, by decide +kernel⟩ ⟨by decide +kernel, rfl⟩
  ⟨by show 0 % 8 < 2 ^ 32; decide, by show (0 + 8 * 1000000000) / 1000000000 < 2 ^ 32; decide, by decide +kernel, by decide +kernel⟩
  (by decide +kernel)
  (by
    obtain ⟨h1, h2, h3⟩ := tell_bases
    refine ⟨⟨?_, ?_⟩, by intro c _ i _; rfl⟩
    · intro c hc
      simp only [List.mem_cons, List.not_mem_nil, or_false] at hc
      rcases hc with rfl | rfl
      · exact spread_distinct h1
      · exact spread_distinct h3
    · simp only [List.pairwise_cons, List.mem_cons, List.not_mem_nil, or_false, forall_eq, false_implies, implies_true, and_true, List.Pairwise.nil]
      exact spread_apart h1 h3 (by decide))
  ⟨spread_distinct tell_bases.2.1, by intro c _ i _; rfl⟩ v1 v2 v3

/-- The sizes. -/
example : (sealed tellM tellCfg tellX.1 tellEnds.remote tellX.2).length = 726 ∧ synBytes.length = 509 ∧ ackBytes.length = 477 := by decide +kernel

/-! ## Over the ratchets -/

def longTurns : List (Turn × Road) := lateTurns.map fun t => ({ t with msg := wrapped 80 443 t.msg }, road 7)

theorem long_all : ∀ x ∈ longTurns, x.2.Ok ∧ x.1.msg ≠ [] ∧ Fits (if x.1.mine then idB else idA) (x.1.v, x.1.msg) ∧ ∃ t ∈ lateTurns, x.1.msg = wrapped 80 443 t.msg := by
  intro x hx
  obtain ⟨t, ht, rfl⟩ := List.mem_map.mp hx
  refine ⟨road_ok 7 (by decide), ?_, ?_, t, ht, rfl⟩ <;>
  · simp only [lateTurns, List.mem_cons, List.not_mem_nil, or_false] at ht
    rcases ht with rfl | rfl | rfl | rfl | rfl | rfl | rfl
    all_goals first
      | exact List.cons_ne_nil _ _
      | exact ⟨by show 0 % 8 < 2 ^ 32; decide, by show (0 + 8 * 1000000000) / 1000000000 < 2 ^ 32; decide, by decide, by decide +kernel⟩

example := C251_ratchets_partial (N := ⟨toyAes, toySha, true⟩) ⟨toyAes_lawful, toySha_ok⟩ (C := chatCfg) spreadPrims_lawful (b := 2) (by decide) (by decide) (by decide)
  (late_direction idA idB) (late_direction idB idA) ⟨spread_distinct late_from, spread_distinct late_from⟩ ⟨late_sound idA idB, late_sound idB idA⟩ longTurns
  (fun x hx => ⟨(long_all x hx).1, (long_all x hx).2.1, (long_all x hx).2.2.1⟩) (by simp [Polite, longTurns, lateTurns]) ⟨by decide +kernel, by decide +kernel⟩ ⟨by decide +kernel, by decide +kernel⟩

example (E : Prim.Env) (b64 : Bytes → Bytes) := C291_ratchets_partial (N := ⟨toyAes, toySha, true⟩) ⟨toyAes_lawful, toySha_ok⟩ (C := chatCfg) spreadPrims_lawful (b := 2) (by decide) (by decide) (by decide)
  (late_direction idA idB) (late_direction idB idA) ⟨spread_distinct late_from, spread_distinct late_from⟩ ⟨late_sound idA idB, late_sound idB idA⟩ Datagram.toyGzip_ok E b64 longTurns
  (fun x hx => ⟨(long_all x hx).1, (long_all x hx).2.2.1⟩)
  (fun x hx => by obtain ⟨t, _, h⟩ := (long_all x hx).2.2.2; exact ⟨80, 443, t.msg, by decide, by decide, by rw [h]; rfl⟩)
  (by simp [Polite, longTurns, lateTurns]) ⟨by decide +kernel, by decide +kernel⟩ ⟨by decide +kernel, by decide +kernel⟩

def gramTurns : List (Turn × Road) := lateTurns.map fun t => ({ t with msg := gram }, road 7)

example (b64 : Bytes → Bytes) := C252_ratchets_partial (N := ⟨toyAes, toySha, true⟩) ⟨toyAes_lawful, toySha_ok⟩ (C := chatCfg) spreadPrims_lawful (b := 2) (by decide) (by decide) (by decide)
  (late_direction idA idB) (late_direction idB idA) ⟨spread_distinct late_from, spread_distinct late_from⟩ ⟨late_sound idA idB, late_sound idB idA⟩ Datagram.toyGzip_ok
  Prim.Env.sample b64 gramTurns
  (fun x hx => by
    obtain ⟨t, ht, rfl⟩ := List.mem_map.mp hx
    refine ⟨road_ok 7 (by decide), ?_⟩
    simp only [lateTurns, List.mem_cons, List.not_mem_nil, or_false] at ht
    rcases ht with rfl | rfl | rfl | rfl | rfl | rfl | rfl
    all_goals exact ⟨by show 0 % 8 < 2 ^ 32; decide, by show (0 + 8 * 1000000000) / 1000000000 < 2 ^ 32; decide, by decide, by decide +kernel⟩)
  (fun x hx => by obtain ⟨t, _, rfl⟩ := List.mem_map.mp hx; exact ⟨Datagram.alice, [5, 6], gram_sent⟩)
  (by simp [Polite, gramTurns, lateTurns]) ⟨by decide +kernel, by decide +kernel⟩ ⟨by decide +kernel, by decide +kernel⟩

end Emissary.Journey
