import Verif.Props.PublisherLimits
import Verif.Props.PublisherKnown
/-!
# C156 to C162: cases that meet the hypotheses
-/
namespace Emissary.Publish
open Emissary.Dest (Lease)

/-- A router id. -/
def rid (n : Nat) : Bytes := List.replicate 31 0 ++ [UInt8.ofNat n]
/-- Seconds. -/
def at_ (n : Nat) : Nat := n * 1000000000
/-- The network database knows three floodfills. -/
def toyTurn (_ : Nat) : Turn := ⟨true, some (some [(rid 5, 50), (rid 3, 30), (rid 9, 90)]), true, 0, rid 1⟩
/-- A destination with one tunnel. -/
def toyNew (u : Bool) : State := State.new 0 [⟨7, 70, at_ 600⟩] (rid 1) 2 u [1, 2, 3] true
/-- It is published. -/
def toyStore : List Op := [.poll toyTurn]
/-- It is asked for. -/
def toyVerify : List Op := toyStore ++ [.tick (at_ 10), .poll toyTurn]
/-- Nobody answers. -/
def toySilent : List Op := toyVerify ++ [.tick (at_ 12), .poll toyTurn, .tick (at_ 25)]

example : ((toyNew true).run true (toySilent ++ [.built ⟨8, 80, at_ 600⟩])).log = [.leases [⟨8, 80, at_ 600⟩, ⟨7, 70, at_ 600⟩]] := by decide +kernel
example := C156_unpublished true 0 [⟨7, 70, at_ 600⟩] (rid 1) 2 [1, 2, 3] true (toySilent ++ [.built ⟨8, 80, at_ 600⟩]) (.leases [⟨8, 80, at_ 600⟩, ⟨7, 70, at_ 600⟩]) (by decide +kernel)

/-- The whole course: published to the closest floodfill, the next one asked after ten seconds, the last one after two more, published to the second after 25. -/
example : ((toyNew false).run true (toySilent ++ [.poll toyTurn])).log
    = [.store 0 (rid 3) 30 [1, 2, 3] ⟨7, 70, at_ 600⟩, .lookup (at_ 10) (rid 5) 50 ⟨7, 70, at_ 600⟩, .lookup (at_ 12) (rid 9) 90 ⟨7, 70, at_ 600⟩,
      .store (at_ 25) (rid 5) 50 [1, 2, 3] ⟨7, 70, at_ 600⟩] := by decide +kernel

/-- The state before the second store, and before the first lookup. -/
def toyPublish : State := { (toyNew false).run true toySilent with phase := .publish, queried := [] }
def toyLookup : State := { (toyNew false).run true toyStore with now := at_ 10, phase := .verify (at_ 10) none }
example := C157_closest true toyPublish (toyTurn 0) (by decide +kernel) (.store (at_ 25) (rid 5) 50 [1, 2, 3] ⟨7, 70, at_ 600⟩) (by decide +kernel)
example := C157_closest true toyLookup (toyTurn 0) (by decide +kernel) (.lookup (at_ 10) (rid 5) 50 ⟨7, 70, at_ 600⟩) (by decide +kernel)
example := C157_current true (toyNew false) rfl (.leaseSet [9] true)
example : ((toyNew false).run true [.leaseSet [9] true, .poll toyTurn]).log = [.store 0 (rid 3) 30 [9] ⟨7, 70, at_ 600⟩] := by decide +kernel

example := C158_paced true (toyNew false) trivial (toySilent ++ [.poll toyTurn]) (by decide +kernel)
example := C158_started true 0 [⟨7, 70, at_ 600⟩] (rid 1) 2 false [1, 2, 3] true toySilent

/-- Without the restriction on tunnels the pace is not kept: a tunnel makes the lease set be published at once. -/
example : ((toyNew false).run true (toyStore ++ [.tick (at_ 1), .built ⟨8, 80, at_ 600⟩, .leaseSet [4] true, .poll toyTurn])).log
    = [.store 0 (rid 3) 30 [1, 2, 3] ⟨7, 70, at_ 600⟩, .leases [⟨8, 80, at_ 600⟩, ⟨7, 70, at_ 600⟩], .store (at_ 1) (rid 5) 50 [4] ⟨8, 80, at_ 600⟩] := by decide +kernel

example := C159_confirmed_partial true ((toyNew false).run true toyVerify) (at_ 10) (some (at_ 12)) (by decide +kernel) (by decide +kernel) [.tick (at_ 100), .poll toyTurn] (by decide +kernel)
example := C159_forged_violated true ((toyNew false).run true toyVerify) (at_ 10) (some (at_ 12)) (by decide +kernel) (by decide +kernel) [6, 6, 6] (by decide +kernel) [.tick (at_ 100), .poll toyTurn] (by decide +kernel)
example : ((toyNew false).run true (toyVerify ++ [.store (rid 1) [6, 6, 6], .tick (at_ 100), .poll toyTurn])).log = ((toyNew false).run true toyVerify).log := by decide +kernel
example := C159_other true ((toyNew false).run true toyVerify) (rid 2) [1, 2, 3] (.inl (by decide +kernel))
theorem toy_flooding : ((toyNew false).run true toyStore).phase = .flooding (at_ 10) := by decide +kernel
example := C159_other true ((toyNew false).run true toyStore) (rid 1) [1, 2, 3] (.inr fun d tm => by rw [toy_flooding]; exact nofun)

example := C160_poll_ends true (toyNew false) toyTurn 4 (by decide)
/-- Three turns are not enough. -/
example : (({ toyNew false with phase := .retry .closest 0 } : State).turns true 3 toyTurn).2 = false := by decide +kernel
example := C160_waits true (toyNew false) toyTurn
example := C160_soon true 0 [⟨7, 70, at_ 600⟩] (rid 1) 2 false [1, 2, 3] true toySilent
example := C160_again true ((toyNew false).run true toySilent) (at_ 10) (some (at_ 14)) (by decide +kernel) (by decide +kernel) (by decide +kernel) (by decide +kernel) (by decide +kernel) (by decide +kernel) toyTurn rfl

example := C161_ends_violated true (toyNew false) rfl rfl (fun _ => ⟨true, some none, true, 0, rid 1⟩) rfl [.leaseSet [9] true, .built ⟨8, 80, at_ 600⟩, .poll toyTurn]
example := C161_only_partial true (toyNew false) rfl (.poll fun _ => ⟨true, some none, true, 0, rid 1⟩) (by decide +kernel)

/-- Router 1 sits on the key itself; that it is no floodfill is not looked at. -/
example := C162_steered_violated true ((toyNew false).run true toySilent) (at_ 10) (some (at_ 14)) (by decide +kernel) (by decide +kernel) (by decide +kernel) (by decide +kernel) (by decide +kernel) (by decide +kernel)
  (rid 1) 66 (by decide +kernel) (by decide +kernel) (fun _ => some 66) rfl (fun _ => true) toyTurn rfl (by decide +kernel)
example := C162_other_partial true (toyNew false) (rid 2) (by decide +kernel) [rid 1] (fun _ => some 66) (fun _ => true)

example := C157_remembered true toyPublish (toyTurn 0) (.store (at_ 25) (rid 5) 50 [1, 2, 3] ⟨7, 70, at_ 600⟩) (by decide +kernel)
example := C157_remembered true toyLookup (toyTurn 0) (.lookup (at_ 10) (rid 5) 50 ⟨7, 70, at_ 600⟩) (by decide +kernel)

/-- Eleven floodfills are in the answer and one was known: the two that are furthest away are forgotten. -/
def toyMany : State := { toyNew false with floodfills := [(rid 40, 400)] }
def toyTen : Turn := ⟨true, some (some ((List.range 11).map fun n => (rid (n + 2), n))), true, 0, rid 1⟩
example := C157_known true toyMany toyTen ((List.range 11).map fun n => (rid (n + 2), n)) rfl rfl (by show List.Nodup _; decide +kernel) (fun r k h => by
  have hall : ∀ x ∈ ((List.range 11).map fun n => (rid (n + 2), n)).reverse ++ toyMany.floodfills, x.1.length = 32 := by decide +kernel
  unfold Answered at h
  split at h
  · rename_i j e
    exact hall _ (List.mem_append_left _ (AMap.get_mem e))
  · exact hall _ (List.mem_append_right _ (AMap.get_mem h)))
example : (toyMany.turn true toyTen).1.floodfills.length = 10 ∧ AMap.get (toyMany.turn true toyTen).1.floodfills (rid 40) = none := by decide +kernel
example : AMap.get ({ toyMany with pending := [rid 7] }.step true (.result (rid 7) true (some 70))).floodfills (rid 7) = some 70 := by decide +kernel
example := C157_learned true toyMany rfl (.reply (rid 1) [rid 7] (fun _ => some 70) (fun _ => true)) nofun (rid 7)

end Emissary.Publish
