import Verif.Props.DestinationLimits
/-!
# C149 to C155: concrete cases that meet the hypotheses
-/
namespace Emissary.Dest
open Emissary.I2np (Duration)

/-- A number of seconds. -/
def secs (n : Nat) : Duration := n * 1000000000

/-- A lease set of the remote 7 with two leases. -/
def toySet : LSet := { dest := 7, expires := 600, key := 70, leases := [⟨1, 11, secs 600⟩, ⟨2, 12, secs 500⟩] }
/-- A later lease set of the same remote, with other tunnels. -/
def toyNext : LSet := { dest := 7, expires := 1300, key := 70, leases := [⟨3, 13, secs 1300⟩, ⟨4, 14, secs 1200⟩] }
/-- A lease set of another remote. -/
def toyOther : LSet := { dest := 8, expires := 1300, key := 80, leases := [⟨5, 15, secs 1300⟩] }

/-- The database is asked, does not take the query at first, and answers. -/
def toyAsk : List Op := [.query 7, .query 7, .attempt 7 false, .attempt 7 true, .answer 7 (some (.ok toySet))]
/-- The answer is taken. -/
def toyKnown : List Op := toyAsk ++ [.settle 7 (fun i => i) (fun _ => true)]
/-- The lease set expires and two messages are sent. -/
def toyWait : List Op := toyKnown ++ [.send (.any 7) (some [9]) 1 true, .tick (secs 700), .send (.any 7) (some [1, 2]) 5 true, .send (.via 7 11 40) (some [3]) 6 true]
/-- The database has a new one. -/
def toyReady : List Op := toyWait ++ [.attempt 7 true, .answer 7 (some (.ok toyNext))]
/-- The database has none; then the remote sends one itself. -/
def toyFail : List Op := toyWait ++ [.attempt 7 true, .answer 7 none, .settle 7 (fun i => i) (fun _ => true), .receive [.data [0, 0, 0, 1, 5], .store toyNext]]

example : (running (after false 0 [] toyAsk) 7).length = 1 ∧ (after false 0 [] toyAsk).status 7 = .pending ∧ (after false 0 [] toyKnown).status 7 = .found := by decide +kernel
example : (after false 0 [] [.query 7, .query 7]).log = [.status 7 .notFound, .status 7 .pending] := by decide +kernel
example := C149_answered false (after false 0 [] toyWait) 7 (by decide +kernel) [.attempt 7 true, .answer 7 none, .settle 7 (fun i => i) fun _ => true]
example := C149_tries true 0 [] [] 7 (by decide +kernel)
example : (after false 0 [] toyKnown).log = [.status 7 .notFound, .status 7 .pending, .remote 7 70, .event (.found 7)] ∧ (after false 0 [] toyKnown).leaseSet 7 = some toySet := by decide +kernel

example := C150_known true (after true 0 [] toyKnown) 7 (by decide +kernel) [.tick (secs 9000), .prune]
example : (after true 0 [] toyWait).log = [.status 7 .notFound, .status 7 .pending, .remote 7 70, .event (.found 7), .sent 7 [9] (secs 8) 2 12 none, .ret .ok, .ret .ok, .ret .ok]
    ∧ waiting (after true 0 [] toyWait) 7 = [[1, 2], [3]] ∧ (after true 0 [] toyWait).status 7 = .pending := by decide +kernel
example := C150_announced true 0 [] toyWait 7 [9] (secs 8) 2 12 none (by decide +kernel)
example := C150_debug_violated (after true 0 [] toyKnown) [1, 2, 3] (by decide)

example : gone 7 (after true 0 [] toyReady).log = [[9]] ∧ waiting (after true 0 [] toyReady) 7 = [[1, 2], [3]] ∧ takenIn true 7 (State.init 0 []) toyReady = [[9], [1, 2], [3]] := by decide +kernel
example := C151_released true (after true 0 [] toyReady) 7 (fun i => i) toyNext rfl (by decide +kernel)
example := C151_overtaken_violated true (after true 0 [] toyWait) 7 toyNext [8, 8] 3 rfl (by decide +kernel) (by decide +kernel)

instance (s : State) (d : Nat) : Decidable (Usable s d) := decidable_of_iff _ (usable_iff s d)

/-- What happens afterwards: time passes, another message is sent, a query is made. -/
def toyLater : List Op := [.tick (secs 800), .send (.any 7) (some [4]) 2 true, .query 7, .serve, .prune]

theorem prefixes_of {P : State → Prop} {chk : Bool} : ∀ (ops : List Op) (s : State), P s → (∀ n < ops.length, P (s.run chk (ops.take (n + 1)))) → ∀ a b, ops = a ++ b → P (s.run chk a) := by
  intro ops s h0 h a b e
  have ha : a = ops.take a.length := by rw [e]; simp
  cases hl : a.length with
  | zero => rw [List.length_eq_zero_iff.mp hl]; exact h0
  | succ n =>
    rw [ha, hl]
    refine h n ?_
    rw [e, List.length_append]
    omega

example := C151_stuck_violated true 0 [] toyFail toyLater 7 (by decide +kernel) (prefixes_of (P := fun s => Usable s 7) _ _ (by decide +kernel) (by decide +kernel))
example : waiting (after true 0 [] toyFail) 7 = [[1, 2], [3]] ∧ left 7 (after true 0 [] (toyFail ++ toyLater)).log = [[9], [4]] := by decide +kernel

example := C152_signed_partial true (after true 0 [] toyWait) [.data [0, 0, 0, 1, 5], .store toyNext] 7 (by decide +kernel)
example := C152_stale_violated true (after true 0 [] toyFail) 7 toySet [1] 2 true (by decide +kernel) rfl (by decide) (by decide +kernel)
/-- The database answers with the lease set of someone else. -/
def toyWrong : List Op := [.query 7, .attempt 7 true, .answer 7 (some (.ok toyOther))]
example := C152_foreign_violated true (after true 0 [] toyWrong) 7 (fun i => i) (fun _ => true) toyOther rfl (by decide)

/-- Replaces the lease set twice. -/
def toyReplace : List Op := [.tick (secs 100), .receive [.store toyNext], .prune, .tick (secs 400), .receive [.store { toyNext with expires := 1400 }], .prune, .tick (secs 499)]

example := C153_kept_partial true (after true 0 [] toyKnown) 7 toySet ⟨2, 12, secs 500⟩ ⟨{ ls := toySet }, rfl, rfl, AMap.ok_nil⟩ (by decide) (by decide +kernel) toyReplace
  (by intro rnd ok h; simp [toyReplace] at h) (by
    intro k hk ls hls hd y hy e
    simp only [toyReplace, List.mem_cons, Op.receive.injEq, reduceCtorEq, false_or, List.not_mem_nil, or_false] at hk
    rcases hk with rfl | rfl <;> simp only [List.mem_singleton, Clove.store.injEq] at hls <;> subst hls <;> simp only [toyNext, List.mem_cons, List.not_mem_nil, or_false] at hy <;>
      rcases hy with rfl | rfl <;> simp at e)
  (by decide +kernel) (by decide +kernel) 40 [1] 2

/-- A query that was made while the first lease set had expired; in the meantime the remote has sent the next one, and the database has yet another one. -/
def toyCross : List Op := toyKnown ++ [.tick (secs 700), .query 7, .attempt 7 true, .receive [.store toyNext], .answer 7 (some (.ok { toyNext with leases := [⟨3, 13, secs 1300⟩] }))]

example := C153_refreshed_violated true (after true 0 [] toyCross) 7 { toyNext with leases := [⟨3, 13, secs 1300⟩] }
  { ls := toyNext, expiring := [(12, ⟨2, 12, secs 500⟩), (11, ⟨1, 11, secs 600⟩)] } ⟨4, 14, secs 1200⟩ [1] [] 40 2 (fun i => i) true rfl rfl (by decide +kernel) (by decide) (by decide +kernel) (by decide) rfl rfl

example := C154_messages true (after true 0 [] toyWait) [.data [0, 0, 0, 1, 5], .store toyNext, .other, .data [0, 0, 0, 2, 6, 7]]
example : payloads [.data [0, 0, 0, 1, 5], .store toyNext, .other, .data [0, 0, 0, 2, 6, 7]] = [[5], [6, 7]] := rfl

/-- A routing path for the remote 7 asks for its lease set. -/
def toyPath : List Op := [.path (.subscribe 7), .path (.path 0 0 ⟨0, 0⟩), .serve]
example := C155_told_partial true (after true 0 [20] (toyPath ++ [.attempt 7 true, .answer 7 (some (.ok toySet))])) 7 (fun i => i) (fun _ => true) (.ok toySet) rfl [0] rfl 0 (by decide)
example := C155_asked_partial true (after true 0 [20] [.path (.subscribe 7), .path (.path 0 0 ⟨0, 0⟩)]) 7 0 [] rfl rfl (by decide +kernel)
example := C155_routes_partial true (after true 0 [20] (toyPath ++ [.attempt 7 true, .answer 7 (some (.ok toySet))])) 7 (fun i => i) (fun _ => true) toySet rfl
/-- The lease set is known, and its leases have twenty seconds left. -/
def toyShort : List Op := toyKnown ++ [.path (.subscribe 7), .tick (secs 580), .path (.path 0 (secs 580) ⟨0, 0⟩)]
example := C155_dropped_violated true 0 [20] toyShort [.tick (secs 590), .query 7, .send (.any 7) (some [1]) 0 true] 7 0 [] (by decide +kernel) rfl rfl
  (prefixes_of (P := fun s => Usable s 7) _ _ (by decide +kernel) (by decide +kernel)) (by intro l h; simp at h)

end Emissary.Dest
