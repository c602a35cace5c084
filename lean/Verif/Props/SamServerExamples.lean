import Verif.Props.SamPending
/-!
# Examples for the SAM server
-/
namespace Emissary.SamServer

open Emissary.SamParser (Str)

def toyEnv : Env Nat := { book := true, chk := false, parser := ⟨fun _ => none, fun _ => none, fun _ => none⟩, text := fun _ => none }
def alice : Str := "alice".toList
def bob : Str := "bob".toList
def carol : Str := "carol".toList

/-- Two sessions, one of which is in use. -/
def toyTwo : List (Op Nat) := [.create 1 alice 10 true, .create 2 bob 11 true, .built 0, .inbound 7000 [1], .write none, .inbound 7001 [2], .write (some true)]

example : (State.run toyEnv State.new toyTwo).act = [(alice, 10)] ∧ (State.run toyEnv State.new toyTwo).pend = [(bob, 11)] ∧ (State.run toyEnv State.new toyTwo).running = true ∧
    (State.run toyEnv State.new toyTwo).left = [(7001, [2])] ∧ sents (State.run toyEnv State.new toyTwo).out = [(7000, [1])] := by decide +kernel
example := C168_distinct toyEnv toyTwo
example := C168_name toyEnv toyTwo 3 alice 12 10 true (by decide +kernel)
example := C168_destination toyEnv toyTwo 3 carol bob 11 true (by decide +kernel)
example : ∀ o ∈ toyTwo, ∀ x, asked o ≠ some (carol, x) := by simp [toyTwo, asked, alice, bob, carol]
example := C169_ended_partial toyEnv toyTwo 3 0 alice 10 (by decide +kernel)
example := C169_failed_violated toyEnv toyTwo 0 bob 11 (by decide +kernel) [.ended 0, .create 3 alice 10 true]
example : (((State.run toyEnv State.new toyTwo).step toyEnv (.failed 0)).run toyEnv [.ended 0, .create 3 alice 10 true]).running = true := by decide +kernel
example := C169_new toyEnv toyTwo 3 carol 12 (by decide +kernel)
  (by simp [toyTwo, asked, alice, bob, carol]) (by simp [toyTwo, asked])
example := C170_passed_partial toyEnv toyTwo (.connect 4 alice (.b32 99) true) 4 alice (.connect 99) rfl 10 (by decide +kernel)
example := C170_unanswered_violated toyEnv toyTwo (by decide +kernel) (.accept 4 bob true) 4 bob .accept true rfl (.inl (by
  intro d h
  rw [show (State.run toyEnv State.new toyTwo).act = [(alice, 10)] by decide +kernel] at h
  simp [alice, bob] at h))
/-- A reader that takes every byte for a character, and every text for destination 12. -/
def toyReader : Env Nat := { toyEnv with parser := ⟨fun _ => some [], fun _ => some [], fun _ => some (12, [])⟩, text := fun b => some (b.map fun c => Char.ofNat c.toNat) }
example := C170_datagrams toyReader toyTwo (by decide +kernel) ([51, 46, 48, 32] ++ alice.map (fun c => UInt8.ofNat c.toNat) ++ [32, 120, 10, 1, 2]) (by decide +kernel) true
  ⟨alice, 12, [1, 2]⟩ (by decide +kernel)
example := C170_names toyEnv (State.run toyEnv State.new (toyTwo ++ [.connect 4 alice .name true])) (by decide +kernel) rfl 4 alice true
example : (State.run toyEnv State.new (toyTwo ++ [.connect 4 alice .name true])).lookups[0]? = some (alice, 4) := by decide +kernel
example := C170_bookless_violated { toyEnv with book := false, chk := true } (State.run toyEnv State.new toyTwo) (by decide +kernel) rfl 4 alice true
example := C170_unterminated_violated toyEnv toyTwo 3 alice 12 10 true (by decide +kernel)
example := C170_refused_violated toyEnv toyTwo (by decide +kernel) 3 carol 12
  (by simp [toyTwo, asked, alice, bob, carol]) (by simp [toyTwo, asked])
example := C171_short_violated toyEnv (State.run toyEnv State.new toyTwo) (by decide +kernel) [1, 2, 3] (by decide) true toyTwo
example := C171_crash_violated toyEnv (State.run toyEnv State.new toyTwo) (by decide +kernel) toyTwo
example := C171_running_partial toyEnv (.inl rfl) toyTwo (by simp [toyTwo]) (by simp [toyTwo])
example := C173_order toyEnv toyTwo (by decide +kernel) (by simp [toyTwo])
example := C173_lost_violated toyEnv (State.run toyEnv State.new toyTwo) (by decide +kernel) (7001, [2]) [] (by decide +kernel)

/-- A tunnel expires before there is one of the other kind. -/
def toyEvents : List (Event Nat) := [.outBuilt 1, .other, .outExpired 1, .inBuilt 2 20, .inBuilt 3 30, .inExpired 2, .outBuilt 4, .inBuilt 5 50]

example : ∃ t, await ⟨[], []⟩ toyEvents false = .ready t [.inBuilt 5 50] ∧ t.inbound = [(3, 30)] ∧ t.outbound = [4] := ⟨_, rfl, rfl, rfl⟩
example := C172_ready toyEvents [.inBuilt 5 50] false _ rfl
example := C172_soon (toyEvents.take 6) _ rfl

end Emissary.SamServer
