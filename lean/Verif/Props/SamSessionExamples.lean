import Verif.Props.SamStreams
/-!
# Examples for SAM sessions
-/
namespace Emissary.SamSession

open Emissary.SamParser (Str Kind)

def toyEnv : Env Nat := { me := 0, own := "key".toList, kind := .stream, book := true, b32 := fun s => if s = "aa".toList then some 7 else if s = "bb".toList then some 8 else none, make := fun b => 1 :: b }
def toyDatagrams : Env Nat := { toyEnv with kind := .datagram }
def aa : Str := "aa.b32.i2p".toList
def site : Str := "site.i2p".toList

example : classify aa = .b32 "aa".toList ∧ classify site = .book ∧ classify "site".toList = .bad ∧ classify "ME".toList = .me := by decide +kernel
example : target toyEnv aa = some 7 := by decide +kernel

def toyLooks : List (Op Nat) := [.lookup aa none, .lookup site none, .lookup "ME".toList none, .resolved 0 (some "v".toList), .found 7 "w".toList, .lookup "cc.b32.i2p".toList none]

example : said (State.run toyEnv State.new toyLooks).out =
    [("ME".toList, "NAMING REPLY RESULT=OK NAME=ME VALUE=key\n".toList), (site, "NAMING REPLY RESULT=OK NAME=site.i2p VALUE=v\n".toList),
      (aa, "NAMING REPLY RESULT=OK NAME=aa.b32.i2p VALUE=w\n".toList), ("cc.b32.i2p".toList, "NAMING REPLY RESULT=INVALID_KEY NAME=cc.b32.i2p\n".toList)] := by decide +kernel
example := C174_once toyEnv toyLooks aa
example := C174_now toyEnv (State.run toyEnv State.new toyLooks) (by decide +kernel) aa (some "w".toList)
example : (7 : Nat) ∉ (State.run toyEnv State.new toyLooks).queries := by decide +kernel
example := C174_answered_partial toyEnv (State.new : State Nat) rfl aa none 7 (by decide +kernel) (.inr rfl) [.lookup site none, .query 8 false, .found 8 []]
  (by simp only [List.mem_cons, List.not_mem_nil, or_false]; rintro o (rfl | rfl | rfl) h
      · exact absurd (show target toyEnv site = some 7 from h) (by decide +kernel)
      · exact h
      · exact absurd (show (8 : Nat) = 7 from h) (by decide)) "w".toList
example := C174_book toyEnv (State.run toyEnv State.new [.lookup site none]) (by decide +kernel) site
example : (State.run toyEnv (State.new : State Nat) [.lookup site none]).books[0]? = some site := by decide +kernel
example := C174_twice_violated toyEnv (State.new : State Nat) rfl aa aa 7 (by decide +kernel) (by decide +kernel) (by decide) "w".toList

def toySends : List (Op Nat) := [.datagram 7 [1] false, .datagram 8 [9] true, .datagram 7 [2] true, .found 7 [], .datagram 7 [3] true, .datagram 7 [4] false]

example : sentTo 7 (State.run toyDatagrams State.new toySends).out = [[1, 1], [1, 2], [1, 3]] ∧ (State.run toyDatagrams State.new toySends).queued 7 = [[4]] := by decide +kernel
example := C175_order toyDatagrams (by decide) 7 toySends (by simp [toySends])
example := C175_sent toyDatagrams (State.run toyDatagrams State.new toySends) 7 [] (by decide +kernel)
example := (C175_kinds toyDatagrams (State.run toyDatagrams State.new toySends) 3 7 [] true).1 (by decide)
example := (C175_kinds toyEnv (State.new : State Nat) 3 7 [1] true).2 rfl

def toyStreams : List (Op Nat) := [.connect 1 7 true, .connect 2 7 false, .listen 3, .connect 4 8 false, .connect 5 0 true]

example : (State.run toyEnv State.new toyStreams).out = [.opened 7 1, .listens 3, .answer 5 "STREAM STATUS RESULT=CANT_REACH_PEER\n".toList] ∧
    ((State.run toyEnv State.new toyStreams).entry 7).socks = [2] ∧ (7 : Nat) ∈ (State.run toyEnv State.new toyStreams).queries := by decide +kernel
example := C176_once toyEnv toyStreams 2
example := C176_opened_partial toyEnv (State.run toyEnv State.new toyStreams) 7 6 true rfl (by decide)
example := C176_unterminated_violated toyEnv (State.run toyEnv State.new toyStreams) 7 (by decide +kernel) 2 (by decide +kernel)
example := C176_dropped_violated toyEnv (State.run toyEnv State.new toyStreams) 7 2 (by decide +kernel)
example := C176_kind_violated toyDatagrams (by decide) (State.new : State Nat) 1 7 true
example := C176_kept_partial toyEnv rfl (State.run toyEnv State.new (toyStreams ++ [.streamOpened 7])) (.listen 9) (fun d => ⟨by simp, by simp⟩) 2 (by decide +kernel)
example := C176_self toyEnv (State.run toyEnv State.new toyStreams) rfl 9 true

end Emissary.SamSession
