import Verif.Model.SamEarly
import Verif.Props.SamSessionExamples
/-!
# C298: what SAM clients are told before they have a session
-/
namespace Emissary.SamHello
open Emissary.SamParser
open Emissary.SamSession (samLine okText missingText classify target said)

/-! ## Specification -/

/-- The version in the answer to a greeting: the highest one that client and router both know. The router knows 3.1 and 3.2. -/
def common : Option Version → String
  | some .v31 => "VERSION=3.1"
  | _ => "VERSION=3.2"

/-- The answer to a command, as the SAM specification has it for names that are not known. -/
def answer (b64 : Bytes → Str) {D : Type} : Cmd D × Fresh → Str
  | (.hello _ max, _) => samLine ["HELLO".toList, "REPLY".toList, "RESULT=OK".toList, (common max).toList]
  | (.lookup name, _) => samLine ["NAMING".toList, "REPLY".toList, "RESULT=KEY_NOT_FOUND".toList, "NAME=".toList ++ name]
  | (.generate, f) => samLine ["DEST".toList, "REPLY".toList, "PUB=".toList ++ b64 f.dest, "PRIV=".toList ++ b64 (f.dest ++ f.priv ++ f.sign)]
  | _ => []

/-! ## Proofs -/

theorem hello_text (b64 : Bytes → Str) (max : Option Version) : Reply.text b64 (.hello (agree max)) = samLine ["HELLO".toList, "REPLY".toList, "RESULT=OK".toList, (common max).toList] := by
  have key : ∀ max : Option Version, "HELLO REPLY RESULT=OK VERSION=".toList ++ versionText (agree max) ++ "\n".toList =
      samLine ["HELLO".toList, "REPLY".toList, "RESULT=OK".toList, (common max).toList] := by
    intro max
    match max with
    | none => decide +kernel
    | some .v31 => decide +kernel
    | some .v32 => decide +kernel
    | some .v33 => decide +kernel
  exact key max

theorem lookup_text (b64 : Bytes → Str) (name : Str) : Reply.text b64 (.notFound name) = missingText name := rfl

theorem dest_text (b64 : Bytes → Str) (a b : Bytes) : Reply.text b64 (.dest a b) = samLine ["DEST".toList, "REPLY".toList, "PUB=".toList ++ b64 a, "PRIV=".toList ++ b64 b] := by
  have h1 : "DEST REPLY PUB=".toList = "DEST".toList ++ ' ' :: ("REPLY".toList ++ ' ' :: "PUB=".toList) := by decide +kernel
  have h2 : " PRIV=".toList = ' ' :: "PRIV=".toList := by decide +kernel
  have h3 : "\n".toList = ['\n'] := by decide +kernel
  unfold Reply.text
  rw [h1, h2, h3]
  simp only [samLine, List.append_assoc, List.cons_append]

theorem handle_line (b64 : Bytes → Str) {D : Type} (now : Nat) (c : Conn) (x : Cmd D) (f : Fresh) {c' : Conn} (h : c.handle now x f = (c', none)) :
    c'.lines b64 = c.lines b64 ++ [answer b64 (x, f)] := by
  unfold Conn.handle at h
  cases hv : c.version with
  | none =>
    rw [hv] at h
    cases x <;> cases h
    simp only [Conn.lines, List.map_append, List.map_cons, List.map_nil, hello_text, answer]
  | some v =>
    rw [hv] at h
    cases x <;> cases h
    · simp only [Conn.lines, List.map_append, List.map_cons, List.map_nil, lookup_text, (SamSession.C174_texts _ []).2.1, answer]
    · simp only [Conn.lines, List.map_append, List.map_cons, List.map_nil, dest_text, answer]

theorem all_lines (b64 : Bytes → Str) {D : Type} (now : Nat) (xs : List (Cmd D × Fresh)) : ∀ (c c' : Conn), c.handleAll now xs = (c', none) →
    c'.lines b64 = c.lines b64 ++ xs.map (answer b64) := by
  induction xs with
  | nil => intro c c' h; cases h; simp
  | cons x xs ih =>
    intro c c' h
    obtain ⟨x, f⟩ := x
    unfold Conn.handleAll at h
    split at h
    · cases h
    · rename_i c1 h1
      rw [ih c1 c' h, handle_line b64 now c x f h1]
      simp

/-- As long as a connection goes on, every command of the client was answered by one line, in their order. -/
theorem C298_answers (b64 : Bytes → Str) {D : Type} (now : Nat) (polls : List (Poll D)) (c : Conn) (goes_on : (Conn.new now).run polls = (c, none)) :
    c.lines b64 = (polls.flatMap (·.cmds)).map (answer b64) := by
  have go : ∀ (polls : List (Poll D)) (c c' : Conn), c.run polls = (c', none) → c'.lines b64 = c.lines b64 ++ (polls.flatMap (·.cmds)).map (answer b64) := by
    intro polls
    induction polls with
    | nil => intro c c' h; cases h; simp
    | cons p ps ih =>
      intro c c' h
      unfold Conn.run at h
      split at h
      · cases h
      · rename_i c1 h1
        unfold Conn.poll at h1
        split at h1
        · cases h1
        · rename_i c2 h2
          have : c1 = c2 := by
            split at h1
            · cases h1
            · split at h1
              · cases h1
              · cases h1; rfl
          subst this
          rw [ih c1 c' h, all_lines b64 p.now p.cmds c c1 h2]
          simp
  have := go polls (Conn.new now) c goes_on
  simpa [Conn.lines, Conn.new] using this

theorem texts_differ (name v : Str) : missingText name ≠ okText name v := by
  intro h
  unfold missingText okText at h
  have h1 : "NAMING REPLY RESULT=KEY_NOT_FOUND NAME=".toList = "NAMING REPLY RESULT=".toList ++ 'K' :: "EY_NOT_FOUND NAME=".toList := by decide +kernel
  have h2 : "NAMING REPLY RESULT=OK NAME=".toList = "NAMING REPLY RESULT=".toList ++ 'O' :: "K NAME=".toList := by decide +kernel
  rw [h1, h2] at h
  simp only [List.append_assoc, List.cons_append] at h
  have h := List.append_cancel_left h
  injection h with h _
  exact absurd h (by decide)

/-- A name that a session finds at once is not found by the same client before it has the session. -/
theorem C298_lookup_violated (b64 : Bytes → Str) {D : Type} [DecidableEq D] (e : SamSession.Env D) (s : SamSession.State D) (opened : s.socket = true) (name : Str) (d : D) (v : Str)
    (names : target e name = some d) (idle : d ∉ s.queries) (now : Nat) (c : Conn) (greeted : c.version.isSome) (f : Fresh) :
    said (s.step e (.lookup name (some v))).out = said s.out ++ [(name, okText name v)] ∧
    ∃ c', c.handle now (.lookup name : Cmd D) f = (c', none) ∧ c'.lines b64 = c.lines b64 ++ [missingText name] ∧ missingText name ≠ okText name v := by
  refine ⟨(SamSession.C174_now e s opened name (some v)).2.2.2.2 d v names rfl idle, ?_⟩
  obtain ⟨u, hu⟩ := Option.isSome_iff_exists.mp greeted
  have : c.handle now (.lookup name : Cmd D) f = ({ c with sent := c.sent ++ [.notFound name] }, none) := by unfold Conn.handle; rw [hu]
  refine ⟨_, this, ?_, texts_differ name v⟩
  simp only [Conn.lines, List.map_append, List.map_cons, List.map_nil, lookup_text]

/-! ## The hypotheses can be met -/

/-- A greeting, a lookup and new keys. -/
def early : List (Poll Nat) := [{ now := 5, cmds := [(.hello none (some .v33), ⟨[], [], []⟩)] }, { now := 6, cmds := [(.lookup "a.i2p".toList, ⟨[], [], []⟩), (.generate, ⟨[1], [2], [3]⟩)] }]

example : ((Conn.new 0).run early).2.isNone = true := by decide +kernel

example (b64 : Bytes → Str) := C298_answers b64 0 early ((Conn.new 0).run early).1 rfl

example (b64 : Bytes → Str) := C298_lookup_violated b64 SamSession.toyEnv (SamSession.State.new : SamSession.State Nat) rfl SamSession.aa 7 "w".toList (by decide +kernel) (by decide)
  6 ((Conn.new 0).run early).1 (by decide +kernel) ⟨[], [], []⟩

end Emissary.SamHello
