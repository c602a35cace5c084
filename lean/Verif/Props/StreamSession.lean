import Verif.Model.StreamSession
import Verif.Props.StreamEnds
/-!
# C301: streams of one session do not disturb each other
-/
namespace Emissary.StreamTask
open Emissary Emissary.Stream

/-! ## Proofs -/

theorem Sess.step_over (b64 : Bytes → List Char) (s : Sess) (e : SEv) (h : s.over = true) : s.step b64 e = s := by
  simp [Sess.step, h]

theorem Sess.run_over (b64 : Bytes → List Char) (s : Sess) (h : s.over = true) : ∀ es, s.run b64 es = s
  | [] => rfl
  | e :: es => by
    simp only [Sess.run, List.foldl_cons, Sess.step_over b64 s e h]
    exact Sess.run_over b64 s h es

/-- An event of one task. -/
theorem Sess.step_other (b64 : Bytes → List Char) (s : Sess) (e : SEv) (i : Nat) (h : (s.step b64 e).over = false) (hi : e.id ≠ i) :
    (s.step b64 e).tasks i = s.tasks i := by
  unfold Sess.step at h ⊢
  by_cases ho : s.over = true
  · rw [if_pos ho]
  · rw [if_neg ho] at h ⊢
    cases e with
    | start id remote sock kind =>
      simp only [SEv.id] at hi
      simp only
      split
      · rfl
      · simp only; rw [if_neg (Ne.symm hi)]
    | task id op =>
      simp only [SEv.id] at hi
      simp only
      split
      · rfl
      · simp only; rw [if_neg (Ne.symm hi)]
    | collect id =>
      simp only [SEv.id] at hi
      simp only at h ⊢
      split
      · rfl
      · split
        · rfl
        · rename_i t ht _ hp
          rw [ht] at h
          simp only [hp] at h
          cases h
        · simp only; rw [if_neg (Ne.symm hi)]

/-- Sessions that agree about one task agree about it after an event of that task. -/
theorem Sess.step_same (b64 : Bytes → List Char) (s u : Sess) (e : SEv) (h1 : s.over = false) (h2 : u.over = false) (ht : s.tasks e.id = u.tasks e.id) :
    (s.step b64 e).over = (u.step b64 e).over ∧ (s.step b64 e).tasks e.id = (u.step b64 e).tasks e.id := by
  unfold Sess.step
  simp only [h1, h2, Bool.false_eq_true, if_false]
  cases e with
  | start id remote sock kind =>
    simp only [SEv.id] at ht ⊢
    rw [ht]
    cases hu : u.tasks id with
    | none => simp [h1, h2]
    | some t => simp [h1, h2, ht]
  | task id op =>
    simp only [SEv.id] at ht ⊢
    rw [ht]
    cases hu : u.tasks id with
    | none => simp [h1, h2, ht]
    | some t => simp [h1, h2]
  | collect id =>
    simp only [SEv.id] at ht ⊢
    rw [ht]
    cases hu : u.tasks id with
    | none => simp [h1, h2, ht]
    | some t =>
      cases he : t.ended with
      | none => simp [h1, h2, ht, he, hu]
      | some x => cases x <;> simp [h1, h2, he]

theorem Sess.run_alone (b64 : Bytes → List Char) (i : Nat) : ∀ (es : List SEv) (s u : Sess), u.over = false → s.tasks i = u.tasks i → (s.run b64 es).over = false →
    (u.run b64 (es.filter fun e => e.id == i)).over = false ∧ (s.run b64 es).tasks i = (u.run b64 (es.filter fun e => e.id == i)).tasks i
  | [], s, u, hu, ht, _ => ⟨hu, ht⟩
  | e :: es, s, u, hu, ht, hr => by
    have hs : (s.step b64 e).over = false := by
      cases ho : (s.step b64 e).over with
      | false => rfl
      | true =>
        have : s.run b64 (e :: es) = s.step b64 e := Sess.run_over b64 _ ho es
        rw [this, ho] at hr; cases hr
    have hs0 : s.over = false := by
      cases ho : s.over with
      | false => rfl
      | true => rw [Sess.step_over b64 s e ho, ho] at hs; cases hs
    by_cases hi : e.id = i
    · subst hi
      obtain ⟨h1, h2⟩ := Sess.step_same b64 s u e hs0 hu ht
      have := Sess.run_alone b64 e.id es (s.step b64 e) (u.step b64 e) (by rw [← h1]; exact hs) h2 hr
      simpa [Sess.run] using this
    · have := Sess.run_alone b64 i es (s.step b64 e) u hu (by rw [Sess.step_other b64 s e i hs hi]; exact ht) hr
      have hf : (e :: es).filter (fun e => e.id == i) = es.filter (fun e => e.id == i) := by simp [hi]
      rw [hf]
      exact this

/-- As long as the session runs, each of its streams is in the state that it would have if it were the only one: what happens to the others has no effect on it. -/
theorem C301_alone_partial (b64 : Bytes → List Char) (es : List SEv) (i : Nat) (h : (Sess.run b64 {} es).over = false) :
    (Sess.run b64 {} es).tasks i = (Sess.run b64 {} (es.filter fun e => e.id == i)).tasks i :=
  (Sess.run_alone b64 i es {} {} rfl rfl h).2

theorem Sess.step_ends (b64 : Bytes → List Char) (s : Sess) (e : SEv) (h0 : s.over = false) (h : (s.step b64 e).over = true) :
    ∃ id t, e = .collect id ∧ s.tasks id = some t ∧ t.ended = some .panic := by
  unfold Sess.step at h
  rw [if_neg (by rw [h0]; decide)] at h
  cases e with
  | start id remote sock kind => simp only at h; split at h <;> simp [h0] at h
  | task id op => simp only at h; split at h <;> simp [h0] at h
  | collect id =>
    simp only at h
    split at h
    · rw [h0] at h; cases h
    · rename_i t ht
      split at h
      · rw [h0] at h; cases h
      · rename_i hp; exact ⟨id, t, rfl, ht, hp⟩
      · simp [h0] at h

/-- Nothing but a stream that has panicked ends the session. -/
theorem C301_ends_partial (b64 : Bytes → List Char) : ∀ (es : List SEv) (s : Sess), s.over = false → (s.run b64 es).over = true →
    ∃ pre post id t, es = pre ++ .collect id :: post ∧ (s.run b64 pre).over = false ∧ (s.run b64 pre).tasks id = some t ∧ t.ended = some .panic
  | [], s, h0, h => by simp [Sess.run, h0] at h
  | e :: es, s, h0, h => by
    cases ho : (s.step b64 e).over with
    | true =>
      obtain ⟨id, t, rfl, ht, hp⟩ := Sess.step_ends b64 s e h0 ho
      exact ⟨[], es, id, t, rfl, h0, ht, hp⟩
    | false =>
      obtain ⟨pre, post, id, t, rfl, h1, h2, h3⟩ := C301_ends_partial b64 es (s.step b64 e) ho h
      exact ⟨e :: pre, post, id, t, rfl, h1, h2, h3⟩

theorem run_snoc (t : Task) : ∀ (ops : List Op) (op : Op), (t.run (ops ++ [op])).1 = ((t.run ops).1.step op).1
  | [], op => rfl
  | o :: ops, op => run_snoc (t.step o).1 ops op

/-- Every task of the session has been started and has gone through steps of its own. -/
def Grown (b64 : Bytes → List Char) (es : List SEv) (s : Sess) : Prop :=
  ∀ id t, s.tasks id = some t → ∃ remote sock kind ops, SEv.start id remote sock kind ∈ es ∧ (∀ op ∈ ops, SEv.task id op ∈ es) ∧
    t = ((Task.start b64 remote sock kind).run ops).1

theorem Grown.mono {b64 : Bytes → List Char} {es more : List SEv} {s : Sess} (h : Grown b64 es s) : Grown b64 (es ++ more) s := by
  intro id t ht
  obtain ⟨r, so, k, ops, h1, h2, h3⟩ := h id t ht
  exact ⟨r, so, k, ops, List.mem_append_left _ h1, fun op ho => List.mem_append_left _ (h2 op ho), h3⟩

theorem Grown.step {b64 : Bytes → List Char} {es : List SEv} {s : Sess} (h : Grown b64 es s) (e : SEv) : Grown b64 (es ++ [e]) (s.step b64 e) := by
  have hin : e ∈ es ++ [e] := by simp
  replace h : Grown b64 (es ++ [e]) s := h.mono
  generalize es ++ [e] = all at h hin
  unfold Sess.step
  by_cases ho : s.over = true
  · rw [if_pos ho]; exact h
  · rw [if_neg ho]
    cases e with
    | start id remote sock kind =>
      simp only
      split
      · exact h
      · intro i t ht
        simp only at ht
        split at ht
        · rename_i hi
          cases ht
          subst hi
          exact ⟨remote, sock, kind, [], hin, by simp, rfl⟩
        · exact h i t ht
    | task id op =>
      simp only
      split
      · exact h
      · rename_i u hu
        intro i t ht
        simp only at ht
        split at ht
        · rename_i hi
          cases ht
          subst hi
          obtain ⟨r, so, k, ops, h1, h2, rfl⟩ := h i u hu
          refine ⟨r, so, k, ops ++ [op], h1, fun o hx => ?_, (run_snoc _ ops op).symm⟩
          rcases List.mem_append.1 hx with hx | hx
          · exact h2 o hx
          · rw [List.mem_singleton.1 hx]; exact hin
        · exact h i t ht
    | collect id =>
      simp only
      split
      · exact h
      · split
        · exact h
        · intro i t ht; cases ht
        · intro i t ht
          simp only at ht
          split at ht
          · cases ht
          · exact h i t ht

theorem Grown.run {b64 : Bytes → List Char} : ∀ (rest : List SEv) {es : List SEv} {s : Sess}, Grown b64 es s → Grown b64 (es ++ rest) (s.run b64 rest)
  | [], es, s, h => by simpa [Sess.run] using h
  | e :: rest, es, s, h => by
    have := Grown.run rest (h.step e)
    simpa [Sess.run, List.append_assoc] using this

/-- What must have happened before a session ends by itself: on one of its streams, a `SYN` of the peer found the channel full, or the peer has used the last number. -/
theorem C301_why_partial (b64 : Bytes → List Char) (es : List SEv) (h : (Sess.run b64 {} es).over = true) :
    ∃ id remote sock kind, SEv.start id remote sock kind ∈ es ∧
      ((∃ p, SEv.task id (.packet (some p) false) ∈ es ∧ p.flags.synchronize = true) ∨ kind.highest + 1 ≥ 2 ^ 32 ∨
       (∃ p room, SEv.task id (.packet (some p) room) ∈ es ∧ p.payload ≠ [] ∧ p.seq + 1 ≥ 2 ^ 32)) := by
  obtain ⟨pre, post, id, t, rfl, -, ht, hp⟩ := C301_ends_partial b64 es {} rfl h
  have hg : Grown b64 pre (Sess.run b64 {} pre) := by
    have := Grown.run (b64 := b64) pre (es := []) (s := {}) (by intro i t ht; cases ht)
    simpa using this
  obtain ⟨remote, sock, kind, ops, h1, h2, rfl⟩ := hg id t ht
  refine ⟨id, remote, sock, kind, List.mem_append_left _ h1, ?_⟩
  rcases C300_reason _ _ ops _ hp with ⟨p, room, hm, hs, rfl⟩ | hb | ⟨p, room, hm, hd, hn⟩
  · exact .inl ⟨p, List.mem_append_left _ (h2 _ hm), hs⟩
  · exact .inr (.inl hb)
  · exact .inr (.inr ⟨p, room, List.mem_append_left _ (h2 _ hm), hd, hn⟩)

/-- The code does not keep them apart: one stream that panics ends its session with all other streams. -/
theorem C301_panic_violated (b64 : Bytes → List Char) (s : Sess) (h0 : s.over = false) (id : Nat) (t : Task) (ht : s.tasks id = some t) (he : t.ended = none)
    (hw : t.writing = none) (p : Pkt.Packet) (hs : p.flags.synchronize = true) :
    (s.run b64 [.task id (.packet (some p) false), .collect id]).over = true ∧ ∀ i, (s.run b64 [.task id (.packet (some p) false), .collect id]).tasks i = none := by
  have hp := (C300_syn_violated t he hw p hs).1
  simp [Sess.run, Sess.step, h0, ht, hp]

/-- Two packets of a peer are enough where overflows are checked. The first, with the last number there is, comes before the client has a socket for the stream and is taken.
The second, with any data and any number, comes when the client has taken the first one. -/
theorem C301_two_packets_violated (b64 : Bytes → List Char) (s : Sess) (h0 : s.over = false) (id : Nat) (hid : s.tasks id = none) (remote m : Bytes) (hm : m ≠ [])
    (pend : PendingStream) (hp : ((PendingStream.new []).onPacket false (2 ^ 32 - 1) m).1 = pend) (p : Pkt.Packet)
    (hs : p.flags.synchronize = false) (hr : p.flags.reset = false) (hd : p.payload ≠ []) (room room' : Bool) (es : List SEv)
    (hes : es = [.start id remote (.accept true) (.pending pend.seq pend.packets), .task id (.written m.length room), .task id (.packet (some p) room'), .collect id]) :
    (s.run b64 es).over = true ∧ ∀ i, (s.run b64 es).tasks i = none := by
  have hme : m.isEmpty = false := by simpa using hm
  have hml : m.length ≠ 0 := by simpa using hm
  subst hp
  have h1 : ((PendingStream.new []).onPacket false (2 ^ 32 - 1) m).1 = { packets := [m], seq := 2 ^ 32 - 1 } := by
    simp [PendingStream.onPacket, PendingStream.new, hme, pendingWindow]
  rw [h1] at hes
  subst hes
  have hstart : Task.start b64 remote (.accept true) (.pending (2 ^ 32 - 1) [m]) = Task.new (2 ^ 32 - 1) (some m) := by
    simp [Task.start, Kind.highest, Kind.data, greeting, firstMessage, hme]
  generalize hu : ((Task.new (2 ^ 32 - 1) (some m)).step (.written m.length room)).1 = u
  have hun : u.ended = none ∧ u.writing = none ∧ u.inb.cur = 2 ^ 32 - 1 := by
    rw [← hu]
    simp [Task.step, Task.new, Inbound.new, hml]
  have hpan := C300_last_number_violated u hun.1 hun.2.1 hun.2.2 p hs hr hd room'
  simp only [Sess.run, List.foldl_cons, List.foldl_nil]
  simp [Sess.step, h0, hid, hstart, hu, hpan]

-- A session with two streams: one ends and the other goes on; then a `SYN` comes to that one again while the channel is full.
example : let b64 : Bytes → List Char := fun _ => []
    let es : List SEv := [.start 1 [] (.accept true) (.inbound []), .start 2 [] (.accept true) (.inbound []), .task 1 .pathGone, .collect 1]
    let s := Sess.run b64 {} es
    s.over = false ∧ (s.tasks 1).isNone ∧ (s.tasks 2).isSome ∧ (s.tasks 2).map (·.writing) = some none ∧
    (s.run b64 [.task 2 (.packet (some { closePkt 0 [] with flags := ⟨none, 1, none, none, none, none⟩ }) false), .collect 2]).over = true := by decide +kernel
example : let s : Sess := Sess.run (fun _ => []) {} [.start 1 [] (.accept true) (.inbound [])]
    s.over = false ∧ (s.tasks 7).isNone ∧ (dataPkt 3 0 [1]).flags.synchronize = false ∧ (dataPkt 3 0 [1]).flags.reset = false ∧ (dataPkt 3 0 [1]).payload ≠ [] := by decide +kernel

end Emissary.StreamTask
