import Verif.Model.Tunnels
/-!
# C224, C225: server and client tunnels
-/
namespace Emissary.Tunnels

/-! ## C224: the address of a server tunnel -/

theorem bytes_apply (bs : Bytes) : ∀ old : Bytes, applyAll (some old) (bs.map .byte) = some (old ++ bs) := by
  induction bs with
  | nil => intro old; simp [applyAll]
  | cons b bs ih =>
    intro old
    have := ih (old ++ [b])
    simpa [applyAll, applyEff] using this

theorem write_apply (f : Option Bytes) (bs : Bytes) : applyAll f (writeFile true bs) = some bs := by
  have := bytes_apply bs []
  simpa [applyAll, applyEff, writeFile] using this

theorem loaded (utf8 : Bytes → Bool) (s : Start) {bs : Bytes} (h : utf8 bs = true) :
    loadOrCreate utf8 s (some bs) = ([], some bs) := by
  simp [loadOrCreate, h]

theorem starts_loaded (utf8 : Bytes → Bool) (ss : List Start) {bs : Bytes} (h : utf8 bs = true) : starts utf8 (some bs) ss = some bs := by
  induction ss with
  | nil => rfl
  | cons s ss ih =>
    have : (start utf8 (some bs) s).1 = some bs := by
      unfold start
      rw [loaded utf8 s h]
      split <;> simp [applyAll]
    show starts utf8 (start utf8 (some bs) s).1 ss = _
    rw [this]
    exact ih

theorem generate_writes (s : Start) (hw : s.writable = true) (file : Option Bytes) : ∀ n i key, (generate s n i).2 = some key →
    applyAll file (generate s n i).1 = some key := by
  intro n
  induction n with
  | zero => intro i key h; cases h
  | succ n ih =>
    intro i key h
    unfold generate at h ⊢
    cases ha : s.answers i with
    | none => rw [ha] at h; exact ih _ _ h
    | some k =>
      rw [ha] at h
      dsimp only at h ⊢
      injection h with h
      subst h
      rw [hw]
      exact write_apply _ _

/-- **C224**, in part: once a start has ended with a destination for the tunnel, and could store it, every
later start has the same, wherever the starts between them were killed. -/
theorem C224_same_partial (utf8 : Bytes → Bool) (file : Option Bytes) (s : Start) {key : Bytes} (hw : s.writable = true)
    (hu : utf8 key = true) (h : (start utf8 file s).2 = some key) (ss : List Start) (s' : Start) (hs : s'.stop = none) :
    (start utf8 (starts utf8 (start utf8 file s).1 ss) s').2 = some key := by
  have h1 : (start utf8 file s).1 = some key := by
    unfold start at h ⊢
    split at h
    · dsimp only at h ⊢
      unfold loadOrCreate at h ⊢
      cases file with
      | none => exact generate_writes s hw _ _ _ _ h
      | some bs =>
        dsimp only at h ⊢
        by_cases hb : utf8 bs = true
        · rw [if_pos hb] at h ⊢
          injection h with h
          subst h
          rfl
        · rw [if_neg hb] at h ⊢
          exact generate_writes s hw _ _ _ _ h
    · cases h
  rw [h1, starts_loaded utf8 ss hu]
  unfold start
  rw [hs]
  dsimp only
  rw [loaded utf8 s' hu]

/-- **C224**, violated: if the first start is killed while it writes the file, the part that was written is
the destination of the tunnel in every later start, and no new one is made. -/
theorem C224_torn_violated (utf8 : Bytes → Bool) (s : Start) {key : Bytes} (ha : s.answers 0 = some key) (hw : s.writable = true)
    (m : Nat) (hs : s.stop = some (m + 1)) (hu : utf8 (key.take m) = true) (ss : List Start) (s' : Start) (hs' : s'.stop = none) :
    (start utf8 (starts utf8 (start utf8 none s).1 ss) s').2 = some (key.take m) := by
  have h1 : (start utf8 none s).1 = some (key.take m) := by
    unfold start
    rw [hs]
    dsimp only [loadOrCreate, generate]
    rw [ha, hw]
    dsimp only [writeFile]
    rw [if_pos rfl, List.take_succ_cons, ← List.map_take]
    have := bytes_apply (key.take m) []
    simpa [applyAll, applyEff] using this
  rw [h1, starts_loaded utf8 ss hu]
  unfold start
  rw [hs']
  dsimp only
  rw [loaded utf8 s' hu]

/-- **C224**, violated: if the file cannot be written, every start has the destination that the SAM server
happens to make. -/
theorem C224_unwritable_violated (utf8 : Bytes → Bool) (ss : List Start) (hss : ∀ x ∈ ss, x.writable = false) (s : Start)
    (hw : s.writable = false) (hs : s.stop = none) {key : Bytes} (ha : s.answers 0 = some key) :
    (start utf8 (starts utf8 none ss) s).2 = some key := by
  have gen : ∀ x : Start, x.writable = false → ∀ n i, (generate x n i).1 = [] := by
    intro x hx n
    induction n with
    | zero => intro i; rfl
    | succ n ih =>
      intro i
      unfold generate
      split
      · simp [writeFile, hx]
      · exact ih _
  have h1 : starts utf8 none ss = none := by
    induction ss with
    | nil => rfl
    | cons x ss ih =>
      have : (start utf8 none x).1 = none := by
        unfold start loadOrCreate
        split <;> simp [gen x (hss x (by simp)), applyAll]
      show starts utf8 (start utf8 none x).1 ss = none
      rw [this]
      exact ih fun y hy => hss y (by simp [hy])
  rw [h1]
  unfold start
  rw [hs]
  dsimp only [loadOrCreate, generate]
  rw [ha]

/-! ## C225: connections to client tunnels -/

/-- **C225**, in part: a connection is joined only to the destination and port of the tunnel it was made
to. -/
theorem C225_joined_partial (cs : List Config) (es : List Ev) : ∀ (s : State) (conn : Nat) (d : Bytes) (p : Nat),
    Out.joined conn d p ∈ (run cs s es).2 →
    ∃ t c, Ev.connect t conn ∈ es ∧ cs[t]? = some c ∧ d = c.destination ∧ p = c.port.getD 0 := by
  induction es with
  | nil => intro s conn d p h; simp [run] at h
  | cons e es ih =>
    intro s conn d p h
    simp only [run, List.mem_append] at h
    rcases h with h | h
    · unfold step at h
      cases hc : cs[e.tunnel]? with
      | none => rw [hc] at h; simp at h
      | some c =>
        rw [hc] at h
        dsimp only at h
        cases e with
        | connect t x =>
          simp only [Phase.step] at h
          split at h <;> simp at h
          obtain ⟨rfl, rfl, rfl⟩ := h
          exact ⟨t, c, by simp, hc, rfl, rfl⟩
        | over t ok => simp only [Phase.step] at h; split at h <;> simp at h
        | wake t => simp only [Phase.step] at h; split at h <;> simp at h
    · obtain ⟨t, c, h1, h2⟩ := ih _ conn d p h
      exact ⟨t, c, by simp [h1], h2⟩

theorem only_connect (cs : List Config) (es : List Ev) (s : State) (conn : Nat) (h : ∀ t, Ev.connect t conn ∉ es) (d : Bytes) (p : Nat) :
    Out.joined conn d p ∉ (run cs s es).2 := by
  intro hm
  obtain ⟨t, c, h1, -⟩ := C225_joined_partial cs es s conn d p hm
  exact h t h1

/-- **C225**, violated: a connection that is made while the tunnel serves another one is never served,
however long it waits. -/
theorem C225_second_violated (cs : List Config) (s : State) (t x : Nat) (q : List Nat) (hs : s t = .serving x q) (conn : Nat)
    (es : List Ev) (hes : ∀ t', Ev.connect t' conn ∉ es) (d : Bytes) (p : Nat) :
    Out.joined conn d p ∉ (run cs s (.connect t conn :: es)).2 := by
  simp only [run, List.mem_append, not_or]
  refine ⟨?_, only_connect cs es _ conn hes d p⟩
  unfold step
  cases cs[(Ev.connect t conn).tunnel]? with
  | none => simp
  | some c => simp [Ev.tunnel, Phase.step, hs]

/-- **C225**, in part: a tunnel that waits serves the next connection, and after a connection that ended
well it waits again. -/
theorem C225_waits_partial (cs : List Config) (s : State) (t conn : Nat) {c : Config} (hc : cs[t]? = some c) (hs : s t = .accepting) :
    (step cs s (.connect t conn)).2 = [.joined conn c.destination (c.port.getD 0)] ∧
    (step cs (step cs s (.connect t conn)).1 (.over t true)).1 t = .accepting := by
  have h1 : step cs s (.connect t conn) = (fun t' => if t' = t then .serving conn [] else s t', [.joined conn c.destination (c.port.getD 0)]) := by
    unfold step
    simp only [Ev.tunnel, hc]
    simp only [Phase.step, hs]
    congr 1
    funext t'
    by_cases h : t' = t
    · subst h; simp [hs]
    · simp [h]
  rw [h1]
  refine ⟨rfl, ?_⟩
  unfold step
  simp only [Ev.tunnel, hc]
  simp [Phase.step]

/-! ## The cases occur -/

def sampleStart : Start := { answers := fun i => if i = 1 then some [65, 66, 67] else none }
example : (start (fun _ => true) none sampleStart) = (some [65, 66, 67], some [65, 66, 67]) := by decide
example := C224_torn_violated (fun _ => true) { answers := fun _ => some [65, 66], stop := some 1 } rfl rfl 0 rfl rfl
  [sampleStart] sampleStart rfl
example : (run [⟨[1], some 80⟩, ⟨[2], none⟩] initial [.connect 1 7, .connect 0 8, .connect 1 9, .over 1 true, .connect 1 10]).2 =
    [.joined 7 [2] 0, .joined 8 [1] 80, .reset 9, .joined 10 [2] 0] := by rfl

end Emissary.Tunnels
