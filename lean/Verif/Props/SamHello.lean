import Verif.Model.SamHello
import Verif.Props.SamParser
/-!
# C226 to C228: the beginning of a SAM connection
-/
namespace Emissary.SamHello
open Emissary.SamParser

/-! ## C226: the version -/

/-- The order of versions. -/
def rank : Version → Nat
  | .v31 => 1
  | .v32 => 2
  | .v33 => 3

/-- The commands of a history, in order. -/
def commands {D : Type} (ps : List (Poll D)) : List (Cmd D) := ps.flatMap fun p => p.cmds.map (·.1)

/-- What holds after the commands `xs`: before the first of them nothing was said, and the first of them said which version. -/
def Inv {D : Type} (c : Conn) (xs : List (Cmd D)) : Prop :=
  (c.version = none → xs = [] ∧ c.sent = []) ∧
  ∀ v, c.version = some v → (∃ min max rest, xs = .hello min max :: rest ∧ v = agree max) ∧ (∃ rest, c.sent = .hello v :: rest)

theorem handle_inv {D : Type} (now : Nat) (c : Conn) (xs : List (Cmd D)) (x : Cmd D) (f : Fresh) (h : Inv c xs) {c' : Conn}
    (hr : c.handle now x f = (c', none)) : Inv c' (xs ++ [x]) := by
  unfold Conn.handle at hr
  cases hv : c.version with
  | none =>
    rw [hv] at hr
    obtain ⟨rfl, hs⟩ := h.1 hv
    cases x with
    | hello min max =>
      cases hr
      refine ⟨fun h => by simp at h, ?_⟩
      intro v hv
      simp only [Option.some.injEq] at hv
      subst hv
      exact ⟨⟨min, max, [], rfl, rfl⟩, [], by simp [hs]⟩
    | _ => cases hr
  | some v =>
    rw [hv] at hr
    obtain ⟨⟨min, max, rest, rfl, hm⟩, r, hs⟩ := h.2 v hv
    cases x with
    | lookup name =>
      cases hr
      refine ⟨fun h => by simp [hv] at h, ?_⟩
      intro v' hv'
      have : v' = v := by simpa [hv] using hv'.symm
      subst this
      exact ⟨⟨min, max, rest ++ [.lookup name], by simp, hm⟩, r ++ [.notFound name], by simp [hs]⟩
    | generate =>
      cases hr
      refine ⟨fun h => by simp [hv] at h, ?_⟩
      intro v' hv'
      have : v' = v := by simpa [hv] using hv'.symm
      subst this
      exact ⟨⟨min, max, rest ++ [.generate], by simp, hm⟩, r ++ [_], by simp [hs]; rfl⟩
    | _ => cases hr

theorem handle_done {D : Type} (now : Nat) (c : Conn) (x : Cmd D) (f : Fresh) {c' : Conn} {y : Cmd D} {v : Version}
    (hr : c.handle now x f = (c', some (.done y v))) : c.version = some v ∧ c' = c ∧ y = x := by
  unfold Conn.handle at hr
  cases hv : c.version with
  | none => rw [hv] at hr; cases x <;> cases hr
  | some w => rw [hv] at hr; cases x <;> cases hr <;> exact ⟨rfl, rfl, rfl⟩

theorem handleAll_inv {D : Type} (now : Nat) : ∀ (l : List (Cmd D × Fresh)) (c : Conn) (xs : List (Cmd D)), Inv c xs →
    (∀ c', c.handleAll now l = (c', none) → Inv c' (xs ++ l.map (·.1))) ∧
    (∀ c' y v, c.handleAll now l = (c', some (.done y v)) → ∃ pre post, xs ++ l.map (·.1) = pre ++ y :: post ∧ c'.version = some v ∧ Inv c' pre) := by
  intro l
  induction l with
  | nil =>
    intro c xs h
    refine ⟨fun c' hr => ?_, fun c' y v hr => by cases hr⟩
    cases hr
    simpa using h
  | cons a l ih =>
    intro c xs h
    obtain ⟨x, f⟩ := a
    cases hh : c.handle now x f with
    | mk c1 r =>
      cases r with
      | none =>
        have := ih c1 (xs ++ [x]) (handle_inv now c xs x f h hh)
        unfold Conn.handleAll
        rw [hh]
        simpa [List.append_assoc] using this
      | some r =>
        unfold Conn.handleAll
        rw [hh]
        refine ⟨fun c' hr => by (dsimp only at hr; cases hr), fun c' y v hr => ?_⟩
        dsimp only at hr
        cases hr
        obtain ⟨h1, rfl, rfl⟩ := handle_done now c x f hh
        exact ⟨xs, l.map (·.1), by simp, h1, h⟩

theorem run_inv {D : Type} : ∀ (ps : List (Poll D)) (c : Conn) (xs : List (Cmd D)), Inv c xs → ∀ c' y v, c.run ps = (c', some (.done y v)) →
    ∃ pre post, xs ++ commands ps = pre ++ y :: post ∧ c'.version = some v ∧ Inv c' pre := by
  intro ps
  induction ps with
  | nil => intro c xs h c' y v hr; cases hr
  | cons p ps ih =>
    intro c xs h c' y v hr
    have hA := handleAll_inv p.now p.cmds c xs h
    have hcm : commands (p :: ps) = p.cmds.map (·.1) ++ commands ps := rfl
    unfold Conn.run Conn.poll at hr
    cases hh : c.handleAll p.now p.cmds with
    | mk c1 r =>
      rw [hh] at hr
      cases r with
      | some r =>
        dsimp only at hr
        cases hr
        obtain ⟨pre, post, e1, e2, e3⟩ := hA.2 _ _ _ hh
        exact ⟨pre, post ++ commands ps, by rw [hcm, ← List.append_assoc, e1]; simp, e2, e3⟩
      | none =>
        dsimp only at hr
        have h1 := hA.1 c1 hh
        by_cases hc : p.closed = true
        · rw [if_pos hc] at hr; cases hr
        · rw [if_neg hc] at hr
          by_cases hd : c1.deadline ≤ p.now
          · rw [if_pos hd] at hr; cases hr
          · rw [if_neg hd] at hr
            have := ih c1 _ h1 c' y v hr
            rwa [List.append_assoc, ← hcm] at this

/-- **C226**, in part: a connection that goes on has begun with a greeting; the version of the connection is the one the client was told, at most the version it
has as its maximum, and otherwise the newest that the router has. -/
theorem C226_version_partial {D : Type} (now : Nat) (ps : List (Poll D)) (c : Conn) (y : Cmd D) (v : Version) (h : (Conn.new now).run ps = (c, some (.done y v))) :
    ∃ min max rest, commands ps = .hello min max :: rest ∧ y ∈ rest ∧ (∃ more, c.sent = .hello v :: more) ∧
      rank v = Nat.min 2 (max.elim 2 rank) := by
  obtain ⟨pre, post, e1, e2, e3⟩ := run_inv ps (Conn.new now) [] ⟨fun _ => ⟨rfl, rfl⟩, fun v h => by cases h⟩ c y v h
  obtain ⟨⟨min, max, rest, rfl, hm⟩, more, hs⟩ := e3.2 v e2
  refine ⟨min, max, rest ++ y :: post, by simpa using e1, by simp, ⟨more, hs⟩, ?_⟩
  subst hm
  cases max with
  | none => rfl
  | some m => cases m <;> rfl

/-- **C226**, violated: a client that needs version 3.3 is not told that the router does not have it; it is told that an older version was agreed on. -/
theorem C226_minimum_violated {D : Type} (now t : Nat) (max : Option Version) (f : Fresh) :
    ∃ c v, (Conn.new now).run [({ now := t, cmds := [((.hello (some .v33) max : Cmd D), f)] } : Poll D)] = (c, none) ∧ c.sent = [.hello v] ∧ rank v < rank .v33 := by
  refine ⟨{ deadline := t + keepAlive, version := some (agree max), sent := [.hello (agree max)] }, agree max, ?_, rfl, ?_⟩
  · have h : ¬ (t + keepAlive ≤ t) := by unfold keepAlive; omega
    simp only [Conn.run, Conn.poll, Conn.handleAll, Conn.handle, Conn.new, if_neg h]
    rfl
  · cases max with
    | none => decide
    | some m => cases m <;> decide

/-! ## C227: how long a connection is kept -/

theorem handle_deadline {D : Type} (now : Nat) (c : Conn) (x : Cmd D) (f : Fresh) (d : Nat) (hd : d ≤ now) (h : d + 10000 ≤ c.deadline) :
    d + 10000 ≤ (c.handle now x f).1.deadline := by
  unfold Conn.handle
  cases c.version with
  | none => cases x <;> simp [keepAlive] <;> omega
  | some v => cases x <;> simpa using h

theorem handleAll_deadline {D : Type} (now : Nat) (l : List (Cmd D × Fresh)) : ∀ (c : Conn) (d : Nat), d ≤ now → d + 10000 ≤ c.deadline →
    d + 10000 ≤ (c.handleAll now l).1.deadline := by
  induction l with
  | nil => intro c d _ h; exact h
  | cons a l ih =>
    intro c d hd h
    have h1 := handle_deadline now c a.1 a.2 d hd h
    unfold Conn.handleAll
    cases hh : c.handle now a.1 a.2 with
    | mk c1 r =>
      rw [hh] at h1
      cases r with
      | none => exact ih c1 d hd h1
      | some r => exact h1

theorem handleAll_no_timeout {D : Type} (now : Nat) (l : List (Cmd D × Fresh)) : ∀ (c c' : Conn), c.handleAll now l ≠ (c', some .timeout) := by
  induction l with
  | nil => intro c c' h; cases h
  | cons a l ih =>
    intro c c' h
    unfold Conn.handleAll at h
    cases hh : c.handle now a.1 a.2 with
    | mk c1 r =>
      rw [hh] at h
      cases r with
      | none => exact ih c1 c' h
      | some r =>
        dsimp only at h
        cases h
        unfold Conn.handle at hh
        obtain ⟨x, f⟩ := a
        cases hv : c.version <;> rw [hv] at hh <;> cases x <;> cases hh

/-- **C227**, in part: no connection is closed for silence within ten seconds: neither after it was made, nor, in the second theorem, after the greeting. -/
theorem C227_kept_partial {D : Type} (start : Nat) (ps : List (Poll D)) (hp : ∀ p ∈ ps, start ≤ p.now ∧ p.now < start + 10000) (c : Conn)
    (hc : start + 10000 ≤ c.deadline) : ∀ c', c.run ps ≠ (c', some .timeout) := by
  induction ps generalizing c with
  | nil => intro c' h; cases h
  | cons p ps ih =>
    intro c' h
    have hb := hp p (by simp)
    have h1 := handleAll_deadline p.now p.cmds c start hb.1 hc
    unfold Conn.run Conn.poll at h
    cases hh : c.handleAll p.now p.cmds with
    | mk c1 r =>
      rw [hh] at h h1
      cases r with
      | some r =>
        dsimp only at h
        cases h
        exact handleAll_no_timeout _ _ _ _ hh
      | none =>
        dsimp only at h h1
        by_cases hcl : p.closed = true
        · rw [if_pos hcl] at h; cases h
        · rw [if_neg hcl, if_neg (by omega)] at h
          exact ih (fun q hq => hp q (by simp [hq])) c1 h1 c' h

/-- A new connection has ten seconds. -/
theorem C227_new_partial {D : Type} (start : Nat) (ps : List (Poll D)) (hp : ∀ p ∈ ps, start ≤ p.now ∧ p.now < start + 10000) :
    ∀ c', (Conn.new start).run ps ≠ (c', some .timeout) :=
  C227_kept_partial start ps hp _ (Nat.le_refl _)

/-- A connection has ten seconds from its greeting. -/
theorem C227_greeted_partial {D : Type} (t : Nat) (c c' : Conn) (min max : Option Version) (f : Fresh) (hh : c.handle t (.hello min max : Cmd D) f = (c', none))
    (ps : List (Poll D)) (hp : ∀ p ∈ ps, t ≤ p.now ∧ p.now < t + 10000) : ∀ c'', c'.run ps ≠ (c'', some .timeout) := by
  refine C227_kept_partial t ps hp c' ?_
  unfold Conn.handle at hh
  cases hv : c.version <;> rw [hv] at hh
  · cases hh; exact Nat.le_refl _
  · cases hh

/-- Commands that are answered at once: lookups and requests for keys. -/
def Asks {D : Type} : Cmd D → Prop
  | .lookup _ => True
  | .generate => True
  | _ => False

theorem asks_handle {D : Type} (now : Nat) (c : Conn) (x : Cmd D) (f : Fresh) (hx : Asks x) {v : Version} (hv : c.version = some v) :
    ∃ s, c.handle now x f = ({ c with sent := c.sent ++ [s] }, none) := by
  unfold Conn.handle
  rw [hv]
  cases x <;> first | exact ⟨_, rfl⟩ | exact hx.elim

theorem asks_handleAll {D : Type} (now : Nat) (l : List (Cmd D × Fresh)) : ∀ (c : Conn) (v : Version), (∀ x ∈ l, Asks x.1) → c.version = some v →
    ∃ s, s.length = l.length ∧ c.handleAll now l = ({ c with sent := c.sent ++ s }, none) := by
  induction l with
  | nil => intro c v _ _; exact ⟨[], rfl, by simp [Conn.handleAll]⟩
  | cons a l ih =>
    intro c v hl hv
    obtain ⟨s, hs⟩ := asks_handle now c a.1 a.2 (hl a (by simp)) hv
    obtain ⟨s', hn, hs'⟩ := ih { c with sent := c.sent ++ [s] } v (fun x hx => hl x (by simp [hx])) hv
    refine ⟨s :: s', by simp [hn], ?_⟩
    unfold Conn.handleAll
    rw [hs]
    dsimp only
    rw [hs']
    simp

/-- **C227**, violated: a client that goes on asking and is answered every time is cut off all the same, at the first poll ten seconds after its greeting. -/
theorem C227_busy_violated {D : Type} (t : Nat) (c c' : Conn) (min max : Option Version) (f : Fresh) (hh : c.handle t (.hello min max : Cmd D) f = (c', none))
    (ps : List (Poll D)) (hp : ∀ p ∈ ps, p.now < t + 10000 ∧ p.closed = false ∧ ∀ x ∈ p.cmds, Asks x.1)
    (p : Poll D) (hl : t + 10000 ≤ p.now ∧ p.closed = false ∧ ∀ x ∈ p.cmds, Asks x.1) :
    ∃ c'', c'.run (ps ++ [p]) = (c'', some .timeout) ∧ c''.sent.length = c'.sent.length + (commands (ps ++ [p])).length := by
  have h0 : c'.deadline = t + 10000 ∧ ∃ v, c'.version = some v := by
    unfold Conn.handle at hh
    cases hv : c.version <;> rw [hv] at hh
    · cases hh; exact ⟨rfl, _, rfl⟩
    · cases hh
  clear hh
  induction ps generalizing c' with
  | nil =>
    obtain ⟨hd, v, hv⟩ := h0
    obtain ⟨s, hn, hs⟩ := asks_handleAll p.now p.cmds c' v hl.2.2 hv
    refine ⟨{ c' with sent := c'.sent ++ s }, ?_, by simp [commands, hn]⟩
    simp [Conn.run, Conn.poll, hs, hl.2.1, hd, hl.1]
  | cons q ps ih =>
    obtain ⟨hd, v, hv⟩ := h0
    have hq := hp q (by simp)
    obtain ⟨s, hn, hs⟩ := asks_handleAll q.now q.cmds c' v hq.2.2 hv
    obtain ⟨c'', e1, e2⟩ := ih { c' with sent := c'.sent ++ s } (fun x hx => hp x (by simp [hx])) ⟨hd, v, hv⟩
    refine ⟨c'', ?_, ?_⟩
    · have hnot : ¬ (c'.deadline ≤ q.now) := by omega
      show (match c'.poll q with | (c, some r) => (c, some r) | (c, none) => Conn.run c (ps ++ [p])) = _
      unfold Conn.poll
      rw [hs]
      dsimp only
      rw [hq.2.1, if_neg (by simp), if_neg hnot]
      exact e1
    · have : (commands (q :: ps ++ [p])).length = s.length + (commands (ps ++ [p])).length := by
        simp [commands, hn]
      rw [this]
      simp only [List.length_append] at e2
      omega

/-! ## C228: keys that the router makes can be used -/

/-- **C228**: the private key that a client is given for a new destination can be used to make a session with that destination and its keys, and the public key is the
destination. `enc` is base 64: it can be read again, and its texts have no spaces and no quotes. -/
theorem C228_usable {D : Type} (e : Env D) (enc : Bytes → Str) (h64 : ∀ b, e.base64 (enc b) = some b) (hne : ∀ b, b ≠ [] → enc b ≠ [])
    (hsp : ∀ b, ∀ c ∈ enc b, isSpace c = false ∧ c ≠ '"') (htr : ∀ b, 64 < b.length → enc b ≠ "TRANSIENT".toList)
    (d : D) (f : Fresh) (hd : f.dest ≠ []) (hser : ∀ r, e.dest (f.dest ++ r) = some (d, r)) (h1 : f.priv.length = 32) (h2 : f.sign.length = 32)
    (now : Nat) (c : Conn) (v : Version) (hv : c.version = some v) (id : Str) (hid : (⟨"ID".toList, id, false⟩ : Opt).Ok) :
    ∃ pub priv, c.handle now (.generate : Cmd D) f = ({ c with sent := c.sent ++ [.dest pub priv] }, none) ∧
      (e.base64 (enc pub)).bind e.dest = some (d, []) ∧
      ∃ opts, parse e (line "SESSION" "CREATE" [⟨"ID".toList, id, false⟩, ⟨"STYLE".toList, "STREAM".toList, false⟩, ⟨"DESTINATION".toList, enc priv, false⟩]) =
        .ok (.create id .stream (.given d f.priv f.sign) opts) := by
  refine ⟨f.dest, f.dest ++ f.priv ++ f.sign, ?_, ?_, ?_⟩
  · unfold Conn.handle; rw [hv]
  · rw [h64]; simpa using hser []
  · have hlen : 0 < f.dest.length := by cases hf : f.dest with | nil => exact absurd hf hd | cons a b => simp
    have hok : ∀ o ∈ ([⟨"ID".toList, id, false⟩, ⟨"STYLE".toList, "STREAM".toList, false⟩, ⟨"DESTINATION".toList, enc (f.dest ++ f.priv ++ f.sign), false⟩] : List Opt), o.Ok := by
      intro o ho
      simp only [List.mem_cons, List.not_mem_nil, or_false] at ho
      rcases ho with rfl | rfl | rfl
      · exact hid
      · exact ⟨⟨'S', "TYLE".toList, by decide, by decide, by decide⟩, by decide, by decide, by decide⟩
      · refine ⟨⟨'D', "ESTINATION".toList, rfl, by decide, by decide⟩, hne _ ?_, ?_, ?_⟩
        · simp [hd]
        · exact fun c hc => (hsp _ c hc).1
        · intro h
          exact (hsp _ '"' (List.mem_of_mem_head? (by rw [h]; rfl))).2 rfl
    obtain ⟨opts, ho, -⟩ := C165_keys_partial e _ hok id .stream (enc (f.dest ++ f.priv ++ f.sign)) (f.dest ++ f.priv ++ f.sign) f.priv f.sign [] d
      (by simp [last]) (by simp [last, style]) (by simp [last]) (htr _ (by simp; omega)) (by intro h; exact absurd rfl h) (h64 _)
      (by simpa [List.append_assoc] using hser (f.priv ++ f.sign)) h1 h2
    exact ⟨opts, ho⟩

/-! ## The cases occur -/

def none3 : Fresh := ⟨[], [], []⟩
example : (Conn.new 0).run [({ now := 1, cmds := [(.hello (some .v31) (some .v33), none3)] } : Poll Unit), { now := 5, cmds := [(.lookup ['a'], none3), (.accept ['s'] [], none3)] }] =
    ({ deadline := 10001, version := some .v32, sent := [.hello .v32, .notFound ['a']] }, some (.done (.accept ['s'] []) .v32)) := by rfl
example : ((Conn.new 0).run [({ now := 1, cmds := [(.hello none none, none3)] } : Poll Unit), { now := 9000, cmds := [(.lookup ['a'], none3)] }, { now := 10001, cmds := [(.lookup ['b'], none3)] }]).2 =
    some .timeout := by rfl

/-- A code that does for the example: one character for each byte. -/
def sampleEnc (b : Bytes) : Str := b.map fun x => Char.ofNat (x.toNat + 0x4e00)
/-- Destinations of one byte. -/
def sampleEnv : Env UInt8 := ⟨fun s => some (s.map fun c => UInt8.ofNat (c.toNat - 0x4e00)), fun _ => none, fun | [] => none | b :: r => some (b, r)⟩

theorem sample_char : ∀ n < 256, (Char.ofNat (n + 0x4e00)).toNat = n + 0x4e00 ∧ isSpace (Char.ofNat (n + 0x4e00)) = false ∧ Char.ofNat (n + 0x4e00) ≠ '"' := by decide +kernel

example (c : Conn) (hv : c.version = some .v31) (k1 k2 : Bytes) (h1 : k1.length = 32) (h2 : k2.length = 32) :=
  C228_usable sampleEnv sampleEnc
    (fun b => by
      simp only [sampleEnv, sampleEnc, List.map_map]
      congr 1
      rw [List.map_congr_left (g := id) (fun x _ => by
        simp [(sample_char x.toNat x.toNat_lt).1])]
      simp)
    (fun b hb => by simpa [sampleEnc] using hb)
    (fun b ch hc => by
      simp only [sampleEnc, List.mem_map] at hc
      obtain ⟨x, -, rfl⟩ := hc
      exact (sample_char x.toNat x.toNat_lt).2)
    (fun b hb h => by
      have := congrArg List.length h
      simp [sampleEnc] at this
      omega)
    7 ⟨[7], k1, k2⟩ (by simp) (fun r => rfl) h1 h2 0 c .v31 hv ['x']
    ⟨⟨'I', ['D'], by decide, by decide, by decide⟩, by decide, by decide, by decide⟩

end Emissary.SamHello
