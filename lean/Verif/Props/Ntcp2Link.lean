import Verif.Model.Ntcp2Link
import Verif.Props.Ntcp2Session

/-!
# NTCP2: messages handed to a connection arrive (C258, C259)
-/

namespace Emissary.Ntcp2.Link
open Emissary.I2np
open scoped List

/-! ## Specification -/

/-- A schedule in which both routers keep running: writes that take at least a byte are tried again and again, and so
are reads. -/
structure Fair (ev : Nat → Event) : Prop where
  writes : ∀ t, ∃ u, t ≤ u ∧ ∃ n, 0 < n ∧ ev u = .write n
  reads : ∀ t, ∃ u, t ≤ u ∧ ∃ n, ev u = .read n

/-- What the receiving router hands on for a list of messages: one batch per message. -/
def arrivals (E : Env) (ms : List Message) : List (List Message) := ms.map (arrival E)

/-! ## A measure that keeps falling reaches the goal -/

theorem leads (M : Nat → Nat) (done help : Nat → Prop) (T0 : Nat)
    (mono : ∀ t, T0 ≤ t → ¬ done t → M (t + 1) ≤ M t)
    (strict : ∀ t, T0 ≤ t → ¬ done t → help t → M (t + 1) < M t)
    (fair : ∀ t, T0 ≤ t → ∃ u, t ≤ u ∧ (M u = M t → help u)) :
    ∃ T, T0 ≤ T ∧ done T := by
  have key : ∀ n t, T0 ≤ t → M t ≤ n → ∃ T, T0 ≤ T ∧ done T := by
    intro n
    induction n using Nat.strongRecOn with
    | ind n ih =>
      intro t ht hM
      obtain ⟨u, htu, hhelp⟩ := fair t ht
      by_cases hd : ∃ v, t ≤ v ∧ v ≤ u ∧ done v
      · obtain ⟨v, h1, _, h3⟩ := hd
        exact ⟨v, by omega, h3⟩
      · have hnd : ∀ v, t ≤ v → v ≤ u → ¬ done v := fun v h1 h2 h3 => hd ⟨v, h1, h2, h3⟩
        have hle : ∀ d, t + d ≤ u → M (t + d) ≤ M t := by
          intro d
          induction d with
          | zero => intro _; exact Nat.le_refl _
          | succ d ihd =>
            intro h
            exact Nat.le_trans (mono (t + d) (by omega) (hnd _ (by omega) (by omega))) (ihd (by omega))
        have hu := hle (u - t) (by omega)
        rw [show t + (u - t) = u by omega] at hu
        by_cases hlt : M u < M t
        · exact ih (M u) (by omega) u (by omega) (Nat.le_refl _)
        · have := strict u (by omega) (hnd u htu (Nat.le_refl _)) (hhelp (by omega))
          exact ih (M (u + 1)) (by omega) (u + 1) (by omega) (Nat.le_refl _)
  exact key (M T0) T0 (Nat.le_refl _) (Nat.le_refl _)

/-! ## Frames of a prefix -/

/-- The frames of `ms` followed by anything decode to the arrivals of `ms` followed by what the rest decodes to. -/
theorem frames_then (E : Env) (hA : E.A.Lawful) (ms : List Message) (hms : ∀ m ∈ ms, Sendable m) :
    ∀ (rx tx : Sip) (_ : rx.receiver = tx.sender) (c : Cipher), c.nonce + ms.length < 2 ^ 64 →
    ∃ rx' tx' : Sip, ∃ c' : Cipher, rx'.receiver = tx'.sender ∧ c'.nonce = c.nonce + ms.length ∧
      (∀ p, decodeAll E rx c (framesOf E tx c (ms.map Message.serializeShort) ++ p) =
        Res.after (arrivals E ms) (decodeAll E rx' c' p)) ∧
      (∀ ns, framesOf E tx c ((ms ++ ns).map Message.serializeShort) =
        framesOf E tx c (ms.map Message.serializeShort) ++ framesOf E tx' c' (ns.map Message.serializeShort)) := by
  induction ms with
  | nil =>
    intro rx tx hs c _
    exact ⟨rx, tx, c, hs, rfl, fun p => rfl, fun ns => rfl⟩
  | cons m ms ih =>
    intro rx tx hs c hn
    simp only [List.length_cons] at hn
    have hn1 : c.nonce + 1 < 2 ^ 64 := by omega
    have henc : c.encrypt E.A [] (newI2np m.serializeShort) =
        (some (E.A.enc c.key (nonceBytes c.nonce) [] (newI2np m.serializeShort)), { c with nonce := c.nonce + 1 }) := by
      simp only [Cipher.encrypt, nonceNext, hn1, if_true]
    generalize hct : E.A.enc c.key (nonceBytes c.nonce) [] (newI2np m.serializeShort) = ct at henc
    obtain ⟨rx', tx', c', h1, h2, h3, h4⟩ := ih (fun x hx => hms x (by simp [hx]))
      { rx with receiver := (tx.obfuscate E.H (ct.length % 65536)).2.sender }
      (tx.obfuscate E.H (ct.length % 65536)).2 rfl { c with nonce := c.nonce + 1 } (by simp only; omega)
    refine ⟨rx', tx', c', h1, by rw [h2]; simp only [List.length_cons]; omega, ?_, ?_⟩
    · intro p
      simp only [List.map_cons, framesOf, henc]
      obtain ⟨_, f2, _⟩ := frame_decodes E hA rx tx hs c m (hms m (by simp))
        (framesOf E (tx.obfuscate E.H (ct.length % 65536)).2 { c with nonce := c.nonce + 1 } (ms.map Message.serializeShort) ++ p)
        ct _ henc
      rw [List.append_assoc, f2, h3]
      simp [Res.cons, Res.after, arrivals]
    · intro ns
      have := h4 ns
      simp only [List.cons_append, List.map_cons, framesOf, henc]
      rw [this]
      simp only [List.append_assoc]

/-! ## The invariant -/

/-- Bytes the reader has taken from the socket so far. -/
def Link.taken (l : Link) : Bytes := l.w.out.take (l.w.out.length - l.pipe.length)

/-- Writer states between iterations. -/
def busy (w : Writer) : Prop :=
  match w.state with
  | .getMessage => True
  | .sendSize off size m => off < size.length ∧ 0 < m.length
  | .sendMessage off m => off < m.length

structure Inv (E : Env) (c : Cipher) (tx rx : Sip) (l : Link) (acc : List Message) (got : Bytes) : Prop where
  handed : l.handed = acc ++ l.queue
  out : l.w.out ++ l.w.rest = framesOf E tx c (acc.map Message.serializeShort)
  more : ∀ ms, framesOf E tx c ((acc ++ ms).map Message.serializeShort) =
    framesOf E tx c (acc.map Message.serializeShort) ++ framesOf E l.w.sip l.w.cipher (ms.map Message.serializeShort)
  nonce : l.w.cipher.nonce = c.nonce + acc.length
  running : l.w.ended = false
  busy : busy l.w
  split : got ++ l.pipe = l.w.out
  wf : l.r.Wf
  open_ : l.r.ended = none
  future : ∀ X, (decodeAll E rx c (got ++ X)).bad = false → l.r.future E X = decodeAll E rx c (got ++ X)

theorem out_of_future (E : Env) (s : Reader) (hw : s.Wf) (hs : s.ended = none) : s.future E [] = ⟨s.out, none, false⟩ := by
  obtain ⟨st, buf, cipher, sip, out, ended⟩ := s
  simp only at hs
  subst hs
  cases st with
  | size off =>
    simp only [Reader.Wf] at hw
    simp only [Reader.future, List.append_nil]
    rw [decodeAll_short _ _ _ _ (by simp; omega)]
    simp [Res.after]
  | frame size off =>
    simp only [Reader.Wf] at hw
    simp only [Reader.future, List.append_nil, frameSpec]
    by_cases h0 : off = 0
    · subst h0; simp [Res.after]
    · have hne : (buf.take off).isEmpty = false := by
        cases h : buf.take off with
        | nil => have := congrArg List.length h; rw [List.length_take, List.length_nil] at this; omega
        | cons => rfl
      rw [hne]
      simp only [Bool.false_eq_true, if_false]
      rw [if_neg (by omega), if_pos (by rw [List.length_take]; omega)]
      simp [Res.after]

theorem Inv.init (E : Env) (c : Cipher) (tx rx : Sip) : Inv E c tx rx (Link.init c tx rx) [] [] where
  handed := rfl
  out := rfl
  more := fun ms => by simp [framesOf, Link.init]
  nonce := rfl
  running := rfl
  busy := trivial
  split := rfl
  wf := by simp [Reader.Wf, Link.init]
  open_ := rfl
  future := fun X _ => by simp [Reader.future, Link.init, Res.after]

theorem Inv.send {E : Env} {c : Cipher} {tx rx : Sip} {l : Link} {acc : List Message} {got : Bytes}
    (h : Inv E c tx rx l acc got) (m : Message) : Inv E c tx rx (l.send m) acc got := by
  unfold Link.send
  split
  · exact { h with handed := by simp [h.handed] }
  · exact h

/-- A write by a busy writer moves bytes from the frame to the socket. -/
theorem write_moves (E : Env) (w : Writer) (hb : busy w) (hs : w.state ≠ .getMessage) (hr : w.ended = false) (k : Nat) (hk : 0 < k) :
    ∃ d, d ≠ [] ∧ (w.step E (.write k)).out = w.out ++ d ∧ w.rest = d ++ (w.step E (.write k)).rest ∧
      (w.step E (.write k)).cipher = w.cipher ∧ (w.step E (.write k)).sip = w.sip ∧
      (w.step E (.write k)).ended = false ∧ busy (w.step E (.write k)) := by
  obtain ⟨st, c, sip, out, ended⟩ := w
  simp only at hr hs
  subst hr
  cases st with
  | getMessage => exact absurd rfl hs
  | sendSize off size m =>
    simp only [busy] at hb
    have hk0 : min k (size.length - off) ≠ 0 := by omega
    have ht := take_drop_drop size off (min k (size.length - off))
    refine ⟨(size.drop off).take (min k (size.length - off)), ?_, ?_⟩
    · intro hh
      have := congrArg List.length hh
      simp only [List.length_take, List.length_drop, List.length_nil] at this
      omega
    · simp only [Writer.step, Bool.false_eq_true, if_false, hk0]
      split
      · rename_i heq
        have hnil : size.drop (off + min k (size.length - off)) = [] := by
          apply List.drop_eq_nil_of_le; omega
        rw [hnil, List.append_nil] at ht
        simp only [Writer.rest, List.drop_zero, ht, busy]
        exact ⟨trivial, trivial, trivial, trivial, trivial, hb.2⟩
      · simp only [Writer.rest, busy]
        refine ⟨trivial, ?_, trivial, trivial, trivial, by omega, hb.2⟩
        rw [← List.append_assoc, ht]
  | sendMessage off m =>
    simp only [busy] at hb
    have hk0 : min k (m.length - off) ≠ 0 := by omega
    have ht := take_drop_drop m off (min k (m.length - off))
    refine ⟨(m.drop off).take (min k (m.length - off)), ?_, ?_⟩
    · intro hh
      have := congrArg List.length hh
      simp only [List.length_take, List.length_drop, List.length_nil] at this
      omega
    · simp only [Writer.step, Bool.false_eq_true, if_false, hk0]
      split
      · rename_i heq
        have hnil : m.drop (off + min k (m.length - off)) = [] := by
          apply List.drop_eq_nil_of_le; omega
        rw [hnil, List.append_nil] at ht
        simp only [Writer.rest, ht, busy, List.append_nil]
        exact ⟨trivial, trivial, trivial, trivial, trivial, trivial⟩
      · simp only [Writer.rest, busy]
        refine ⟨trivial, ?_, trivial, trivial, trivial, by omega⟩
        rw [ht]

/-- What an iteration of the write loop does. -/
theorem Inv.write {E : Env} {c : Cipher} {tx rx : Sip} {l : Link} {acc : List Message} {got : Bytes} (hA : E.A.Lawful)
    (h : Inv E c tx rx l acc got) (room n : Nat) (hn : c.nonce + l.handed.length < 2 ^ 64) :
    (l.write E room n = l ∧ ((l.w.state = .getMessage ∧ l.queue = []) ∨
      (l.w.state ≠ .getMessage ∧ min n (room - l.pipe.length) = 0))) ∨
    (∃ m q, l.queue = m :: q ∧ l.w.state = .getMessage ∧ Inv E c tx rx (l.write E room n) (acc ++ [m]) got ∧
      (l.write E room n).w.state ≠ .getMessage ∧ (l.write E room n).pipe = l.pipe ∧ (l.write E room n).handed = l.handed) ∨
    (l.w.state ≠ .getMessage ∧ Inv E c tx rx (l.write E room n) acc got ∧
      (∃ d, d ≠ [] ∧ (l.write E room n).pipe = l.pipe ++ d) ∧ (l.write E room n).handed = l.handed) := by
  by_cases hs : l.w.state = .getMessage
  · cases hq : l.queue with
    | nil => left; exact ⟨by simp [Link.write, hs, hq], Or.inl ⟨hs, rfl⟩⟩
    | cons m q =>
      right; left
      have hn1 : l.w.cipher.nonce + 1 < 2 ^ 64 := by
        rw [h.nonce]; rw [h.handed, hq] at hn; simp at hn; omega
      have henc : l.w.cipher.encrypt E.A [] (newI2np m.serializeShort) =
          (some (E.A.enc l.w.cipher.key (nonceBytes l.w.cipher.nonce) [] (newI2np m.serializeShort)),
            { l.w.cipher with nonce := l.w.cipher.nonce + 1 }) := by
        simp only [Cipher.encrypt, nonceNext, hn1, if_true]
      generalize hct : E.A.enc l.w.cipher.key (nonceBytes l.w.cipher.nonce) [] (newI2np m.serializeShort) = ct at henc
      have hctl : 0 < ct.length := by rw [← hct, hA.len]; omega
      have hstep : l.w.step E (.cmd m.serializeShort) =
          { l.w with state := .sendSize 0 (be 2 (l.w.sip.obfuscate E.H (ct.length % 65536)).1) ct
                     cipher := { l.w.cipher with nonce := l.w.cipher.nonce + 1 }
                     sip := (l.w.sip.obfuscate E.H (ct.length % 65536)).2 } := by
        simp only [Writer.step, h.running, Bool.false_eq_true, if_false, hs, henc]
      have hw : l.write E room n = { l with queue := q, w := l.w.step E (.cmd m.serializeShort) } := by
        simp [Link.write, hs, hq]
      have hrest : l.w.rest = [] := by simp [Writer.rest, hs]
      have hone : framesOf E tx c ((acc ++ [m]).map Message.serializeShort) =
          framesOf E tx c (acc.map Message.serializeShort) ++
            (be 2 (l.w.sip.obfuscate E.H (ct.length % 65536)).1 ++ ct) := by
        rw [h.more]
        simp only [List.map_cons, List.map_nil, framesOf, henc, List.append_nil]
      refine ⟨m, q, rfl, hs, ?_, ?_, by rw [hw], by rw [hw]⟩
      · rw [hw, hstep]
        exact {
          handed := by simp [h.handed, hq]
          out := by
            rw [hone, ← h.out, hrest]
            simp [Writer.rest]
          more := fun ms => by
            rw [hone, List.append_assoc, h.more]
            simp only [List.map_append, List.map_cons, List.map_nil, List.singleton_append, framesOf, henc,
              List.append_assoc]
          nonce := by simp [h.nonce]; omega
          running := h.running
          busy := by simp only [Link.busy]; exact ⟨by simp, hctl⟩
          split := h.split
          wf := h.wf
          open_ := h.open_
          future := h.future }
      · rw [hw, hstep]; simp
  · have hw : l.write E room n = (if min n (room - l.pipe.length) = 0 then l else
        { l with w := l.w.step E (.write (min n (room - l.pipe.length)))
                 pipe := l.pipe ++ (l.w.step E (.write (min n (room - l.pipe.length)))).out.drop l.w.out.length }) := by
      unfold Link.write
      split
      · rename_i hh; exact absurd hh hs
      · rfl
    by_cases hk : min n (room - l.pipe.length) = 0
    · left
      rw [hw, if_pos hk]
      exact ⟨rfl, Or.inr ⟨hs, hk⟩⟩
    · right; right
      rw [hw, if_neg hk]
      obtain ⟨d, hd, h1, h2, h3, h4, h5, h6⟩ := write_moves E l.w h.busy hs h.running (min n (room - l.pipe.length)) (by omega)
      refine ⟨hs, ?_, ⟨d, hd, by rw [h1]; simp⟩, rfl⟩
      exact {
        handed := h.handed
        out := by simp only; rw [h1, List.append_assoc, ← h2]; exact h.out
        more := fun ms => by simp only; rw [h3, h4]; exact h.more ms
        nonce := by simp only; rw [h3]; exact h.nonce
        running := h5
        busy := h6
        split := by simp only; rw [h1, List.drop_left, ← List.append_assoc, h.split]
        wf := h.wf
        open_ := h.open_
        future := h.future }

/-- What a prefix of the frames decodes to. -/
theorem Inv.prefix {E : Env} {c : Cipher} {tx rx : Sip} {l : Link} {acc : List Message} {got : Bytes} (hA : E.A.Lawful)
    (hsync : rx.receiver = tx.sender) (h : Inv E c tx rx l acc got) (hm : ∀ m ∈ l.handed, Sendable m)
    (hn : c.nonce + l.handed.length < 2 ^ 64) (q : Bytes) (hq : q <+: l.w.out) :
    ∃ k, k ≤ acc.length ∧ decodeAll E rx c q = ⟨arrivals E (acc.take k), none, false⟩ := by
  have hsub : ∀ m ∈ acc, Sendable m := fun m hmem => hm m (by rw [h.handed]; simp [hmem])
  have hlen : c.nonce + acc.length < 2 ^ 64 := by rw [h.handed] at hn; simp at hn; omega
  exact (frames_decode E hA acc hsub rx tx hsync c hlen).2 q (hq.trans (by rw [← h.out]; exact List.prefix_append _ _))

/-- What an iteration of the read loop does: with something in the socket, it takes at least a byte of it. -/
theorem Inv.read {E : Env} {c : Cipher} {tx rx : Sip} {l : Link} {acc : List Message} {got : Bytes} (hA : E.A.Lawful)
    (hsync : rx.receiver = tx.sender) (h : Inv E c tx rx l acc got) (hm : ∀ m ∈ l.handed, Sendable m)
    (hn : c.nonce + l.handed.length < 2 ^ 64) (n : Nat) :
    (l.pipe = [] ∧ l.read E n = l) ∨
    (∃ d, d ≠ [] ∧ Inv E c tx rx (l.read E n) acc (got ++ d) ∧ (l.read E n).handed = l.handed ∧
      (l.read E n).w = l.w ∧ (l.read E n).queue = l.queue) := by
  by_cases hp : l.pipe = []
  · left; exact ⟨hp, by simp [Link.read, hp]⟩
  · right
    have hpe : l.pipe.isEmpty = false := by cases hh : l.pipe <;> simp_all
    have hpl : 0 < l.pipe.length := List.length_pos_iff.mpr hp
    -- the reader has room
    obtain ⟨k0, _, hall⟩ := h.prefix hA hsync hm hn l.w.out (List.prefix_refl _)
    have hfut : l.r.future E l.pipe = ⟨arrivals E (acc.take k0), none, false⟩ := by
      rw [h.future l.pipe (by rw [h.split, hall]), h.split, hall]
    have hspace : 0 < l.r.space := by
      rcases Nat.eq_zero_or_pos l.r.space with hz | hz
      · exfalso
        have hw := h.wf
        have ho := h.open_
        generalize l.r = s at hz hw ho hfut
        obtain ⟨st, buf, cipher, sip, out, ended⟩ := s
        simp only at ho
        subst ho
        cases st with
        | size off => simp only [Reader.Wf] at hw; simp only [Reader.space] at hz; omega
        | frame size off =>
          simp only [Reader.Wf] at hw
          simp only [Reader.space] at hz
          have h0 : off = 0 := by omega
          have h1 : size = 0 := by omega
          subst h0; subst h1
          simp [Reader.future, frameSpec, hpe, Res.after] at hfut
      · exact hz
    have hk1 : 0 < min (max 1 n) l.r.space := by omega
    have hk2 : min (max 1 n) l.r.space ≤ l.r.space := Nat.min_le_right _ _
    have hread : l.read E n = { l with r := l.r.read E (l.pipe.take (min (max 1 n) l.r.space))
                                       pipe := l.pipe.drop (min (max 1 n) l.r.space) } := by
      simp [Link.read, hpe]
    rw [hread]
    generalize min (max 1 n) l.r.space = k at *
    have hsplit : l.pipe.take k ++ l.pipe.drop k = l.pipe := List.take_append_drop _ _
    have htne : l.pipe.take k ≠ [] := by
      intro hh
      have := congrArg List.length hh
      rw [List.length_take, List.length_nil] at this
      omega
    have htl : (l.pipe.take k).length ≤ l.r.space := by rw [List.length_take]; omega
    have step : ∀ X, (decodeAll E rx c (got ++ l.pipe.take k ++ X)).bad = false →
        (l.r.read E (l.pipe.take k)).future E X = decodeAll E rx c (got ++ l.pipe.take k ++ X) ∧
        ((l.r.read E (l.pipe.take k)).ended = none → (l.r.read E (l.pipe.take k)).Wf) := by
      intro X hX
      rw [List.append_assoc] at hX
      have hf := h.future _ hX
      obtain ⟨r1, r2⟩ := read_future E l.r h.wf h.open_ (l.pipe.take k) X htne htl (by rw [hf]; exact hX)
      exact ⟨by rw [r1, hf, List.append_assoc], r2⟩
    obtain ⟨k1, _, hd⟩ := h.prefix hA hsync hm hn (got ++ l.pipe.take k)
      ⟨l.pipe.drop k, by rw [List.append_assoc, hsplit]; exact h.split⟩
    obtain ⟨s1, s2⟩ := step [] (by rw [List.append_nil, hd])
    have hopen : (l.r.read E (l.pipe.take k)).ended = none := by
      rw [List.append_nil, hd] at s1
      cases he : (l.r.read E (l.pipe.take k)).ended with
      | none => rfl
      | some r => simp [Reader.future, he] at s1
    refine ⟨l.pipe.take k, htne, ?_, rfl, rfl, rfl⟩
    exact {
      handed := h.handed
      out := h.out
      more := h.more
      nonce := h.nonce
      running := h.running
      busy := h.busy
      split := by simp only; rw [List.append_assoc, hsplit]; exact h.split
      wf := s2 hopen
      open_ := hopen
      future := fun X hX => (step X hX).1 }

/-! ## Every state of a schedule -/

/-- The messages that fit the protocol: each can be sent in a frame, and the nonces last. -/
structure Fits (c : Cipher) (l : Link) : Prop where
  sendable : ∀ m ∈ l.handed, Sendable m
  nonces : c.nonce + l.handed.length < 2 ^ 64

theorem handed_step (E : Env) (room : Nat) (l : Link) (e : Event) : l.handed <+: (l.step E room e).handed := by
  cases e with
  | send m => simp only [Link.step, Link.send]; split <;> simp
  | write n =>
    simp only [Link.step, Link.write]
    split
    · split <;> exact List.prefix_refl _
    · split <;> exact List.prefix_refl _
  | read n => simp only [Link.step, Link.read]; split <;> exact List.prefix_refl _

theorem handed_mono (E : Env) (room : Nat) (l : Link) (ev : Nat → Event) (t : Nat) : ∀ d, (l.at E room ev t).handed <+: (l.at E room ev (t + d)).handed := by
  intro d
  induction d with
  | zero => exact List.prefix_refl _
  | succ d ih => exact ih.trans (handed_step E room _ _)

theorem Fits.back {c : Cipher} {l l' : Link} (h : Fits c l') (hp : l.handed <+: l'.handed) : Fits c l where
  sendable := fun m hm => h.sendable m (hp.subset hm)
  nonces := by have := hp.length_le; have := h.nonces; omega

theorem inv_step {E : Env} {c : Cipher} {tx rx : Sip} (hA : E.A.Lawful) (hsync : rx.receiver = tx.sender) (room : Nat)
    {l : Link} (e : Event) (hf : Fits c (l.step E room e)) {acc got} (h : Inv E c tx rx l acc got) :
    ∃ acc' got', Inv E c tx rx (l.step E room e) acc' got' := by
  have hf0 := hf.back (handed_step E room l e)
  cases e with
  | send m => exact ⟨acc, got, h.send m⟩
  | write n =>
    rcases h.write hA room n hf0.nonces with ⟨h1, _⟩ | ⟨m, q, _, _, h1, _⟩ | ⟨_, h1, _⟩
    · exact ⟨acc, got, by simp only [Link.step]; rw [h1]; exact h⟩
    · exact ⟨_, _, h1⟩
    · exact ⟨_, _, h1⟩
  | read n =>
    rcases h.read hA hsync hf0.sendable hf0.nonces n with ⟨_, h1⟩ | ⟨d, _, h1, _⟩
    · exact ⟨acc, got, by simp only [Link.step]; rw [h1]; exact h⟩
    · exact ⟨_, _, h1⟩

theorem inv_at {E : Env} {c : Cipher} {tx rx : Sip} (hA : E.A.Lawful) (hsync : rx.receiver = tx.sender) (room : Nat)
    (ev : Nat → Event) : ∀ t, Fits c ((Link.init c tx rx).at E room ev t) →
    ∃ acc got, Inv E c tx rx ((Link.init c tx rx).at E room ev t) acc got := by
  intro t
  induction t with
  | zero => intro _; exact ⟨[], [], Inv.init E c tx rx⟩
  | succ t ih =>
    intro hf
    obtain ⟨acc, got, h⟩ := ih (hf.back (handed_step E room _ _))
    exact inv_step hA hsync room (ev t) hf h

/-- What has come out so far. -/
theorem Inv.out_eq {E : Env} {c : Cipher} {tx rx : Sip} {l : Link} {acc : List Message} {got : Bytes} (hA : E.A.Lawful)
    (hsync : rx.receiver = tx.sender) (h : Inv E c tx rx l acc got) (hf : Fits c l) :
    ∃ k, l.r.out = arrivals E (l.handed.take k) ∧ decodeAll E rx c got = ⟨l.r.out, none, false⟩ := by
  obtain ⟨k, hk, hd⟩ := h.prefix hA hsync hf.sendable hf.nonces got ⟨l.pipe, h.split⟩
  have h1 := h.future [] (by rw [List.append_nil, hd])
  rw [out_of_future E l.r h.wf h.open_, List.append_nil] at h1
  refine ⟨k, ?_, h1.symm⟩
  rw [hd] at h1
  injection h1 with h1 _ _
  rw [h1, h.handed, List.take_append_of_le_length hk]

/-- Once the frames of the first messages have been read, those have come out. -/
theorem Inv.delivered {E : Env} {c : Cipher} {tx rx : Sip} {l : Link} {acc : List Message} {got : Bytes} (hA : E.A.Lawful)
    (hsync : rx.receiver = tx.sender) (h : Inv E c tx rx l acc got) (hf : Fits c l) (H : List Message) (hH : H <+: l.handed)
    (hlen : (framesOf E tx c (H.map Message.serializeShort)).length ≤ got.length) : arrivals E H <+: l.r.out := by
  obtain ⟨k, _, hout⟩ := h.out_eq hA hsync hf
  have hfH : Fits c { l with handed := H } := ⟨fun m hm => hf.sendable m (hH.subset hm), by
    have := hH.length_le; have := hf.nonces; simp only; omega⟩
  obtain ⟨rx', tx', c', _, _, h3, h4⟩ := frames_then E hA H hfH.sendable rx tx hsync c hfH.nonces
  have hall := frames_then E hA acc (fun m hm => hf.sendable m (by rw [h.handed]; simp [hm])) rx tx hsync c
    (by have := hf.nonces; rw [h.handed] at this; simp at this; omega)
  -- `got` starts with the frames of `H`
  have hpre : framesOf E tx c (H.map Message.serializeShort) <+: got := by
    obtain ⟨N, hN⟩ := hH
    have e1 : framesOf E tx c (l.handed.map Message.serializeShort) =
        framesOf E tx c (H.map Message.serializeShort) ++ framesOf E tx' c' (N.map Message.serializeShort) := by
      rw [← hN]; exact h4 N
    have e2 : got <+: framesOf E tx c (l.handed.map Message.serializeShort) := by
      rw [h.handed, h.more, ← h.out, ← h.split]
      exact ⟨l.pipe ++ l.w.rest ++ framesOf E l.w.sip l.w.cipher (l.queue.map Message.serializeShort), by simp⟩
    exact List.prefix_of_prefix_length_le ⟨_, e1.symm⟩ e2 hlen
  obtain ⟨p, hp⟩ := hpre
  rw [← hp, h3 p] at hout
  have := congrArg Res.out hout
  simp only [Res.after] at this
  exact ⟨_, this⟩

/-! ## Progress -/

/-- Bytes read so far. -/
def Link.count (l : Link) : Nat := l.w.out.length - l.pipe.length

theorem Inv.count {E : Env} {c : Cipher} {tx rx : Sip} {l : Link} {acc : List Message} {got : Bytes}
    (h : Inv E c tx rx l acc got) : l.count = got.length := by
  have := congrArg List.length h.split
  simp only [List.length_append] at this
  simp only [Link.count]
  omega

/-- How far the next byte is from being read: in the socket, in the writer, in the channel. -/
def Link.rank (l : Link) : Nat := if l.pipe ≠ [] then 0 else if l.w.state ≠ .getMessage then 1 else 2

/-- The event that helps: a read if there is something in the socket, a write otherwise. -/
def helpful (l : Link) : Event → Prop
  | .send _ => False
  | .write n => 0 < n ∧ l.rank ≠ 0
  | .read _ => l.rank = 0

theorem rank_le (l : Link) : l.rank ≤ 2 := by unfold Link.rank; split <;> (try split) <;> omega

theorem progress {E : Env} {c : Cipher} {tx rx : Sip} (hA : E.A.Lawful) (hsync : rx.receiver = tx.sender) (room : Nat)
    (hroom : 0 < room) {l : Link} (e : Event) (hf : Fits c l) {acc got} (h : Inv E c tx rx l acc got)
    (H : List Message) (hH : H <+: l.handed)
    (hneed : l.count < (framesOf E tx c (H.map Message.serializeShort)).length) :
    (l.step E room e).count > l.count ∨
    ((l.step E room e).count = l.count ∧ (l.step E room e).rank ≤ l.rank ∧
      (helpful l e → (l.step E room e).rank < l.rank)) := by
  cases e with
  | send m =>
    right
    simp only [Link.step, Link.send, helpful]
    split <;> exact ⟨rfl, Nat.le_refl _, False.elim⟩
  | write n =>
    right
    simp only [Link.step]
    rcases h.write hA room n hf.nonces with ⟨h1, h2⟩ | ⟨m, q, _, hs, h1, h2, h3, _⟩ | ⟨hs, h1, ⟨d, hd, hp⟩, _⟩
    · rw [h1]
      refine ⟨rfl, Nat.le_refl _, fun hh => ?_⟩
      exfalso
      simp only [helpful] at hh
      have hpe : l.pipe = [] := by
        by_cases hpp : l.pipe = []
        · exact hpp
        · exact absurd (by simp [Link.rank, hpp]) hh.2
      rcases h2 with ⟨hs, hq⟩ | ⟨_, hk⟩
      · -- nothing left to send
        have hrest : l.w.rest = [] := by simp [Writer.rest, hs]
        have e1 := h.out
        rw [hrest, List.append_nil] at e1
        have hha : l.handed = acc := by rw [h.handed, hq, List.append_nil]
        rw [hha] at hH
        have hac : ∀ m ∈ acc, Sendable m := fun m hm => hf.sendable m (by rw [hha]; exact hm)
        have hnn : c.nonce + acc.length < 2 ^ 64 := by rw [← hha]; exact hf.nonces
        obtain ⟨N, hN⟩ := hH
        obtain ⟨_, _, _, _, _, _, h4⟩ := frames_then E hA H (fun m hm => hac m (by rw [← hN]; simp [hm])) rx tx hsync c
          (by rw [← hN] at hnn; simp at hnn; omega)
        have e2 := h4 N
        rw [hN, ← e1] at e2
        have := congrArg List.length e2
        simp only [List.length_append] at this
        simp only [Link.count, hpe, List.length_nil] at hneed
        omega
      · rw [hpe] at hk
        simp only [List.length_nil] at hk
        omega
    · refine ⟨by rw [h1.count, h.count], ?_, fun hh => ?_⟩
      · simp only [Link.rank, h3, hs, h2]; split <;> simp
      · simp only [helpful] at hh
        have hpe : l.pipe = [] := by
          by_cases hpp : l.pipe = []
          · exact hpp
          · exact absurd (by simp [Link.rank, hpp]) hh.2
        simp [Link.rank, h3, hs, h2, hpe]
    · refine ⟨by rw [h1.count, h.count], ?_, fun hh => ?_⟩
      · simp [Link.rank, hp, hd]
      · simp only [helpful] at hh
        have : (l.write E room n).rank = 0 := by simp [Link.rank, hp, hd]
        omega
  | read n =>
    simp only [Link.step]
    rcases h.read hA hsync hf.sendable hf.nonces n with ⟨hp, h1⟩ | ⟨d, hd, h1, _⟩
    · right
      rw [h1]
      refine ⟨rfl, Nat.le_refl _, fun hh => ?_⟩
      simp only [helpful, Link.rank, hp, ne_eq, not_true_eq_false, if_false] at hh
      split at hh <;> omega
    · left
      rw [h1.count, h.count, List.length_append]
      have := List.length_pos_iff.mpr hd
      omega

/-! ## C258, C259 -/

/-- C258: for every schedule of sends, writes and reads, whatever the sizes of the pieces and of the socket buffers, at every
moment the receiving router has handed on exactly the first so many of the messages that were sent, in order and each
once, and neither side has ended the session. -/
theorem C258_in_order (E : Env) (hA : E.A.Lawful) (c : Cipher) (tx rx : Sip) (hsync : rx.receiver = tx.sender)
    (room : Nat) (ev : Nat → Event) (t : Nat) (hf : Fits c ((Link.init c tx rx).at E room ev t)) :
    let l := (Link.init c tx rx).at E room ev t
    (∃ k, l.r.out = arrivals E (l.handed.take k)) ∧ l.r.ended = none ∧ l.w.ended = false := by
  obtain ⟨acc, got, h⟩ := inv_at hA hsync room ev t hf
  obtain ⟨k, hk, _⟩ := h.out_eq hA hsync hf
  exact ⟨⟨k, hk⟩, h.open_, h.running⟩

/-- C259: in every fair schedule, with socket buffers of any size (at least a byte), every message that was sent comes
out at the other router: for every moment there is a later one at which all that was sent before has been handed on. -/
theorem C259_delivered (E : Env) (hA : E.A.Lawful) (c : Cipher) (tx rx : Sip) (hsync : rx.receiver = tx.sender)
    (room : Nat) (hroom : 0 < room) (ev : Nat → Event) (hfair : Fair ev)
    (hf : ∀ t, Fits c ((Link.init c tx rx).at E room ev t)) (t : Nat) :
    ∃ u, t ≤ u ∧ arrivals E ((Link.init c tx rx).at E room ev t).handed <+: ((Link.init c tx rx).at E room ev u).r.out := by
  generalize hl : (Link.init c tx rx).at E room ev = L at *
  have hinv : ∀ u, ∃ acc got, Inv E c tx rx (L u) acc got := fun u => by rw [← hl]; exact inv_at hA hsync room ev u (by rw [hl]; exact hf u)
  have hstep : ∀ u, L (u + 1) = (L u).step E room (ev u) := fun u => by rw [← hl]; rfl
  have hmono : ∀ u, t ≤ u → (L t).handed <+: (L u).handed := fun u hu => by
    have := handed_mono E room (Link.init c tx rx) ev t (u - t)
    rw [hl, show t + (u - t) = u by omega] at this
    exact this
  let need := (framesOf E tx c ((L t).handed.map Message.serializeShort)).length
  obtain ⟨T, hT, hdone⟩ := leads (fun u => (need - (L u).count) * 3 + (L u).rank) (fun u => need ≤ (L u).count)
    (fun u => helpful (L u) (ev u)) t
    (by
      intro u hu hnd
      obtain ⟨acc, got, h⟩ := hinv u
      have hr := rank_le (L (u + 1))
      rcases progress hA hsync room hroom (ev u) (hf u) h (L t).handed (hmono u hu) (by omega) with h1 | ⟨h1, h2, _⟩
      · rw [← hstep] at h1; omega
      · rw [← hstep] at h1 h2; omega)
    (by
      intro u hu hnd hh
      obtain ⟨acc, got, h⟩ := hinv u
      have hr := rank_le (L (u + 1))
      rcases progress hA hsync room hroom (ev u) (hf u) h (L t).handed (hmono u hu) (by omega) with h1 | ⟨h1, _, h2⟩
      · rw [← hstep] at h1; omega
      · have h2 := h2 hh
        rw [← hstep] at h1 h2; omega)
    (by
      intro u hu
      by_cases h0 : (L u).rank = 0
      · obtain ⟨v, hv, n, he⟩ := hfair.reads u
        refine ⟨v, hv, fun hM => ?_⟩
        have := rank_le (L v)
        rw [he]; simp only [helpful]
        omega
      · obtain ⟨v, hv, n, hn, he⟩ := hfair.writes u
        refine ⟨v, hv, fun hM => ?_⟩
        have := rank_le (L v)
        have := rank_le (L u)
        rw [he]; simp only [helpful]
        exact ⟨hn, by omega⟩)
  obtain ⟨acc, got, h⟩ := hinv T
  exact ⟨T, hT, h.delivered hA hsync (hf T) _ (hmono T hT) (by rw [← h.count]; exact hdone)⟩

/-! Two messages and then one-byte writes and three-byte reads in turn, with a socket of five bytes. -/

def toyM (id : Nat) (p : Bytes) : Message := ⟨.data, id, 5000000000, p⟩

def turns : Nat → Event
  | 0 => .send (toyM 8 [1, 2, 3])
  | 1 => .send (toyM 10 [6])
  | t => if t % 2 = 0 then .write 1 else .read 3

theorem turns_fair : Fair turns where
  writes := fun t => ⟨2 * t + 2, by omega, 1, by omega, by simp [turns]⟩
  reads := fun t => ⟨2 * t + 3, by omega, 3, by
    have : (2 * t + 3) % 2 = 1 := by omega
    simp [turns, this]⟩

theorem turns_handed (E : Env) (c : Cipher) (tx rx : Sip) (room : Nat) :
    ∀ t, ((Link.init c tx rx).at E room turns (t + 2)).handed = [toyM 8 [1, 2, 3], toyM 10 [6]] := by
  intro t
  induction t with
  | zero => simp [Link.at, turns, Link.step, Link.send, Link.init, channelSize]
  | succ t ih =>
    rw [show t + 1 + 2 = (t + 2) + 1 by omega, Link.at]
    have hev : turns (t + 2) = .write 1 ∨ turns (t + 2) = .read 3 := by
      simp only [turns]
      split
      · exact Or.inl rfl
      · exact Or.inr rfl
    rcases hev with h | h
    · rw [h]
      simp only [Link.step, Link.write]
      split
      · split <;> exact ih
      · split <;> exact ih
    · rw [h]
      simp only [Link.step, Link.read]
      split <;> exact ih

theorem turns_fits (E : Env) (tx rx : Sip) (room : Nat) (t : Nat) :
    Fits ⟨[1], 0⟩ ((Link.init ⟨[1], 0⟩ tx rx).at E room turns t) := by
  have h := handed_mono E room (Link.init ⟨[1], 0⟩ tx rx) turns t 2
  rw [turns_handed] at h
  refine ⟨fun m hm => ?_, ?_⟩
  · have := h.subset hm
    simp only [List.mem_cons, List.not_mem_nil, or_false] at this
    rcases this with rfl | rfl <;>
      exact ⟨⟨by decide, ⟨5, by decide, rfl⟩, by decide, by decide⟩, by decide⟩
  · have := h.length_le
    simp only [List.length_cons, List.length_nil] at this ⊢
    omega

/-- The hypotheses of C259 hold of this schedule, and after 200 events both messages have come out. -/
example : Fair turns ∧ (∀ t, Fits ⟨[1], 0⟩ ((Link.init ⟨[1], 0⟩ (Sip.initiator toyH [1] [2]) (Sip.responder toyH [1] [2])).at toyE 5 turns t)) ∧
    toyE.A.Lawful ∧
    ((Link.init ⟨[1], 0⟩ (Sip.initiator toyH [1] [2]) (Sip.responder toyH [1] [2])).at toyE 5 turns 200).r.out =
      [[toyM 8 [1, 2, 3]], [toyM 10 [6]]] :=
  ⟨turns_fair, turns_fits _ _ _ _, toyA_lawful, by decide +kernel⟩

end Emissary.Ntcp2.Link
