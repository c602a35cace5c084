import Verif.Model.I2cpSocket
import Verif.Props.SamSocket
import Verif.Lemmas.Bytes
/-!
# The socket of an I2CP client

* C179: the messages of a client are seen as they were sent, however they are cut.
* C180: a client gets the messages for it in order.
-/
namespace Emissary.I2cpSocket

open Emissary.SamSocket (Rx Wr)

variable {α : Type}

/-! ## Specification -/

/-- A frame on the wire: size, type and body. -/
def encode (f : UInt8 × Bytes) : Bytes := be 4 f.2.length ++ f.1 :: f.2

/-- Frames on the wire. -/
def stream (fs : List (UInt8 × Bytes)) : Bytes := fs.flatMap encode

/-- The messages in frames. -/
def messages (parse : UInt8 → Bytes → Msg α) (fs : List (UInt8 × Bytes)) : List α := fs.filterMap fun f => match parse f.1 f.2 with
  | .ok m => some m
  | _ => none

/-- The bytes of segments. -/
def bytes (rs : List Rx) : Bytes := rs.flatMap fun
  | .seg b => b
  | _ => []

/-- What has arrived. -/
def arrivals (ops : List Op) : List Rx := ops.filterMap fun
  | .arrive r => some r
  | _ => none

/-- The messages for the client. -/
def sends (ops : List Op) : List Bytes := ops.filterMap fun
  | .send m => some m
  | _ => none

/-! ## C179 -/

/-- The bytes that have been read of a frame that is not complete. -/
def Rd.held : Rd → Bytes
  | .head got => got
  | .frame size ty got => be 4 size ++ ty :: got

/-- The frame is not complete. -/
def Rd.Ok : Rd → Prop
  | .head got => got.length < headerSize
  | .frame size _ got => got.length < size ∧ size < 2 ^ 32

theorem stream_append (a b : List (UInt8 × Bytes)) : stream (a ++ b) = stream a ++ stream b := List.flatMap_append
theorem messages_append (parse : UInt8 → Bytes → Msg α) (a b : List (UInt8 × Bytes)) : messages parse (a ++ b) = messages parse a ++ messages parse b := List.filterMap_append
theorem bytes_append (a b : List Rx) : bytes (a ++ b) = bytes a ++ bytes b := List.flatMap_append

theorem header_bytes (x : Bytes) (hx : x.length = headerSize) : be 4 (unbe (x.take 4)) ++ [x.getD 4 0] = x ∧ unbe (x.take 4) < 2 ^ 32 := by
  match x, hx with
  | [a, b, c, d, e], _ =>
    have h : be 4 (unbe [a, b, c, d]) = [a, b, c, d] := be_unbe [a, b, c, d]
    exact ⟨by show be 4 (unbe [a, b, c, d]) ++ [e] = _; rw [h]; rfl, by
      have := unbe_lt [a, b, c, d]
      simpa using this⟩

/-- What one message, or none, is in frames. -/
def opt : Option (Out α) → List α
  | some (.msg m) => [m]
  | _ => []

/-- Reading goes on or there is a message. -/
def good : Option (Out α) → Prop
  | none => True
  | some (.msg _) => True
  | _ => False

theorem take_frames (parse : UInt8 → Bytes → Msg α) (r : Rd) (hr : r.Ok) (w : Nat) (hw : r.want = some w) (b : Bytes) (hb : b.length ≤ w) (r' : Rd) (o : Option (Out α))
    (h : r.take parse b = (r', o)) (ho : good o) :
    r'.Ok ∧ ∃ fs : List (UInt8 × Bytes), stream fs ++ r'.held = r.held ++ b ∧ messages parse fs = opt o ∧ (∀ f ∈ fs, f.2.length ≤ bufSize) := by
  have fin : ∀ (ty : UInt8) (body x : Bytes), x = encode (ty, body) → body.length ≤ bufSize → finish parse ty body = (r', o) →
      r'.Ok ∧ ∃ fs : List (UInt8 × Bytes), stream fs ++ r'.held = x ∧ messages parse fs = opt o ∧ (∀ f ∈ fs, f.2.length ≤ bufSize) := by
    intro ty body x hx hl h
    unfold finish at h
    split at h
    · rename_i m hm
      cases h
      refine ⟨show 0 < headerSize by decide, [(ty, body)], by rw [hx]; simp [stream, Rd.held], ?_, by simpa using hl⟩
      simp [messages, hm, opt]
    · rename_i hm
      cases h
      refine ⟨show 0 < headerSize by decide, [(ty, body)], by rw [hx]; simp [stream, Rd.held], ?_, by simpa using hl⟩
      simp [messages, hm, opt]
    · cases h
      exact ho.elim
  cases r with
  | head got =>
    have hr : got.length < headerSize := hr
    have hw : headerSize - got.length = w := Option.some.inj hw
    unfold Rd.take at h
    dsimp only at h
    have hlen : (got ++ b).length ≤ headerSize := by rw [List.length_append]; omega
    split at h
    · rename_i hne
      cases h
      exact ⟨Nat.lt_of_le_of_ne hlen hne, [], rfl, rfl, by simp⟩
    · rename_i he
      have he : (got ++ b).length = headerSize := Decidable.not_not.mp he
      obtain ⟨h1, h2⟩ := header_bytes (got ++ b) he
      split at h
      · rename_i hz
        refine fin _ [] _ ?_ (by decide) h
        show got ++ b = be 4 0 ++ [_]
        rw [← hz]
        exact h1.symm
      · rename_i hz
        cases h
        refine ⟨⟨Nat.pos_of_ne_zero hz, h2⟩, [], ?_, rfl, by simp⟩
        show be 4 _ ++ [_] = got ++ b
        exact h1
  | frame size ty got =>
    obtain ⟨hr1, hr2⟩ : got.length < size ∧ size < 2 ^ 32 := hr
    have hsize : size ≤ bufSize := by
      unfold Rd.want at hw
      dsimp only at hw
      split at hw
      · cases hw
      · omega
    have hw : size - got.length = w := by
      unfold Rd.want at hw
      dsimp only at hw
      split at hw
      · cases hw
      · exact Option.some.inj hw
    have hlen : (got ++ b).length ≤ size := by rw [List.length_append]; omega
    unfold Rd.take at h
    dsimp only at h
    split at h
    · rename_i hlt
      cases h
      refine ⟨⟨hlt, hr2⟩, [], ?_, rfl, by simp⟩
      show be 4 size ++ ty :: (got ++ b) = be 4 size ++ ty :: got ++ b
      simp
    · rename_i hlt
      refine fin ty (got ++ b) _ ?_ (by omega) h
      show be 4 size ++ ty :: got ++ b = be 4 (got ++ b).length ++ ty :: (got ++ b)
      rw [show (got ++ b).length = size by omega]
      simp

theorem read_frames (parse : UInt8 → Bytes → Msg α) : ∀ (n : Nat) (r : Rd) (rs : List Rx) (r' : Rd) (rs' : List Rx) (o : Option (Out α)), r.Ok → read parse n r rs = (r', rs', o) → good o →
    r'.Ok ∧ ∃ fs : List (UInt8 × Bytes), stream fs ++ r'.held ++ bytes rs' = r.held ++ bytes rs ∧ messages parse fs = opt o ∧ (∀ f ∈ fs, f.2.length ≤ bufSize) := by
  intro n
  induction n with
  | zero =>
    intro r rs r' rs' o hr h ho
    cases h
    exact ⟨hr, [], rfl, rfl, by simp⟩
  | succ n ih =>
    intro r rs r' rs' o hr h ho
    unfold read at h
    split at h
    · cases h
      exact ho.elim
    · rename_i want hw
      split at h
      · cases h
        exact ⟨hr, [], rfl, rfl, by simp⟩
      · cases h
        exact ho.elim
      · cases h
        exact ho.elim
      · rename_i b rs
        split at h
        · cases h
          exact ho.elim
        · dsimp only at h
          have hbytes : b.take want ++ bytes (if b.length ≤ want then rs else .seg (b.drop want) :: rs) = bytes (.seg b :: rs) := by
            show _ = b ++ bytes rs
            split
            · rename_i hle
              rw [List.take_of_length_le hle]
            · show b.take want ++ (b.drop want ++ bytes rs) = _
              rw [← List.append_assoc, List.take_append_drop]
          split at h
          · rename_i q x ht
            cases h
            obtain ⟨h1, fs, h2, h3, h4⟩ := take_frames parse r hr want hw (b.take want) (by rw [List.length_take]; omega) _ _ ht ho
            refine ⟨h1, fs, ?_, h3, h4⟩
            rw [h2, List.append_assoc, hbytes]
          · rename_i q ht
            obtain ⟨h1, fs, h2, h3, h4⟩ := take_frames parse r hr want hw (b.take want) (by rw [List.length_take]; omega) _ _ ht trivial
            obtain ⟨i1, gs, i2, i3, i4⟩ := ih _ _ _ _ _ h1 h ho
            refine ⟨i1, fs ++ gs, ?_, ?_, ?_⟩
            · rw [stream_append, List.append_assoc, List.append_assoc, ← List.append_assoc (stream gs), i2, ← List.append_assoc, h2, List.append_assoc, hbytes]
            · rw [messages_append, h3, i3]
              rfl
            · intro f hf
              rcases List.mem_append.mp hf with hf | hf
              · exact h4 f hf
              · exact i4 f hf

/-- When reading stops without a message nothing is left. -/
theorem read_drains (parse : UInt8 → Bytes → Msg α) : ∀ (n : Nat) (r : Rd) (rs : List Rx) (r' : Rd) (rs' : List Rx), SamSocket.work rs < n → read parse n r rs = (r', rs', none) → rs' = [] := by
  intro n
  induction n with
  | zero => intro r rs r' rs' hn; omega
  | succ n ih =>
    intro r rs r' rs' hn h
    unfold read at h
    split at h
    · cases h
    · rename_i want hw
      split at h
      · cases h
        rfl
      · cases h
      · cases h
      · rename_i b rs
        split at h
        · cases h
        · rename_i hne
          dsimp only at h
          split at h
          · cases h
          · refine ih _ _ _ _ ?_ h
            have hpos : 0 < (b.take want).length := List.length_pos_iff.mpr hne
            rw [List.length_take] at hpos
            have hw1 : SamSocket.work (.seg b :: rs) = b.length + 1 + SamSocket.work rs := rfl
            split
            · omega
            · have hw2 : SamSocket.work (.seg (b.drop want) :: rs) = (b.drop want).length + 1 + SamSocket.work rs := rfl
              rw [List.length_drop] at hw2
              omega

theorem none_pending (parse : UInt8 → Bytes → Msg α) : ∀ (n : Nat) (r : Rd) (rs : List Rx) (r' : Rd) (rs' : List Rx), read parse n r rs ≠ (r', rs', some .pending) := by
  intro n
  induction n with
  | zero => intro r rs r' rs' h; cases h
  | succ n ih =>
    intro r rs r' rs' h
    unfold read at h
    split at h
    · cases h
    · split at h
      · cases h
      · cases h
      · cases h
      · split at h
        · cases h
        · dsimp only at h
          split at h
          · rename_i q ht
            cases h
            have fin : ∀ ty b r', finish parse ty b ≠ (r', some .pending) := by
              intro ty b r' h
              unfold finish at h
              split at h <;> cases h
            unfold Rd.take at ht
            split at ht
            · split at ht
              · cases ht
              · dsimp only at ht
                split at ht
                · exact fin _ _ _ ht
                · cases ht
            · split at ht
              · cases ht
              · exact fin _ _ _ ht
          · exact ih _ _ _ _ h

/-- The state of a socket, given what has arrived. -/
def Inv (parse : UInt8 → Bytes → Msg α) (x : Bytes) (s : Sys α) : Prop :=
  ∃ (fs : List (UInt8 × Bytes)) (tail : Bytes), stream fs ++ tail = x ∧ s.msgs = messages parse fs ∧ (∀ f ∈ fs, f.2.length ≤ bufSize) ∧
    (s.live = true → tail = s.sock.rd.held ++ bytes s.inbox ∧ s.sock.rd.Ok)

theorem Inv.step {parse : UInt8 → Bytes → Msg α} {x : Bytes} {s : Sys α} (h : Inv parse x s) (o : Op) : Inv parse (x ++ bytes (arrivals [o])) (s.step parse o) := by
  obtain ⟨fs, tail, h1, h2, h3, h4⟩ := h
  unfold Sys.step
  split
  · rename_i hl
    exact ⟨fs, tail ++ bytes (arrivals [o]), by rw [← List.append_assoc, h1], h2, h3, fun h => absurd h (by rw [hl]; simp)⟩
  · rename_i hl
    obtain ⟨h4, h5⟩ := h4 (by simpa using hl)
    cases o with
    | arrive r =>
      refine ⟨fs, tail ++ bytes [r], by rw [← List.append_assoc, h1]; rfl, h2, h3, fun _ => ⟨?_, h5⟩⟩
      show _ = s.sock.rd.held ++ bytes (s.inbox ++ [r])
      rw [bytes_append, h4, List.append_assoc]
    | send m => exact ⟨fs, tail, by rw [h1]; exact (List.append_nil _).symm, h2, h3, fun _ => ⟨h4, h5⟩⟩
    | poll ws =>
      show Inv parse (x ++ []) _
      rw [List.append_nil]
      dsimp only
      unfold Sock.poll
      cases hr : read parse (work s.inbox) s.sock.rd s.inbox with
      | mk r p =>
        obtain ⟨rs, o⟩ := p
        have key := read_frames parse _ _ _ r rs o h5 hr
        cases o with
        | some o =>
          cases o with
          | msg m =>
            obtain ⟨k1, gs, k2, k3, k4⟩ := key trivial
            refine ⟨fs ++ gs, r.held ++ bytes rs, ?_, ?_, ?_, fun _ => ⟨rfl, k1⟩⟩
            · rw [stream_append, ← h1, h4, ← k2]
              simp only [List.append_assoc]
            · show s.msgs ++ [m] = _
              rw [messages_append, h2, k3]
              rfl
            · intro f hf
              rcases List.mem_append.mp hf with hf | hf
              · exact h3 f hf
              · exact k4 f hf
          | closed => exact ⟨fs, tail, h1, h2, h3, fun h => by cases h⟩
          | panic => exact ⟨fs, tail, h1, h2, h3, fun h => by cases h⟩
          | pending => exact ⟨fs, tail, h1, h2, h3, fun _ => by
              exfalso
              exact none_pending parse _ _ _ _ _ hr⟩
        | none =>
          obtain ⟨k1, gs, k2, k3, k4⟩ := key trivial
          have hgs : stream (fs ++ gs) ++ (r.held ++ bytes rs) = x := by
            rw [stream_append, ← h1, h4, ← k2]
            simp only [List.append_assoc]
          have hm : s.msgs = messages parse (fs ++ gs) := by
            rw [messages_append, h2, k3]
            exact (List.append_nil _).symm
          have hb : ∀ f ∈ fs ++ gs, f.2.length ≤ bufSize := by
            intro f hf
            rcases List.mem_append.mp hf with hf | hf
            · exact h3 f hf
            · exact k4 f hf
          dsimp only
          cases SamSocket.Sock.write (s.sock.w.writeWork ws) s.sock.w ws with
          | mk w b =>
            cases b with
            | true => exact ⟨_, _, hgs, hm, hb, fun _ => ⟨rfl, k1⟩⟩
            | false => exact ⟨_, _, hgs, hm, hb, fun h => by cases h⟩

theorem arrivals_append (a b : List Op) : arrivals (a ++ b) = arrivals a ++ arrivals b := List.filterMap_append

theorem Inv.run {parse : UInt8 → Bytes → Msg α} (ops : List Op) {x : Bytes} {s : Sys α} (h : Inv parse x s) : Inv parse (x ++ bytes (arrivals ops)) (s.run parse ops) := by
  induction ops generalizing x s with
  | nil => rw [show bytes (arrivals ([] : List Op)) = [] from rfl, List.append_nil]; exact h
  | cons o ops ih =>
    have := ih (h.step o)
    rw [List.append_assoc, ← bytes_append, ← arrivals_append] at this
    exact this

theorem Inv.new (parse : UInt8 → Bytes → Msg α) : Inv parse [] (Sys.new : Sys α) := ⟨[], [], rfl, rfl, by simp, fun _ => ⟨rfl, show 0 < headerSize by decide⟩⟩

theorem inv_run (parse : UInt8 → Bytes → Msg α) (ops : List Op) : Inv parse (bytes (arrivals ops)) ((Sys.new : Sys α).run parse ops) := (Inv.new parse).run ops

/-- Two frames that begin the same bytes are the same. -/
theorem encode_inj (f g : UInt8 × Bytes) (hf : f.2.length < 2 ^ 32) (hg : g.2.length < 2 ^ 32) (a b : Bytes) (h : encode f ++ a = encode g ++ b) : f = g ∧ a = b := by
  obtain ⟨t, x⟩ := f
  obtain ⟨u, y⟩ := g
  unfold encode at h
  dsimp only at h hf hg
  rw [List.append_assoc, List.append_assoc] at h
  obtain ⟨h1, h2⟩ := List.append_inj h (by simp)
  have hl : x.length = y.length := by
    have h3 := congrArg unbe h1
    rw [unbe_be, unbe_be, Nat.mod_eq_of_lt (by simpa using hf), Nat.mod_eq_of_lt (by simpa using hg)] at h3
    exact h3
  rw [List.cons_append, List.cons_append] at h2
  injection h2 with h3 h4
  obtain ⟨h5, h6⟩ := List.append_inj h4 hl
  exact ⟨by rw [h3, h5], h6⟩

theorem stream_prefix (fs gs : List (UInt8 × Bytes)) (hf : ∀ f ∈ fs, f.2.length < 2 ^ 32) (hg : ∀ f ∈ gs, f.2.length < 2 ^ 32) (x : Bytes) (h : stream fs ++ x = stream gs) :
    ∃ hs, gs = fs ++ hs ∧ x = stream hs := by
  induction fs generalizing gs with
  | nil => exact ⟨gs, rfl, h⟩
  | cons f fs ih =>
    cases gs with
    | nil =>
      exfalso
      have := congrArg List.length h
      simp [stream, encode] at this
    | cons g gs =>
      have h' : encode f ++ (stream fs ++ x) = encode g ++ stream gs := by
        rw [← List.append_assoc]
        exact h
      obtain ⟨h1, h2⟩ := encode_inj f g (hf f List.mem_cons_self) (hg g List.mem_cons_self) _ _ h'
      obtain ⟨hs, h3, h4⟩ := ih gs (fun f h => hf f (List.mem_cons_of_mem _ h)) (fun f h => hg f (List.mem_cons_of_mem _ h)) h2
      exact ⟨hs, by rw [h1, h3]; rfl, h4⟩

/-- The messages that are seen are those in the first frames of the client, in order, each once, however the frames are cut and whenever the socket is polled. -/
theorem C179_order (parse : UInt8 → Bytes → Msg α) (ops : List Op) (gs : List (UInt8 × Bytes)) (hg : ∀ f ∈ gs, f.2.length < 2 ^ 32) (h : bytes (arrivals ops) <+: stream gs) :
    ∃ fs, fs <+: gs ∧ ((Sys.new : Sys α).run parse ops).msgs = messages parse fs := by
  obtain ⟨fs, tail, h1, h2, h3, _⟩ := inv_run parse ops
  obtain ⟨y, hy⟩ := h
  obtain ⟨hs, e, _⟩ := stream_prefix fs gs (fun f hf => Nat.lt_of_le_of_lt (h3 f hf) (by decide)) hg (tail ++ y) (by rw [← List.append_assoc, h1, hy])
  exact ⟨fs, ⟨hs, e.symm⟩, h2⟩

/-- When all that has arrived was read, every message in a complete frame has been seen. -/
theorem C179_all_partial (parse : UInt8 → Bytes → Msg α) (ops : List Op) (gs : List (UInt8 × Bytes)) (hg : ∀ f ∈ gs, f.2.length < 2 ^ 32) (h : bytes (arrivals ops) = stream gs)
    (hl : ((Sys.new : Sys α).run parse ops).live = true) (hi : ((Sys.new : Sys α).run parse ops).inbox = []) : ((Sys.new : Sys α).run parse ops).msgs = messages parse gs := by
  obtain ⟨fs, tail, h1, h2, h3, h4⟩ := inv_run parse ops
  obtain ⟨h4, h5⟩ := h4 hl
  rw [hi, show bytes [] = [] from rfl, List.append_nil] at h4
  obtain ⟨hs, e, e2⟩ := stream_prefix fs gs (fun f hf => Nat.lt_of_le_of_lt (h3 f hf) (by decide)) hg tail (by rw [h1, h])
  rw [h2, e, messages_append]
  cases hs with
  | nil => exact (List.append_nil _).symm
  | cons g hs =>
    exfalso
    rw [h4] at e2
    have e2 : Rd.held ((Sys.new : Sys α).run parse ops).sock.rd = encode g ++ stream hs := e2
    have hgl : g.2.length < 2 ^ 32 := hg g (by rw [e]; simp)
    have hlen := congrArg List.length e2
    revert e2 hlen h5
    cases ((Sys.new : Sys α).run parse ops).sock.rd with
    | head got =>
      intro h5 e2 hlen
      have h5 : got.length < 5 := h5
      have hlen : got.length = (encode g ++ stream hs).length := hlen
      simp [encode] at hlen
      omega
    | frame size ty got =>
      intro h5 e2 hlen
      obtain ⟨h5, h6⟩ : got.length < size ∧ size < 2 ^ 32 := h5
      have e2 : be 4 size ++ ty :: got = (be 4 g.2.length ++ g.1 :: g.2) ++ stream hs := e2
      have hlen : (be 4 size ++ ty :: got).length = (encode g ++ stream hs).length := hlen
      rw [List.append_assoc] at e2
      obtain ⟨h7, h8⟩ := List.append_inj e2 (by simp)
      have h9 := congrArg unbe h7
      rw [unbe_be, unbe_be, Nat.mod_eq_of_lt (by simpa using h6), Nat.mod_eq_of_lt (by simpa using hgl)] at h9
      simp [encode] at hlen
      omega

/-- Polling an open socket that stays open returns a message or leaves nothing unread. -/
theorem C179_progress (parse : UInt8 → Bytes → Msg α) (s : Sys α) (ws : List Wr) (hl : (s.step parse (.poll ws)).live = true) :
    (∃ m, (s.step parse (.poll ws)).msgs = s.msgs ++ [m]) ∨ (s.step parse (.poll ws)).inbox = [] := by
  unfold Sys.step at hl ⊢
  split at hl
  · rename_i h
    rw [h] at hl
    cases hl
  · rename_i h
    rw [if_neg h]
    dsimp only at hl ⊢
    unfold Sock.poll at hl ⊢
    cases hr : read parse (work s.inbox) s.sock.rd s.inbox with
    | mk r p =>
      obtain ⟨rs, o⟩ := p
      rw [hr] at hl
      cases o with
      | some o =>
        cases o with
        | msg m => exact .inl ⟨m, rfl⟩
        | closed => cases hl
        | panic => cases hl
        | pending =>
          exfalso
          exact none_pending parse _ _ _ _ _ hr
      | none =>
        right
        have : rs = [] := read_drains parse _ _ _ _ _ (Nat.lt_succ_self _) hr
        subst this
        dsimp only
        cases SamSocket.Sock.write (s.sock.w.writeWork ws) s.sock.w ws with
        | mk w b => cases b <;> rfl

/-- A frame that the router cannot take in: one that panics when it is understood, or one that says it is longer than the buffer. -/
def Bad (parse : UInt8 → Bytes → Msg α) (x : Bytes) : Prop :=
  ∃ fs : List (UInt8 × Bytes), (∀ f ∈ fs, f.2.length ≤ bufSize) ∧
    ((∃ f : UInt8 × Bytes, f.2.length ≤ bufSize ∧ parse f.1 f.2 = .panic ∧ stream fs ++ encode f <+: x) ∨
      ∃ size ty, bufSize < size ∧ size < 2 ^ 32 ∧ stream fs ++ (be 4 size ++ [ty]) <+: x)

theorem take_bad (parse : UInt8 → Bytes → Msg α) (r : Rd) (hr : r.Ok) (w : Nat) (hw : r.want = some w) (b : Bytes) (hb : b.length ≤ w) (r' : Rd) (o : Option (Out α))
    (h : r.take parse b = (r', o)) (ho : ¬good o) : Bad parse (r.held ++ b) := by
  have fin : ∀ (ty : UInt8) (body x : Bytes), x = encode (ty, body) → body.length ≤ bufSize → finish parse ty body = (r', o) → Bad parse x := by
    intro ty body x hx hl h
    unfold finish at h
    split at h
    · cases h
      exact absurd trivial ho
    · cases h
      exact absurd trivial ho
    · rename_i hm
      exact ⟨[], by simp, .inl ⟨(ty, body), hl, hm, ⟨[], by rw [hx]; simp [stream]⟩⟩⟩
  cases r with
  | head got =>
    have hr : got.length < headerSize := hr
    unfold Rd.take at h
    dsimp only at h
    split at h
    · cases h
      exact absurd trivial ho
    · rename_i he
      have he : (got ++ b).length = headerSize := Decidable.not_not.mp he
      obtain ⟨h1, h2⟩ := header_bytes (got ++ b) he
      split at h
      · rename_i hz
        refine fin _ [] _ ?_ (by decide) h
        show got ++ b = be 4 0 ++ [_]
        rw [← hz]
        exact h1.symm
      · cases h
        exact absurd trivial ho
  | frame size ty got =>
    obtain ⟨hr1, hr2⟩ : got.length < size ∧ size < 2 ^ 32 := hr
    unfold Rd.want at hw
    dsimp only at hw
    split at hw
    · cases hw
    · rename_i hsize
      have hw : size - got.length = w := Option.some.inj hw
      have hlen : (got ++ b).length ≤ size := by rw [List.length_append]; omega
      unfold Rd.take at h
      dsimp only at h
      split at h
      · cases h
        exact absurd trivial ho
      · rename_i hlt
        refine fin ty (got ++ b) _ ?_ (by omega) h
        show be 4 size ++ ty :: got ++ b = be 4 (got ++ b).length ++ ty :: (got ++ b)
        rw [show (got ++ b).length = size by omega]
        simp

theorem Bad.after {parse : UInt8 → Bytes → Msg α} {x : Bytes} (h : Bad parse x) (gs : List (UInt8 × Bytes)) (hg : ∀ f ∈ gs, f.2.length ≤ bufSize) : Bad parse (stream gs ++ x) := by
  obtain ⟨fs, h1, h2⟩ := h
  refine ⟨gs ++ fs, ?_, ?_⟩
  · intro f hf
    rcases List.mem_append.mp hf with hf | hf
    · exact hg f hf
    · exact h1 f hf
  · rcases h2 with ⟨f, a, b, c⟩ | ⟨size, ty, a, b, c⟩
    · exact .inl ⟨f, a, b, by rw [stream_append, List.append_assoc]; exact (List.prefix_append_right_inj _).mpr c⟩
    · exact .inr ⟨size, ty, a, b, by rw [stream_append, List.append_assoc]; exact (List.prefix_append_right_inj _).mpr c⟩

theorem Bad.mono {parse : UInt8 → Bytes → Msg α} {x y : Bytes} (h : Bad parse x) (hxy : x <+: y) : Bad parse y := by
  obtain ⟨fs, h1, h2⟩ := h
  refine ⟨fs, h1, ?_⟩
  rcases h2 with ⟨f, a, b, c⟩ | ⟨size, ty, a, b, c⟩
  · exact .inl ⟨f, a, b, c.trans hxy⟩
  · exact .inr ⟨size, ty, a, b, c.trans hxy⟩

/-- The stream does not end or fail. -/
def AllSegs (rs : List Rx) : Prop := ∀ r ∈ rs, ∃ b, r = .seg b ∧ b ≠ []

theorem read_segs (parse : UInt8 → Bytes → Msg α) : ∀ (n : Nat) (r : Rd) (rs : List Rx) (r' : Rd) (rs' : List Rx) (o : Option (Out α)), r.Ok → AllSegs rs → read parse n r rs = (r', rs', o) →
    AllSegs rs' ∧ (¬good o → Bad parse (r.held ++ bytes rs)) := by
  intro n
  induction n with
  | zero =>
    intro r rs r' rs' o hr ha h
    cases h
    exact ⟨ha, fun h => absurd trivial h⟩
  | succ n ih =>
    intro r rs r' rs' o hr ha h
    unfold read at h
    split at h
    · rename_i hw
      cases h
      refine ⟨ha, fun _ => ?_⟩
      cases r with
      | head got => cases hw
      | frame size ty got =>
        obtain ⟨hr1, hr2⟩ : got.length < size ∧ size < 2 ^ 32 := hr
        unfold Rd.want at hw
        dsimp only at hw
        split at hw
        · rename_i hs
          refine ⟨[], by simp, .inr ⟨size, ty, hs, hr2, ⟨got ++ bytes rs, ?_⟩⟩⟩
          simp [stream, Rd.held]
        · cases hw
    · rename_i want hw
      have hpos : 0 < want := by
        cases r with
        | head got =>
          have hr : got.length < headerSize := hr
          have hw : headerSize - got.length = want := Option.some.inj hw
          omega
        | frame size ty got =>
          obtain ⟨hr1, hr2⟩ : got.length < size ∧ size < 2 ^ 32 := hr
          unfold Rd.want at hw
          dsimp only at hw
          split at hw
          · cases hw
          · have hw : size - got.length = want := Option.some.inj hw
            omega
      split at h
      · cases h
        exact ⟨ha, fun h => absurd trivial h⟩
      · obtain ⟨b, hb, _⟩ := ha _ List.mem_cons_self
        cases hb
      · obtain ⟨b, hb, _⟩ := ha _ List.mem_cons_self
        cases hb
      · rename_i b rs
        obtain ⟨b', hb, hne⟩ := ha _ List.mem_cons_self
        cases hb
        split at h
        · rename_i he
          have he := congrArg List.length he
          rw [List.length_take] at he
          have := List.length_pos_iff.mpr hne
          simp only [List.length_nil] at he
          omega
        · dsimp only at h
          have hleft : AllSegs (if b.length ≤ want then rs else .seg (b.drop want) :: rs) := by
            split
            · exact fun r hr => ha r (List.mem_cons_of_mem _ hr)
            · rename_i hle
              intro r hr
              rcases List.mem_cons.mp hr with rfl | hr
              · refine ⟨_, rfl, fun h => ?_⟩
                have := congrArg List.length h
                rw [List.length_drop] at this
                simp only [List.length_nil] at this
                omega
              · exact ha r (List.mem_cons_of_mem _ hr)
          have hbytes : b.take want ++ bytes (if b.length ≤ want then rs else .seg (b.drop want) :: rs) = bytes (.seg b :: rs) := by
            show _ = b ++ bytes rs
            split
            · rename_i hle
              rw [List.take_of_length_le hle]
            · show b.take want ++ (b.drop want ++ bytes rs) = _
              rw [← List.append_assoc, List.take_append_drop]
          split at h
          · rename_i q x ht
            cases h
            refine ⟨hleft, fun ho => (take_bad parse r hr want hw (b.take want) (by rw [List.length_take]; omega) _ _ ht ho).mono ?_⟩
            rw [← hbytes, ← List.append_assoc]
            exact List.prefix_append _ _
          · rename_i q ht
            obtain ⟨h1, fs, h2, h3, h4⟩ := take_frames parse r hr want hw (b.take want) (by rw [List.length_take]; omega) _ _ ht trivial
            obtain ⟨i1, i2⟩ := ih _ _ _ _ _ h1 hleft h
            refine ⟨i1, fun ho => ?_⟩
            rw [← hbytes, ← List.append_assoc, ← h2, List.append_assoc]
            exact (i2 ho).after fs h4

/-- The stream takes at least a byte whenever it takes any and does not fail. -/
def Takes (ws : List Wr) : Prop := ∀ w ∈ ws, w ≠ .fail ∧ w ≠ .took 0

/-- No message that waits is empty. -/
def Full (s : SamSocket.Sock) : Prop := (∀ x ∈ s.queue, x ≠ []) ∧ ∀ off x, s.cur = some (off, x) → off < x.length

theorem write_open : ∀ (n : Nat) (s : SamSocket.Sock) (ws : List Wr), Full s → Takes ws → (SamSocket.Sock.write n s ws).2 = true ∧ Full (SamSocket.Sock.write n s ws).1 := by
  intro n
  induction n with
  | zero => intro s ws hs _; exact ⟨rfl, hs⟩
  | succ n ih =>
    intro s ws hs hw
    unfold SamSocket.Sock.write
    split
    · split
      · exact ⟨rfl, hs⟩
      · rename_i m q hq
        refine ih _ _ ⟨fun x hx => hs.1 x (by rw [hq]; exact List.mem_cons_of_mem _ hx), fun off x h => ?_⟩ hw
        have h : (0, m) = (off, x) := Option.some.inj h
        cases h
        exact List.length_pos_iff.mpr (hs.1 m (by rw [hq]; exact List.mem_cons_self))
    · rename_i off m hc
      have hlt := hs.2 off m hc
      split
      · exact ⟨rfl, hs⟩
      · exact ⟨rfl, hs⟩
      · exact absurd rfl (hw _ List.mem_cons_self).1
      · rename_i k ws
        have hk : k ≠ 0 := fun h => (hw _ List.mem_cons_self).2 (by rw [h])
        rw [List.length_drop, if_neg (by omega)]
        dsimp only
        have hw' : Takes ws := fun w h => hw w (List.mem_cons_of_mem _ h)
        split
        · exact ih _ _ ⟨hs.1, fun off x h => by cases h⟩ hw'
        · rename_i hne
          refine ih _ _ ⟨hs.1, fun off' x h => ?_⟩ hw'
          have h : (off + min k (m.length - off), m) = (off', x) := Option.some.inj h
          cases h
          omega

/-- Nothing that the client or the stream does ends the connection. -/
def Kind (o : Op) : Prop := match o with
  | .arrive r => ∃ b, r = .seg b ∧ b ≠ []
  | .send m => m ≠ []
  | .poll ws => Takes ws

theorem open_step {parse : UInt8 → Bytes → Msg α} {x : Bytes} {s : Sys α} (hi : Inv parse x s) (hl : s.live = true) (ha : AllSegs s.inbox) (hf : Full s.sock.w) (hb : ¬Bad parse x) (o : Op)
    (ho : Kind o) : (s.step parse o).live = true ∧ AllSegs (s.step parse o).inbox ∧ Full (s.step parse o).sock.w := by
  obtain ⟨fs, tail, h1, h2, h3, h4⟩ := hi
  obtain ⟨h4, h5⟩ := h4 hl
  unfold Sys.step
  rw [if_neg (by rw [hl]; simp)]
  cases o with
  | arrive r =>
    refine ⟨hl, ?_, hf⟩
    intro q hq
    rcases List.mem_append.mp hq with hq | hq
    · exact ha q hq
    · rw [List.mem_singleton.mp hq]
      exact ho
  | send m =>
    refine ⟨hl, ha, ?_, hf.2⟩
    intro q hq
    rcases List.mem_append.mp hq with hq | hq
    · exact hf.1 q hq
    · rw [List.mem_singleton.mp hq]
      exact ho
  | poll ws =>
    dsimp only
    unfold Sock.poll
    cases hr : read parse (work s.inbox) s.sock.rd s.inbox with
    | mk r p =>
      obtain ⟨rs, o⟩ := p
      obtain ⟨k1, k2⟩ := read_segs parse _ _ _ r rs o h5 ha hr
      have hgood : good o := by
        refine Classical.byContradiction fun h => hb ?_
        rw [← h1, h4]
        exact (k2 h).after fs h3
      cases o with
      | some o =>
        cases o with
        | msg m => exact ⟨hl, k1, hf⟩
        | closed => exact hgood.elim
        | panic => exact hgood.elim
        | pending => exact hgood.elim
      | none =>
        obtain ⟨w1, w2⟩ := write_open (s.sock.w.writeWork ws) s.sock.w ws hf ho
        dsimp only
        revert w1 w2
        cases SamSocket.Sock.write (s.sock.w.writeWork ws) s.sock.w ws with
        | mk w b =>
          intro w1 w2
          cases (show b = true from w1)
          exact ⟨hl, k1, w2⟩

theorem open_run {parse : UInt8 → Bytes → Msg α} (ops : List Op) : ∀ {x : Bytes} {s : Sys α}, Inv parse x s → s.live = true → AllSegs s.inbox → Full s.sock.w →
    ¬Bad parse (x ++ bytes (arrivals ops)) → (∀ o ∈ ops, Kind o) → (s.run parse ops).live = true ∧ Full (s.run parse ops).sock.w := by
  induction ops with
  | nil => intro x s hi hl ha hf hb ho; exact ⟨hl, hf⟩
  | cons o ops ih =>
    intro x s hi hl ha hf hb ho
    obtain ⟨h1, h2, h3⟩ := open_step hi hl ha hf (fun h => hb (h.mono (List.prefix_append _ _))) o (ho o List.mem_cons_self)
    refine ih (hi.step o) h1 h2 h3 ?_ (fun o h => ho o (List.mem_cons_of_mem _ h))
    rw [List.append_assoc, ← bytes_append, ← arrivals_append]
    exact hb

theorem prefix_total {a b c : Bytes} (h1 : a <+: c) (h2 : b <+: c) : a <+: b ∨ b <+: a := List.prefix_or_prefix_of_prefix h1 h2

theorem not_bad (parse : UInt8 → Bytes → Msg α) (gs : List (UInt8 × Bytes)) (hg : ∀ f ∈ gs, f.2.length ≤ bufSize ∧ parse f.1 f.2 ≠ .panic) : ¬Bad parse (stream gs) := by
  rintro ⟨fs, h1, h2⟩
  have lt : ∀ {l : Nat}, l ≤ bufSize → l < 2 ^ 32 := fun h => Nat.lt_of_le_of_lt h (by decide)
  rcases h2 with ⟨f, a, b, t, ht⟩ | ⟨size, ty, a, b, t, ht⟩
  · obtain ⟨hs, e, e2⟩ := stream_prefix (fs ++ [f]) gs
      (by
        intro g hg
        rcases List.mem_append.mp hg with hg | hg
        · exact lt (h1 g hg)
        · rw [List.mem_singleton.mp hg]
          exact lt a)
      (fun f hf => lt (hg f hf).1) t (by
        rw [stream_append, ← ht]
        simp [stream])
    exact (hg f (by rw [e]; simp)).2 b
  · obtain ⟨hs, e, e2⟩ := stream_prefix fs gs (fun f hf => lt (h1 f hf)) (fun f hf => lt (hg f hf).1) (be 4 size ++ [ty] ++ t) (by rw [← List.append_assoc]; exact ht)
    cases hs with
    | nil =>
      have := congrArg List.length e2
      simp [stream] at this
    | cons g hs =>
      have hgl : g.2.length ≤ bufSize := (hg g (by rw [e]; simp)).1
      have e2 : be 4 size ++ [ty] ++ t = (be 4 g.2.length ++ g.1 :: g.2) ++ stream hs := e2
      rw [List.append_assoc, List.append_assoc] at e2
      obtain ⟨h7, h8⟩ := List.append_inj e2 (by simp)
      have h9 := congrArg unbe h7
      rw [unbe_be, unbe_be, Nat.mod_eq_of_lt (by simpa using b), Nat.mod_eq_of_lt (by simpa using lt hgl)] at h9
      omega

/-- As long as the client keeps the connection and sends frames of at most 65535 bytes that can be understood or ignored, the router keeps it too. -/
theorem C179_open_partial (parse : UInt8 → Bytes → Msg α) (ops : List Op) (gs : List (UInt8 × Bytes)) (hg : ∀ f ∈ gs, f.2.length ≤ 65535 ∧ parse f.1 f.2 ≠ .panic)
    (h : bytes (arrivals ops) <+: stream gs) (hk : ∀ o ∈ ops, Kind o) : ((Sys.new : Sys α).run parse ops).live = true := by
  refine (open_run ops (Inv.new parse) rfl (by intro r hr; cases hr) ⟨(by intro x hx; cases hx), (by intro off x h; cases h)⟩ ?_ hk).1
  rw [List.nil_append]
  exact fun hb => not_bad parse gs hg (hb.mono h)

/-- The same, when the messages are complete and the socket is polled until there is nothing left: each of them has been seen, once and in order. -/
theorem C179_seen_partial (parse : UInt8 → Bytes → Msg α) (ops : List Op) (gs : List (UInt8 × Bytes)) (hg : ∀ f ∈ gs, f.2.length ≤ 65535 ∧ parse f.1 f.2 ≠ .panic)
    (h : bytes (arrivals ops) = stream gs) (hk : ∀ o ∈ ops, Kind o) (polls : List (List Wr)) (hp : ∀ ws ∈ polls, Takes ws) (hn : gs.length < polls.length) :
    ((Sys.new : Sys α).run parse (ops ++ polls.map .poll)).msgs = messages parse gs := by
  have lt : ∀ f ∈ gs, f.2.length < 2 ^ 32 := fun f hf => Nat.lt_of_le_of_lt (hg f hf).1 (by decide)
  -- after `k` polls either nothing is left or `k` messages have been seen
  have key : ∀ ps : List (List Wr), (∀ ws ∈ ps, Takes ws) → ((Sys.new : Sys α).run parse (ops ++ ps.map .poll)).live = true ∧
      (((Sys.new : Sys α).run parse (ops ++ ps.map .poll)).inbox = [] ∨ ps.length ≤ ((Sys.new : Sys α).run parse (ops ++ ps.map .poll)).msgs.length) := by
    intro ps
    have snoc : ∀ n (ps : List (List Wr)), ps.length = n → (∀ ws ∈ ps, Takes ws) → ((Sys.new : Sys α).run parse (ops ++ ps.map .poll)).live = true ∧
      (((Sys.new : Sys α).run parse (ops ++ ps.map .poll)).inbox = [] ∨ ps.length ≤ ((Sys.new : Sys α).run parse (ops ++ ps.map .poll)).msgs.length) := by
      intro n
      induction n with
      | zero =>
        intro ps hlen _
        cases List.length_eq_zero_iff.mp hlen
        rw [List.map_nil, List.append_nil]
        exact ⟨C179_open_partial parse ops gs hg (by rw [h]; exact List.prefix_rfl) hk, .inr (Nat.zero_le _)⟩
      | succ n ih =>
        intro ps hlen hps
        obtain ⟨qs, ws, rfl⟩ : ∃ qs ws, ps = qs ++ [ws] := by
          refine ⟨ps.dropLast, ps.getLast (by intro e; rw [e] at hlen; cases hlen), ?_⟩
          exact (List.dropLast_concat_getLast _).symm
        have hbytes : bytes (arrivals (ops ++ (qs ++ [ws]).map Op.poll)) = stream gs := by
          rw [arrivals_append, bytes_append, h]
          have : ∀ l : List (List Wr), arrivals (l.map Op.poll) = [] := by
            intro l
            induction l with
            | nil => rfl
            | cons a l ih => exact ih
          rw [this]
          exact List.append_nil _
        have hlive : ((Sys.new : Sys α).run parse (ops ++ (qs ++ [ws]).map Op.poll)).live = true := by
          refine C179_open_partial parse _ gs hg (by rw [hbytes]; exact List.prefix_rfl) ?_
          intro o ho
          rcases List.mem_append.mp ho with ho | ho
          · exact hk o ho
          · obtain ⟨w, hw, rfl⟩ := List.mem_map.mp ho
            exact hps w hw
        refine ⟨hlive, ?_⟩
        obtain ⟨_, i2⟩ := ih qs (by simpa using hlen) (fun w hw => hps w (List.mem_append_left _ hw))
        have e : (Sys.new : Sys α).run parse (ops ++ (qs ++ [ws]).map Op.poll) = ((Sys.new : Sys α).run parse (ops ++ qs.map Op.poll)).step parse (.poll ws) := by
          unfold Sys.run
          rw [List.map_append, ← List.append_assoc, List.foldl_append]
          rfl
        rw [e] at hlive ⊢
        rcases C179_progress parse _ ws hlive with ⟨m, hm⟩ | hm
        · rcases i2 with i2 | i2
          · left
            -- with nothing left to read there is no message
            exfalso
            have hall := C179_all_partial parse (ops ++ qs.map Op.poll) gs lt (by
              have : ∀ l : List (List Wr), arrivals (l.map Op.poll) = [] := by
                intro l
                induction l with
                | nil => rfl
                | cons a l ih => exact ih
              rw [arrivals_append, bytes_append, h, this]
              exact List.append_nil _) (by
                cases hl : ((Sys.new : Sys α).run parse (ops ++ qs.map Op.poll)).live with
                | true => rfl
                | false =>
                  have : (((Sys.new : Sys α).run parse (ops ++ qs.map Op.poll)).step parse (.poll ws)) = (Sys.new : Sys α).run parse (ops ++ qs.map Op.poll) := by
                    unfold Sys.step
                    rw [if_pos hl]
                  rw [this, hl] at hlive
                  cases hlive) i2
            obtain ⟨fs, hfs, hm2⟩ := C179_order parse (ops ++ (qs ++ [ws]).map Op.poll) gs lt (by rw [hbytes]; exact List.prefix_rfl)
            rw [e, hm, hall] at hm2
            obtain ⟨t, rfl⟩ := hfs
            rw [messages_append] at hm2
            have := congrArg List.length hm2
            simp only [List.length_append, List.length_singleton] at this
            omega
          · right
            rw [hm]
            simp only [List.length_append, List.length_singleton]
            omega
        · exact .inl hm
    exact snoc _ ps rfl
  obtain ⟨k1, k2⟩ := key polls hp
  have hbytes : bytes (arrivals (ops ++ polls.map Op.poll)) = stream gs := by
    have : ∀ l : List (List Wr), arrivals (l.map Op.poll) = [] := by
      intro l
      induction l with
      | nil => rfl
      | cons a l ih => exact ih
    rw [arrivals_append, bytes_append, h, this]
    exact List.append_nil _
  rcases k2 with k2 | k2
  · exact C179_all_partial parse _ gs lt hbytes k1 k2
  · exfalso
    obtain ⟨fs, hfs, hm⟩ := C179_order parse _ gs lt (by rw [hbytes]; exact List.prefix_rfl)
    rw [hm] at k2
    have h1 : (messages parse fs).length ≤ fs.length := List.length_filterMap_le _ _
    have h2 := hfs.length_le
    omega

theorem read_none (parse : UInt8 → Bytes → Msg α) (n : Nat) (r : Rd) (rs : List Rx) (h : r.want = none) : read parse (n + 1) r rs = (r, rs, some .panic) := by
  unfold read
  rw [h]

theorem read_some (parse : UInt8 → Bytes → Msg α) (n : Nat) (r q : Rd) (b : Bytes) (rs : List Rx) (h : r.want = some b.length) (hb : b ≠ []) (ht : r.take parse b = (q, none)) :
    read parse (n + 1) r (.seg b :: rs) = read parse n q rs := by
  conv => lhs; unfold read
  rw [h]
  dsimp only
  rw [List.take_length, if_neg hb, ht, if_pos (Nat.le_refl _)]

theorem read_big (parse : UInt8 → Bytes → Msg α) (size : Nat) (h1 : bufSize < size) (h2 : size < 2 ^ 32) (ty : UInt8) (n : Nat) :
    read parse (n + 2) (.head []) [.seg (be 4 size ++ [ty])] = (.frame size ty [], [], some .panic) := by
  have hl : (be 4 size ++ [ty]).length = headerSize := by simp [headerSize]
  have hsz : unbe ((be 4 size ++ [ty]).take 4) = size := by
    rw [List.take_append_of_le_length (by simp), List.take_of_length_le (by simp), unbe_be, Nat.mod_eq_of_lt (by simpa using h2)]
  have hty : (be 4 size ++ [ty]).getD 4 0 = ty := by
    simp [List.getD]
  have ht : Rd.take parse (.head []) (be 4 size ++ [ty]) = (.frame size ty [], none) := by
    unfold Rd.take
    dsimp only
    rw [List.nil_append, if_neg (not_not_intro hl), hsz, hty, if_neg (Nat.ne_of_gt (Nat.lt_of_le_of_lt (Nat.zero_le _) h1))]
  rw [read_some parse (n + 1) (.head []) _ _ _ (by unfold Rd.want; rw [hl]; rfl) (by intro h; rw [h] at hl; cases hl) ht]
  exact read_none parse n _ _ (by simp only [Rd.want, if_pos h1])

theorem poll_panic (parse : UInt8 → Bytes → Msg α) (s : Sys α) (ws : List Wr) (r : Rd) (rs : List Rx) (hl : s.live = true) (h : read parse (work s.inbox) s.sock.rd s.inbox = (r, rs, some .panic)) :
    (s.step parse (.poll ws)).crashed = true := by
  unfold Sys.step
  rw [if_neg (by rw [hl]; simp)]
  dsimp only
  unfold Sock.poll
  rw [h]

theorem arrive_new (parse : UInt8 → Bytes → Msg α) (b : Bytes) : ((Sys.new : Sys α).step parse (.arrive (.seg b))).live = true ∧ ((Sys.new : Sys α).step parse (.arrive (.seg b))).inbox = [.seg b] ∧
    ((Sys.new : Sys α).step parse (.arrive (.seg b))).sock.rd = .head [] := ⟨rfl, rfl, rfl⟩

/-- Five bytes of a client end the task of its session: the header of a frame of more than 65535 bytes. -/
theorem C179_size_violated (parse : UInt8 → Bytes → Msg α) (size : Nat) (h1 : 65535 < size) (h2 : size < 2 ^ 32) (ty : UInt8) (ws : List Wr) :
    ((Sys.new : Sys α).run parse [.arrive (.seg (be 4 size ++ [ty])), .poll ws]).crashed = true := by
  have hb : bufSize = 65535 := rfl
  have e := read_big parse size (by rw [hb]; exact h1) h2 ty (SamSocket.work [.seg (be 4 size ++ [ty])] - 1)
  have hwork : SamSocket.work [.seg (be 4 size ++ [ty])] - 1 + 2 = work [.seg (be 4 size ++ [ty])] := by
    have := SamSocket.work_pos [.seg (be 4 size ++ [ty])]
    unfold work
    omega
  rw [hwork] at e
  unfold Sys.run
  rw [List.foldl_cons, List.foldl_cons, List.foldl_nil]
  obtain ⟨a, b, c⟩ := arrive_new (α := α) parse (be 4 size ++ [ty])
  exact poll_panic parse _ ws _ _ a (by rw [b, c]; exact e)

/-! ## C180 -/

theorem poll_written (parse : UInt8 → Bytes → Msg α) (s : Sock) (rs : List Rx) (ws : List Wr) :
    (s.poll parse rs ws).1.w.written ++ (s.poll parse rs ws).1.w.rest = s.w.written ++ s.w.rest := by
  unfold Sock.poll
  cases read parse (work rs) s.rd rs with
  | mk r p =>
    obtain ⟨rs, o⟩ := p
    cases o with
    | some o => rfl
    | none =>
      have := SamSocket.rest_write (s.w.writeWork ws) s.w ws
      revert this
      dsimp only
      cases SamSocket.Sock.write (s.w.writeWork ws) s.w ws with
      | mk w b => intro h; cases b <;> exact h

theorem dead_run (parse : UInt8 → Bytes → Msg α) (ops : List Op) (s : Sys α) (h : s.live = false) : s.run parse ops = s := by
  induction ops with
  | nil => rfl
  | cons o ops ih =>
    show (s.step parse o).run parse ops = s
    rw [show s.step parse o = s by unfold Sys.step; rw [if_pos h]]
    exact ih

theorem run_written (parse : UInt8 → Bytes → Msg α) (ops : List Op) : ∀ s : Sys α,
    ∃ l, ((s.run parse ops).sock.w.written ++ (s.run parse ops).sock.w.rest) ++ l = s.sock.w.written ++ s.sock.w.rest ++ (sends ops).flatten ∧ ((s.run parse ops).live = true → l = []) := by
  induction ops with
  | nil => intro s; exact ⟨[], by simp [sends, Sys.run], fun _ => rfl⟩
  | cons o ops ih =>
    intro s
    by_cases hl : s.live = false
    · rw [dead_run parse _ s hl]
      exact ⟨(sends (o :: ops)).flatten, rfl, fun h => by rw [hl] at h; cases h⟩
    · obtain ⟨l, h1, h2⟩ := ih (s.step parse o)
      refine ⟨l, h1.trans ?_, h2⟩
      cases o with
      | arrive r =>
        unfold Sys.step
        rw [if_neg hl]
        rfl
      | send m =>
        have : s.step parse (.send m) = { s with sock := s.sock.send m } := by unfold Sys.step; rw [if_neg hl]
        rw [this]
        show s.sock.w.written ++ (s.sock.w.send m).rest ++ (sends ops).flatten = s.sock.w.written ++ s.sock.w.rest ++ (m :: sends ops).flatten
        simp only [SamSocket.Sock.rest, SamSocket.Sock.send, List.flatten_append, List.flatten_cons, List.flatten_nil, List.append_nil, List.append_assoc]
      | poll ws =>
        have e : (s.step parse (.poll ws)).sock = (s.sock.poll parse s.inbox ws).1 := by
          unfold Sys.step
          rw [if_neg hl]
          dsimp only
          cases s.sock.poll parse s.inbox ws with
          | mk a b =>
            obtain ⟨c, d⟩ := b
            cases d <;> rfl
        rw [e, poll_written]
        rfl

/-- What the client gets is a beginning of the messages that were sent to it, one after the other, however the stream cuts them. -/
theorem C180_order (parse : UInt8 → Bytes → Msg α) (ops : List Op) : ((Sys.new : Sys α).run parse ops).sock.w.written <+: (sends ops).flatten := by
  obtain ⟨l, h, _⟩ := run_written parse ops (Sys.new : Sys α)
  refine ⟨((Sys.new : Sys α).run parse ops).sock.w.rest ++ l, ?_⟩
  rw [← List.append_assoc, h]
  simp [Sys.new, Sock.new, SamSocket.Sock.new, SamSocket.Sock.rest]

/-- As long as the socket is open nothing is lost: what was not written is kept. -/
theorem C180_kept (parse : UInt8 → Bytes → Msg α) (ops : List Op) (hl : ((Sys.new : Sys α).run parse ops).live = true) :
    ((Sys.new : Sys α).run parse ops).sock.w.written ++ ((Sys.new : Sys α).run parse ops).sock.w.rest = (sends ops).flatten := by
  obtain ⟨l, h, h0⟩ := run_written parse ops (Sys.new : Sys α)
  rw [h0 hl, List.append_nil] at h
  rw [h]
  simp [Sys.new, Sock.new, SamSocket.Sock.new, SamSocket.Sock.rest]

/-- When there is nothing to read and the stream takes what it is given, polling once writes all that was sent. -/
theorem C180_flushed (parse : UInt8 → Bytes → Msg α) (ops : List Op) (k m : Nat) (hs : ∀ x ∈ sends ops, x ≠ [] ∧ x.length ≤ k) (hl : ((Sys.new : Sys α).run parse ops).live = true)
    (hi : ((Sys.new : Sys α).run parse ops).inbox = []) (hd : ∀ size ty got, ((Sys.new : Sys α).run parse ops).sock.rd = .frame size ty got → size ≤ bufSize)
    (hm : ((Sys.new : Sys α).run parse ops).sock.w.queue.length < m) :
    ((Sys.new : Sys α).run parse (ops ++ [.poll (SamSocket.greedy m k)])).sock.w.written = (sends ops).flatten := by
  have whole : ∀ (ops : List Op) (s : Sys α), (∀ x ∈ sends ops, x ≠ [] ∧ x.length ≤ k) → SamSocket.Whole k s.sock.w → SamSocket.Whole k (s.run parse ops).sock.w := by
    intro ops
    induction ops with
    | nil => intro s _ h; exact h
    | cons o ops ih =>
      intro s hx hw
      have hx' : ∀ x ∈ sends ops, x ≠ [] ∧ x.length ≤ k := by
        intro x hxm
        refine hx x ?_
        cases o with
        | send m => exact List.mem_cons_of_mem _ hxm
        | arrive r => exact hxm
        | poll ws => exact hxm
      refine ih _ hx' ?_
      unfold Sys.step
      split
      · exact hw
      · cases o with
        | arrive r => exact hw
        | send m =>
          refine ⟨?_, hw.2⟩
          intro x hxm
          rcases List.mem_append.mp hxm with hxm | hxm
          · exact hw.1 x hxm
          · rw [List.mem_singleton.mp hxm]
            exact hx m (List.mem_cons_self)
        | poll ws =>
          have : SamSocket.Whole k (s.sock.poll parse s.inbox ws).1.w := by
            unfold Sock.poll
            cases read parse (work s.inbox) s.sock.rd s.inbox with
            | mk r p =>
              obtain ⟨rs, o⟩ := p
              cases o with
              | some o => exact hw
              | none =>
                have h := SamSocket.whole_write (s.sock.w.writeWork ws) s.sock.w ws hw
                revert h
                dsimp only
                cases SamSocket.Sock.write (s.sock.w.writeWork ws) s.sock.w ws with
                | mk w b => intro h; cases b <;> exact h
          revert this
          dsimp only
          cases s.sock.poll parse s.inbox ws with
          | mk a b =>
            obtain ⟨c, d⟩ := b
            intro h
            cases d <;> exact h
  have hw := whole ops (Sys.new : Sys α) hs ⟨(by intro x hx; cases hx), (by intro off x h; cases h)⟩
  have hk := C180_kept parse ops hl
  have e : (Sys.new : Sys α).run parse (ops ++ [.poll (SamSocket.greedy m k)]) = ((Sys.new : Sys α).run parse ops).step parse (.poll (SamSocket.greedy m k)) := by
    unfold Sys.run
    rw [List.foldl_append]
    rfl
  rw [e]
  generalize (Sys.new : Sys α).run parse ops = s at hl hi hd hm hw hk ⊢
  have hread : read parse (work s.inbox) s.sock.rd s.inbox = (s.sock.rd, [], none) := by
    rw [hi]
    show read parse (SamSocket.work [] + 1) s.sock.rd [] = _
    unfold read
    cases hr : s.sock.rd with
    | head got => rfl
    | frame size ty got =>
      dsimp only [Rd.want]
      rw [if_neg (Nat.not_lt.mpr (hd size ty got hr))]
  have hf := SamSocket.flush k s.sock.w.queue s.sock.w (s.sock.w.writeWork (SamSocket.greedy m k)) m rfl hw.1 hw.2
    (by
      unfold SamSocket.Sock.writeWork SamSocket.greedy
      rw [List.length_replicate]
      omega) (by omega)
  have hr := SamSocket.rest_write (s.sock.w.writeWork (SamSocket.greedy m k)) s.sock.w (SamSocket.greedy m k)
  unfold Sys.step
  rw [if_neg (by rw [hl]; simp)]
  dsimp only
  unfold Sock.poll
  rw [hread]
  dsimp only
  revert hf hr
  cases SamSocket.Sock.write (s.sock.w.writeWork (SamSocket.greedy m k)) s.sock.w (SamSocket.greedy m k) with
  | mk w b =>
    intro ⟨h1, h2⟩ hr
    dsimp only at h1 h2 hr
    subst h1
    rw [h2, List.append_nil, hk] at hr
    exact hr

/-! ## The hypotheses are met -/

/-- A client that understands messages of type 1 only. -/
def toyParse (ty : UInt8) (b : Bytes) : Msg Bytes := if ty = 1 then .ok b else if ty = 2 then .bad else .panic

def toyFrames : List (UInt8 × Bytes) := [(1, [7, 8]), (2, []), (1, [])]

def toyOps : List Op := [.arrive (.seg [0, 0]), .poll [], .arrive (.seg [0, 2, 1, 7]), .send [1, 2, 3], .poll [.took 2, .full], .arrive (.seg [8, 0, 0, 0, 0, 2, 0, 0, 0, 0, 1])]

example : bytes (arrivals toyOps) = stream toyFrames := by decide +kernel
example : (∀ f ∈ toyFrames, f.2.length ≤ 65535 ∧ toyParse f.1 f.2 ≠ .panic) := by
  simp [toyFrames, toyParse]
example : ((Sys.new : Sys Bytes).run toyParse (toyOps ++ [[], [.took 5], []].map .poll)).msgs = [[7, 8], []] := by decide +kernel
example : ((Sys.new : Sys Bytes).run toyParse (toyOps ++ [[], [], []].map .poll)).live = true ∧ ((Sys.new : Sys Bytes).run toyParse (toyOps ++ [[], [], []].map .poll)).inbox.length = 0 := by
  decide +kernel
example : ((Sys.new : Sys Bytes).run toyParse (toyOps ++ [[], [.took 5], []].map .poll)).sock.w.written = [1, 2] := by decide +kernel
example : ((Sys.new : Sys Bytes).run toyParse (toyOps ++ [[], [], [.took 5]].map .poll)).sock.w.written = [1, 2, 3] := by decide +kernel
example : messages toyParse toyFrames = [[7, 8], []] := by decide +kernel
example := C179_size_violated toyParse 65536 (by decide) (by decide) 1 []

end Emissary.I2cpSocket
